import Verif.Lemmas.Mode
import Verif.Props.Entry
import Verif.Props.Expression
import Verif.Lemmas.PyInt
/-! C19–C21, C26–C28, C51: attribute types and the tests made of them. -/
namespace FF
open Spec

/-- The types comparing numbers. -/
def Ty.numeric : Ty → Bool
  | .number | .size | .time | .duration => true
  | _ => false

/-! ### Numbers -/

theorem numberTest_iff {op : Str} (h : op ∈ Ty.operators .number) (b v : Int) : numberTest op b v = true ↔ cmp op v b := by
  simp only [Ty.operators, List.mem_cons, List.not_mem_nil, or_false] at h
  rcases h with rfl | rfl | rfl | rfl | rfl <;> simp [numberTest, cmp]

/-- C19: for each number-like type and each value accepted on the command line there is one bound with which all five operators
compare as their arithmetic counterparts do. -/
theorem C19_order (env : TestEnv) (mode : CaseMode) {ty : Ty} (hty : ty.numeric = true) {s : Str} {b : Int} (hs : ty.input env s = some (.int b))
    {op : Str} (hop : op ∈ [['='], ['+'], ['-'], ['+', '='], ['-', '=']]) :
    ∃ t, createTest env mode ty op none s = .ok t ∧ ∀ e (v : Int), ty.test env.low t e (.int v) = true ↔ cmp op v b := by
  have hop' : op ∈ Ty.operators .number := by
    simp only [List.mem_cons, List.not_mem_nil, or_false] at hop
    rcases hop with rfl | rfl | rfl | rfl | rfl <;> decide
  have : ty.operators = Ty.operators .number := by cases ty <;> first | rfl | simp [Ty.numeric] at hty
  refine ⟨{ op := op, type := ty, value := .val (.int b), ignoreCase := none }, ?_, ?_⟩
  · unfold createTest
    rw [this, if_neg (by simpa using hop')]
    unfold testInput
    simp only [hs]
    cases ty <;> first | (simp [Ty.numeric] at hty; done) | simp [Ty.stringType]
  · intro e v
    cases ty <;> first | (simp only [Ty.test]; exact numberTest_iff hop' b v) | simp [Ty.numeric] at hty

/-- The same for a bound taken from a reference file. -/
theorem C19_reference (env : TestEnv) (mode : CaseMode) {ty : Ty} (hty : ty.numeric = true) (s : Str) (b : Int)
    {op : Str} (hop : op ∈ [['='], ['+'], ['-'], ['+', '='], ['-', '=']]) :
    ∃ t, createTest env mode ty op (some (some (.int b))) s = .ok t ∧ ∀ e (v : Int), ty.test env.low t e (.int v) = true ↔ cmp op v b := by
  have hop' : op ∈ Ty.operators .number := by
    simp only [List.mem_cons, List.not_mem_nil, or_false] at hop
    rcases hop with rfl | rfl | rfl | rfl | rfl <;> decide
  have : ty.operators = Ty.operators .number := by cases ty <;> first | rfl | simp [Ty.numeric] at hty
  refine ⟨{ op := op, type := ty, value := .val (.int b), ignoreCase := none }, ?_, ?_⟩
  · unfold createTest
    rw [this, if_neg (by simpa using hop')]
    unfold testInput
    cases ty <;> first | (simp [Ty.numeric] at hty; done) | simp [Ty.stringType]
  · intro e v
    cases ty <;> first | (simp only [Ty.test]; exact numberTest_iff hop' b v) | simp [Ty.numeric] at hty

/-- Every accepted value of a number-like type is a number, so `C19_order` covers all accepted values. -/
theorem C19_input (env : TestEnv) {ty : Ty} (hty : ty.numeric = true) {s : Str} {v : Val} (h : ty.input env s = some v) : ∃ b, v = .int b := by
  cases ty <;> simp [Ty.numeric] at hty <;> simp only [Ty.input, Option.map_eq_some_iff] at h <;> (obtain ⟨b, _, rfl⟩ := h; exact ⟨_, rfl⟩)

/-- C19: exactly one of `-`, `=`, `+` holds, and the two others are their unions with `=`. -/
theorem C19_trichotomy (env : TestEnv) (mode : CaseMode) {ty : Ty} (hty : ty.numeric = true) {s : Str} {b : Int} (hs : ty.input env s = some (.int b))
    (e : EntryInfo) (v : Int) : ∃ lt eq gt le ge,
      createTest env mode ty ['-'] none s = .ok lt ∧ createTest env mode ty ['='] none s = .ok eq ∧ createTest env mode ty ['+'] none s = .ok gt ∧
      createTest env mode ty ['-', '='] none s = .ok le ∧ createTest env mode ty ['+', '='] none s = .ok ge ∧
      ([lt, eq, gt].filter (fun t => ty.test env.low t e (.int v))).length = 1 ∧
      ty.test env.low le e (.int v) = (ty.test env.low lt e (.int v) || ty.test env.low eq e (.int v)) ∧
      ty.test env.low ge e (.int v) = (ty.test env.low gt e (.int v) || ty.test env.low eq e (.int v)) := by
  obtain ⟨lt, a1, b1⟩ := C19_order env mode hty hs (op := ['-']) (by simp)
  obtain ⟨eq, a2, b2⟩ := C19_order env mode hty hs (op := ['=']) (by simp)
  obtain ⟨gt, a3, b3⟩ := C19_order env mode hty hs (op := ['+']) (by simp)
  obtain ⟨le, a4, b4⟩ := C19_order env mode hty hs (op := ['-', '=']) (by simp)
  obtain ⟨ge, a5, b5⟩ := C19_order env mode hty hs (op := ['+', '=']) (by simp)
  refine ⟨lt, eq, gt, le, ge, a1, a2, a3, a4, a5, ?_⟩
  replace b1 := b1 e v; replace b2 := b2 e v; replace b3 := b3 e v; replace b4 := b4 e v; replace b5 := b5 e v
  simp only [cmp] at b1 b2 b3 b4 b5
  have c1 := Bool.eq_iff_iff.2 (b1.trans (decide_eq_true_iff).symm)
  have c2 := Bool.eq_iff_iff.2 (b2.trans (decide_eq_true_iff).symm)
  have c3 := Bool.eq_iff_iff.2 (b3.trans (decide_eq_true_iff).symm)
  have c4 := Bool.eq_iff_iff.2 (b4.trans (decide_eq_true_iff).symm)
  have c5 := Bool.eq_iff_iff.2 (b5.trans (decide_eq_true_iff).symm)
  rw [c4, c5]
  simp only [List.filter, c1, c2, c3]
  rcases Int.lt_trichotomy v b with h | h | h
  · have h1 : ¬ v = b := by omega
    have h2 : ¬ b < v := by omega
    have h3 : ¬ b ≤ v := by omega
    have h4 : v ≤ b := by omega
    simp [h, h1, h2, h3, h4]
  · subst h; simp
  · have h1 : ¬ v = b := by omega
    have h2 : ¬ v < b := by omega
    have h3 : ¬ v ≤ b := by omega
    have h4 : b ≤ v := by omega
    simp [h, h1, h2, h3, h4]

/-! ### Modes -/

theorem modeTest_iff {op : Str} (h : op ∈ Ty.operators .mode) (b v : Nat) : modeTest op b v = true ↔ modeCmp op v b := by
  have key : ∀ x y : Nat, (x = y ↔ ∀ i, x.testBit i = y.testBit i) := fun x y => ⟨fun h i => by rw [h], Nat.eq_of_testBit_eq⟩
  simp only [Ty.operators, List.mem_cons, List.not_mem_nil, or_false] at h
  rcases h with rfl | rfl | rfl
  · simp only [modeTest, modeCmp]
    simp [key, testBit_modeAll]
    constructor
    · intro h i hi; have := h i; simpa [hi] using this
    · intro h i
      by_cases hi : i < 12
      · simp [hi, h i hi]
      · simp [hi]
  · simp only [modeTest, modeCmp]
    simp [key, testBit_modeAll]
    constructor
    · intro h i hi hb; have := h i; simpa [hi, hb] using this
    · intro h i hb hi; exact ⟨h i hi hb, hi⟩
  · simp only [modeTest, modeCmp]
    simp [key, testBit_modeAll]
    constructor
    · rintro ⟨i, h⟩; exact ⟨i, by simp_all⟩
    · rintro ⟨i, h⟩; exact ⟨i, by simp_all⟩

/-- C20: for every accepted mode value the three operators compare the twelve permission bits as documented; other bits of the attribute's value
(`v` is an arbitrary number) are irrelevant. -/
theorem C20_bits (env : TestEnv) (mode : CaseMode) {s : Str} {b : Nat} (hs : parseMode s = some b) {op : Str} (hop : op ∈ [['='], [':'], ['~']]) :
    ∃ t, createTest env mode .mode op none s = .ok t ∧ ∀ e (v : Nat), Ty.test env.low .mode t e (.int v) = true ↔ modeCmp op v b := by
  have hop' : op ∈ Ty.operators .mode := hop
  refine ⟨{ op := op, type := .mode, value := .val (.int b), ignoreCase := none }, ?_, ?_⟩
  · unfold createTest
    rw [if_neg (by simpa using hop')]
    simp [testInput, Ty.input, hs, Ty.stringType]
  · intro e v
    simp only [Ty.test, Int.toNat_natCast]
    exact modeTest_iff hop' b v

/-- The same with a reference file: all bits of the file's own mode beyond the twelve are irrelevant, too. -/
theorem C20_reference (env : TestEnv) (mode : CaseMode) (s : Str) (b : Nat) {op : Str} (hop : op ∈ [['='], [':'], ['~']]) :
    ∃ t, createTest env mode .mode op (some (some (.int b))) s = .ok t ∧ ∀ e (v : Nat), Ty.test env.low .mode t e (.int v) = true ↔ modeCmp op v b := by
  have hop' : op ∈ Ty.operators .mode := hop
  refine ⟨{ op := op, type := .mode, value := .val (.int b), ignoreCase := none }, ?_, ?_⟩
  · unfold createTest
    rw [if_neg (by simpa using hop')]
    simp [testInput, Ty.stringType]
  · intro e v
    simp only [Ty.test, Int.toNat_natCast]
    exact modeTest_iff hop' b v

/-! ### Mode values -/

theorem splitOn_joinWith {c : Char} : ∀ {l : List Str}, l ≠ [] → (∀ x ∈ l, c ∉ x) → splitOn c (joinWith c l) = l
  | [], h, _ => absurd rfl h
  | [a], _, h => by simpa [joinWith] using splitOn_not_mem c a (h a (by simp))
  | a :: b :: l, _, h => by
    rw [joinWith, splitOn_append_sep c a _ (h a (by simp)), splitOn_joinWith (by simp) (fun x hx => h x (by simp [hx]))]
    simp

/-- What a list of clauses means to ff: the union of the classes of all clauses, intersected with the permissions accumulated over all clauses. -/
theorem C21_meaning {cs : List Clause} (hne : cs ≠ []) (h : ∀ c ∈ cs, c.Ok) : ∃ m, parseMode (joinWith ',' (cs.map Clause.text)) = some m ∧ m < 4096 ∧
    ∀ i, i < 12 → m.testBit i = (cs.any (fun c => c.covers i) &&
      cs.foldl (fun b c => if c.op = '-' then b && !c.names i else b || c.names i) false) := by
  unfold parseMode
  rw [splitOn_joinWith (by simpa using hne) (by
    intro x hx
    obtain ⟨c, hc, rfl⟩ := List.mem_map.1 hx
    exact clause_no_comma (h c hc))]
  obtain ⟨st, h1, h2⟩ := modeLoop_symbolic cs (0, 0) h
  have h3 := modeLoop_high cs (0, 0) st h (by simp) h1
  refine ⟨_, by rw [h1]; rfl, ?_, ?_⟩
  · apply Nat.lt_pow_two_of_testBit (n := 12)
    intro i hi
    rw [Nat.testBit_and, h3 i hi]; rfl
  · intro i hi
    obtain ⟨a, b⟩ := h2 i hi
    rw [Nat.testBit_and, a, b]
    simp

/-- C21, symbolic notation, as far as it holds: if all clauses are about the same classes and only the first one may use `=`, the result has
exactly the bits chmod would set starting from zero. In particular a single clause always does. Missing: clauses for different classes (`C21_false`). -/
theorem C21_symbolic_partial {c : Clause} {cs : List Clause} (h : ∀ x ∈ c :: cs, x.Ok)
    (hsame : ∀ x ∈ cs, x.op ≠ '=' ∧ ∀ i, i < 12 → x.covers i = c.covers i) :
    ∃ m, parseMode (joinWith ',' ((c :: cs).map Clause.text)) = some m ∧ m < 4096 ∧ ∀ i, i < 12 → m.testBit i = chmodBit (c :: cs) i := by
  obtain ⟨m, h1, h2, h3⟩ := C21_meaning (cs := c :: cs) (by simp) h
  refine ⟨m, h1, h2, ?_⟩
  intro i hi
  rw [h3 i hi]
  have hops : ∀ x ∈ c :: cs, x.op = '-' ∨ x.op = '+' ∨ x.op = '=' := fun x hx => by simpa using (h x hx).2.1
  simp only [chmodBit, List.foldl_cons, List.any_cons, Bool.false_or, Bool.false_and]
  cases hc : c.covers i with
  | false =>
    have e1 : cs.any (fun c => c.covers i) = false := by
      rw [List.any_eq_false]; intro x hx; simp [(hsame x hx).2 i hi, hc]
    have e2 : ∀ l : List Clause, (∀ x ∈ l, x.covers i = false) → ∀ b, l.foldl (fun b c => c.apply i b) b = b := by
      intro l
      induction l with
      | nil => intro _ b; rfl
      | cons y ys ih => intro hl b; rw [List.foldl_cons, ih (fun x hx => hl x (by simp [hx]))]; simp [Clause.apply, hl y (by simp)]
    rw [e1, e2 cs (fun x hx => by rw [(hsame x hx).2 i hi, hc])]
    simp [Clause.apply, hc]
  | true =>
    simp only [Bool.true_or, Bool.true_and]
    have e0 : (if c.op = '-' then false else c.names i) = c.apply i false := by
      rcases hops c (by simp) with h | h | h <;> simp [Clause.apply, hc, h]
    rw [e0]
    have e2 : ∀ l : List Clause, (∀ x ∈ l, x ∈ cs) → ∀ b, l.foldl (fun b c => if c.op = '-' then b && !c.names i else b || c.names i) b =
        l.foldl (fun b c => c.apply i b) b := by
      intro l
      induction l with
      | nil => intro _ b; rfl
      | cons y ys ih =>
        intro hl b
        rw [List.foldl_cons, List.foldl_cons, ih (fun x hx => hl x (by simp [hx]))]
        congr 1
        have hy := hl y (by simp)
        have hcov : y.covers i = true := by rw [(hsame y hy).2 i hi, hc]
        rcases hops y (by simp [hy]) with h | h | h
        · simp [Clause.apply, hcov, h]
        · simp [Clause.apply, hcov, h]
        · exact absurd h (hsame y hy).1
    exact e2 cs (fun x hx => hx) _

example : (∀ x ∈ [⟨"u".toList, '=', "rwx".toList⟩, ⟨"u".toList, '-', "w".toList⟩], Clause.Ok x) ∧
    parseMode "u=rwx,u-w".toList = some 0o500 ∧ parseMode "a+rX".toList = some 0o444 ∧ parseMode "ug+s".toList = some 0o6000 := by
  refine ⟨?_, by decide, by decide, by decide⟩
  intro x hx
  simp only [List.mem_cons, List.not_mem_nil, or_false] at hx
  rcases hx with rfl | rfl <;> simp [Clause.Ok]

/-- C21 is false for clauses about different classes: `u=rw,go=r` is read as 666, chmod sets 644. And trailing garbage is accepted. -/
theorem C21_false : parseMode "u=rw,go=r".toList = some 0o666 ∧
    (∀ x ∈ [⟨"u".toList, '=', "rw".toList⟩, ⟨"go".toList, '=', "r".toList⟩], Clause.Ok x) ∧
    (∀ i, i < 12 → (0o644 : Nat).testBit i = chmodBit [⟨"u".toList, '=', "rw".toList⟩, ⟨"go".toList, '=', "r".toList⟩] i) ∧
    parseMode "u+r and more".toList = some 0o400 := by
  refine ⟨by decide, ?_, by decide, by decide⟩
  intro x hx
  simp only [List.mem_cons, List.not_mem_nil, or_false] at hx
  rcases hx with rfl | rfl <;> simp [Clause.Ok]

theorem octDigit : ∀ d, d < 8 → isOct (Nat.digitChar d) = true ∧ digitVal (Nat.digitChar d) = d := by decide

theorem octal_append (a : Str) (c : Char) : octal (a ++ [c]) = octal a * 8 + digitVal c := by simp [octal]

theorem octal_toDigits (n : Nat) : (∀ c ∈ Nat.toDigits 8 n, isOct c = true) ∧ octal (Nat.toDigits 8 n) = n ∧ Nat.toDigits 8 n ≠ [] := by
  induction n using Nat.strongRecOn with
  | _ n ih =>
    by_cases h : n < 8
    · rw [Nat.toDigits_of_lt_base h]
      have := octDigit n h
      simp [octal, this]
    · rw [Nat.toDigits_of_base_le (by omega) (by omega)]
      obtain ⟨h1, h2, h3⟩ := ih (n / 8) (by omega)
      have hd := octDigit (n % 8) (by omega)
      refine ⟨?_, ?_, by simp⟩
      · intro c hc
        rcases List.mem_append.1 hc with hc | hc
        · exact h1 c hc
        · simp at hc; rw [hc]; exact hd.1
      · rw [octal_append, h2, hd.2]; omega

theorem octal_zeros (k : Nat) (s : Str) : octal (List.replicate k '0' ++ s) = octal s := by
  induction k with
  | zero => simp
  | succ k ih => rw [List.replicate_succ, List.cons_append]; simpa [octal, digitVal] using ih

theorem oct_cases {c : Char} (h : isOct c = true) : isWho c = false ∧ isModeOp c = false ∧ c ≠ ',' := by
  simp only [isOct, List.mem_cons, List.not_mem_nil, or_false, decide_eq_true_eq] at h
  rcases h with rfl | rfl | rfl | rfl | rfl | rfl | rfl | rfl <;> decide

theorem modeClause_octal {s : Str} (h : ∀ c ∈ s, isOct c = true) (hne : s ≠ []) (st : Nat × Nat) :
    modeClause st s = some (modeAll, st.2 ||| octal s) := by
  obtain ⟨d, ds, rfl⟩ : ∃ d ds, s = d :: ds := by
    cases s with
    | nil => exact absurd rfl hne
    | cons d ds => exact ⟨d, ds, rfl⟩
  obtain ⟨hw, ho, _⟩ := oct_cases (h d (by simp))
  have hm : modeRe.match' (d :: ds) = some ([(5, d :: ds)], []) := by
    have a1 : Re.run (β := Caps × Str) (.seq (.cap 1 (.star true isWho)) (.seq (.cap 2 (.chr isModeOp)) (.cap 3 (.plus true isPerm)))) (d :: ds) []
        (fun s' c => some (c, s')) = none := by
      simp [Re.run, starG, hw, ho]
    have a2 := starG_some (p := isOct) (k := fun s' => if s' = [] ∨ s' = ['\n'] then some (([(5, (d :: ds).take ((d :: ds).length - s'.length))] : Caps), s') else none)
        (w := ds) (r := []) (v := ([(5, d :: ds)], [])) (fun x hx => h x (by simp [hx])) (by simp) (by simp)
    rw [List.append_nil] at a2
    show Re.run (.alt _ _) _ _ _ = _
    rw [Re.run, a1]
    simp only [Re.opt, Re.run, ho, Re.plus, h d (by simp), if_true]
    exact a2
  unfold modeClause
  rw [hm]
  simp [Caps.get]

/-- C21, octal notation: every octal numeral, with any number of leading zeros, denotes the low twelve bits of its value. -/
theorem C21_octal (n k : Nat) : parseMode (List.replicate k '0' ++ Nat.toDigits 8 n) = some (n % 4096) := by
  obtain ⟨h1, h2, h3⟩ := octal_toDigits n
  have hd : ∀ c ∈ List.replicate k '0' ++ Nat.toDigits 8 n, isOct c = true := by
    intro c hc
    rcases List.mem_append.1 hc with hc | hc
    · rw [List.eq_of_mem_replicate hc]; decide
    · exact h1 c hc
  unfold parseMode
  rw [splitOn_not_mem _ _ (fun hm => (oct_cases (hd _ hm)).2.2 rfl)]
  simp only [modeLoop, modeClause_octal hd (by simp [h3]), octal_zeros, h2, Option.map_some, Nat.zero_or]
  have : modeAll = 2 ^ 12 - 1 := by decide
  rw [Nat.and_comm, this, Nat.and_two_pow_sub_one_eq_mod]

example : parseMode "00644".toList = some 0o644 ∧ parseMode "17777".toList = some 0o7777 := by decide

theorem modeClause_isSome (st : Nat × Nat) (part : Str) : (modeClause st part).isSome = true ↔ ModePart part := by
  have h1 : (modeClause st part).isSome = (modeRe.match' part).isSome := by
    unfold modeClause
    cases modeRe.match' part <;> rfl
  rw [h1, Re.match', Re.run_isSome_iff]
  simp only [Option.isSome_some, and_true]
  constructor
  · rintro ⟨s', c', h | h⟩
    · obtain ⟨s1, c1, ⟨c2, ⟨who, rfl, hw, -⟩, -⟩, s2, c3, ⟨c4, ⟨op, rfl, ho, -⟩, -⟩, c5, hp, -⟩ := h
      obtain ⟨w, hne, rfl, hw', -⟩ := Re.mat_plus.1 hp
      exact .inl ⟨⟨who, op, w⟩, s', ⟨fun x hx => by simpa [isWho] using hw x hx, by simpa [isModeOp] using ho, hne, fun x hx => by simpa [isPerm] using hw' x hx⟩,
        by simp [Clause.text]⟩
    · obtain ⟨s1, c1, h1, s2, c2, ⟨c3, hp, -⟩, he, -, -⟩ := h
      obtain ⟨w, hne, rfl, hw', -⟩ := Re.mat_plus.1 hp
      have hd : ∀ d ∈ w, d ∈ ['0', '1', '2', '3', '4', '5', '6', '7'] := fun x hx => by simpa [isOct] using hw' x hx
      rcases Re.mat_opt.1 h1 with ⟨c4, ⟨op, rfl, ho, -⟩, -⟩ | ⟨h1, -⟩
      · exact .inr ⟨[op], w, s2, .inr ⟨op, by simpa [isModeOp] using ho, rfl⟩, hne, hd, he, by simp⟩
      · exact .inr ⟨[], w, s2, .inl rfl, hne, hd, he, by simp [← h1]⟩
  · rintro (⟨c, rest, ⟨k1, k2, k3, k4⟩, rfl⟩ | ⟨op, w, nl, hop, hne, hd, hnl, rfl⟩)
    · refine ⟨rest, _, .inl ⟨c.op :: (c.perms ++ rest), _, ⟨_, ⟨c.who, by simp [Clause.text], fun x hx => by simpa [isWho] using k1 x hx, rfl⟩, rfl⟩, c.perms ++ rest, _,
        ⟨_, ⟨c.op, rfl, by simpa [isModeOp] using k2, rfl⟩, rfl⟩, _, Re.mat_plus.2 ⟨c.perms, k3, rfl, fun x hx => by simpa [isPerm] using k4 x hx, rfl⟩, rfl⟩⟩
    · have hw : ∀ x ∈ w, isOct x = true := fun x hx => by simpa [isOct] using hd x hx
      rcases hop with rfl | ⟨o, ho, rfl⟩
      · exact ⟨nl, _, .inr ⟨w ++ nl, _, Re.mat_opt.2 (.inr ⟨by simp, rfl⟩), nl, _, ⟨_, Re.mat_plus.2 ⟨w, hne, rfl, hw, rfl⟩, rfl⟩, hnl, rfl, rfl⟩⟩
      · exact ⟨nl, _, .inr ⟨w ++ nl, _, Re.mat_opt.2 (.inl ⟨_, ⟨o, by simp, by simpa [isModeOp] using ho, rfl⟩, rfl⟩), nl, _, ⟨_, Re.mat_plus.2 ⟨w, hne, rfl, hw, rfl⟩, rfl⟩, hnl, rfl, rfl⟩⟩

/-- C21: which values are accepted: every part between commas begins with a clause or is an octal number. -/
theorem C21_accepted {parts : List Str} (hne : parts ≠ []) (hc : ∀ p ∈ parts, ',' ∉ p) :
    (parseMode (joinWith ',' parts)).isSome = true ↔ ∀ p ∈ parts, ModePart p := by
  unfold parseMode
  rw [splitOn_joinWith hne hc, Option.isSome_map]
  have : ∀ (l : List Str) (st : Nat × Nat), (modeLoop st l).isSome = true ↔ ∀ p ∈ l, ModePart p := by
    intro l
    induction l with
    | nil => intro st; simp [modeLoop]
    | cons p l ih =>
      intro st
      have hp := modeClause_isSome st p
      simp only [modeLoop, List.forall_mem_cons]
      cases h : modeClause st p with
      | none => rw [h] at hp; simpa using fun h' => absurd (hp.2 h') (by simp)
      | some st' =>
        rw [h] at hp
        simp only
        rw [ih st']
        exact ⟨fun h => ⟨hp.1 rfl, h⟩, fun h => h.2⟩
  exact this parts _

/-- Accepted and refused. -/
example : (parseMode "u+r,644".toList).isSome = true ∧ (parseMode "u+r and more".toList).isSome = true ∧ (parseMode "u+r,".toList).isSome = false ∧ (parseMode "64x".toList).isSome = false ∧
    (parseMode "rwx".toList).isSome = false ∧ joinWith ',' ["u+r".toList, "644".toList] = "u+r,644".toList := by decide

/-! ### Booleans -/

/-- C26: in debug mode a Boolean value is accepted iff it is one of the documented spellings up to case, and read as documented. -/
theorem C26_debug_partial {env : TestEnv} (hl : Lower env.low) (hd : env.debug = true) (s : Str) (b : Bool) :
    Ty.input env .boolean s = some (.bool b) ↔ s.map Char.toLower ∈ (if b then trueWords else falseWords) := by
  have key : ∀ l : List Str, (∀ w ∈ l, w ∈ trueWords ++ falseWords) → (env.low s ∈ l ↔ s.map Char.toLower ∈ l) := by
    intro l hw
    constructor
    · intro h; rwa [(hl.words _ (hw _ h) s).1 rfl]
    · intro h; rwa [(hl.words _ (hw _ h) s).2 rfl]
  have kt := key trueWords (by intro w hw; simp [hw])
  have kf := key falseWords (by intro w hw; simp [hw])
  have e1 : booleanTrue = trueWords := by decide
  have e2 : booleanFalse = falseWords := by decide
  have disj : ∀ w ∈ trueWords, w ∉ falseWords := by decide
  simp only [Ty.input, booleanInput, hd, e1, e2, Bool.true_and]
  by_cases h1 : env.low s ∈ trueWords
  · have h2 := disj _ h1
    cases b <;> simp [h1, h2, ← kt, ← kf]
  · by_cases h2 : env.low s ∈ falseWords
    · cases b <;> simp [h1, h2, ← kt, ← kf]
    · cases b <;> simp [h1, h2, ← kt, ← kf]

/-- C26: whatever the mode the documented spellings are read as documented. -/
theorem C26_documented {env : TestEnv} (hl : Lower env.low) (s : Str) (b : Bool) (h : s.map Char.toLower ∈ (if b then trueWords else falseWords)) :
    Ty.input env .boolean s = some (.bool b) := by
  cases hd : env.debug with
  | true => exact (C26_debug_partial hl hd s b).2 h
  | false =>
    have := (C26_debug_partial (env := { env with debug := true }) hl rfl s b).2 h
    simp only [Ty.input, booleanInput, Bool.true_and, hd, Bool.false_and] at this ⊢
    split at this
    · simp at this
    · simpa using this

/-- What the installed program (`bin/ff` starts python with -O) does with other values: they are all read as false. -/
theorem C26_optimised {env : TestEnv} (hl : Lower env.low) (hd : env.debug = false) (s : Str) :
    Ty.input env .boolean s = some (.bool (s.map Char.toLower ∈ trueWords)) := by
  have e1 : booleanTrue = trueWords := by decide
  have kt : env.low s ∈ trueWords ↔ s.map Char.toLower ∈ trueWords := by
    constructor
    · intro h; rwa [(hl.words _ (by simp [h]) s).1 rfl]
    · intro h; rwa [(hl.words _ (by simp [h]) s).2 rfl]
  simp only [Ty.input, booleanInput, hd, Bool.false_and, e1]
  simp [kt]

/-- ASCII lower-casing meets the assumptions. -/
theorem lower_ascii : Lower (List.map Char.toLower) := by
  constructor
  · intro s
    rw [List.map_map]
    apply List.map_congr_left
    intro c _
    simp only [Function.comp]
    unfold Char.toLower
    split
    · rename_i h
      split
      · rename_i h2
        exfalso
        simp only [UInt32.le_iff_toNat_le, ge_iff_le] at h h2
        revert h h2
        simp
        omega
      · rfl
    · rfl
  · intro w _ s; rfl

/-- C26 is false for the installed program: `nope` and the empty string are accepted. -/
theorem C26_false (low : Str → Str) (times compile glob) (h : low "nope".toList = "nope".toList) :
    Ty.input { low := low, debug := false, times := times, compile := compile, glob := glob } .boolean "nope".toList = some (.bool false) := by
  simp only [Ty.input, booleanInput, h]; decide

/-! ### Strings -/

theorem isInfix_iff (a s : Str) : isInfix a s = true ↔ ∃ x y, s = x ++ a ++ y := by
  induction s with
  | nil =>
    simp only [isInfix, List.isPrefixOf_iff_prefix, List.prefix_nil]
    constructor
    · rintro rfl; exact ⟨[], [], rfl⟩
    · rintro ⟨x, y, h⟩
      have := congrArg List.length h
      simp at this
      exact List.eq_nil_of_length_eq_zero (by omega)
  | cons c cs ih =>
    simp only [isInfix, Bool.or_eq_true, List.isPrefixOf_iff_prefix, ih]
    constructor
    · rintro (⟨y, h⟩ | ⟨x, y, h⟩)
      · exact ⟨[], y, by simpa using h.symm⟩
      · exact ⟨c :: x, y, by simp [h]⟩
    · rintro ⟨x, y, h⟩
      cases x with
      | nil => left; exact ⟨y, by simpa using h.symm⟩
      | cons d ds =>
        simp only [List.cons_append, List.cons.injEq] at h
        right; exact ⟨ds, y, by simpa using h.2⟩

/-- Whether case is ignored, as documented: with `smart` iff the value has no upper-case letter, i.e. does not change by lower-casing. -/
def insensitive (low : Str → Str) : CaseMode → Str → Prop
  | .smart, s => low s = s
  | .ignore, _ => True
  | .sensitive, _ => False

instance (low : Str → Str) (m : CaseMode) (s : Str) : Decidable (insensitive low m s) := by
  cases m <;> simp only [insensitive] <;> infer_instance

/-- Lower-case if case is ignored. -/
def fold (low : Str → Str) (mode : CaseMode) (s v : Str) : Str := if insensitive low mode s then low v else v

/-- Regular expression search and glob matching for this environment; a negated glob selects what does not match. -/
def envRe (env : TestEnv) (pat v : Str) : Prop := ∃ f, env.compile pat = some f ∧ f v = true
def envGlob (env : TestEnv) (isPath : Bool) (base : Str) (dir : Bool) (pat v : Str) : Prop :=
  (env.glob isPath pat).1 v base dir = (env.glob isPath pat).2

theorem ignoresCase_iff (low : Str → Str) (mode : CaseMode) (s : Str) : ignoresCase low mode s = true ↔ insensitive low mode s := by
  cases mode <;> simp [ignoresCase, insensitive, eq_comm]

/-- A created string test has this value, and it is created unless the regular expression is invalid. -/
theorem createTest_string (env : TestEnv) (mode : CaseMode) {ty : Ty} (hty : ty.stringType = true) {op : Str} {reference : Option (Option Val)} {value s : Str}
    (hs : testInput env ty reference value = some (.str s)) {t : Test}
    (h : createTest env mode ty op reference value = .ok t) :
    t.op = op ∧ t.ignoreCase = some (decide (insensitive env.low mode s)) ∧ op ∈ ty.operators ∧
    ((op = ['~'] ∧ ∃ f, env.compile (fold env.low mode s s) = some f ∧ t.value = .regex f) ∨
     (op = ['%'] ∧ t.value = .glob (env.glob (decide (ty = .path)) (fold env.low mode s s)).1 (env.glob (decide (ty = .path)) (fold env.low mode s s)).2) ∨
     (op ≠ ['~'] ∧ op ≠ ['%'] ∧ t.value = .val (.str (fold env.low mode s s)))) := by
  unfold createTest at h
  split at h
  · cases h
  rename_i hop
  simp only [hs] at h
  have hft : ¬ (ty = .fileType ∧ (∀ x ∈ fileTypeChoices, Val.str s ≠ .str x)) := by
    rintro ⟨rfl, _⟩; simp [Ty.stringType] at hty
  rw [if_neg hft] at h
  have hfold : (if ignoresCase env.low mode s = true then env.low s else s) = fold env.low mode s s := by
    unfold fold
    by_cases hc : insensitive env.low mode s
    · rw [if_pos hc, if_pos ((ignoresCase_iff ..).2 hc)]
    · rw [if_neg hc, if_neg (fun hh => hc ((ignoresCase_iff ..).1 hh))]
  have hdec : ignoresCase env.low mode s = decide (insensitive env.low mode s) := by
    rw [Bool.eq_iff_iff, ignoresCase_iff]; simp
  simp only [hfold] at h
  simp only [hdec] at h
  have hop' : op ∈ ty.operators := by simpa using hop
  split at h
  · rename_i h1
    split at h
    · cases h
    · rename_i f hf
      cases h
      exact ⟨rfl, rfl, hop', Or.inl ⟨h1, f, hf, rfl⟩⟩
  · split at h
    · rename_i h1 h2
      cases h
      exact ⟨rfl, rfl, hop', Or.inr (Or.inl ⟨h2, rfl⟩)⟩
    · rename_i h1 h2
      cases h
      exact ⟨rfl, rfl, hop', Or.inr (Or.inr ⟨h1, h2, rfl⟩)⟩

theorem decide_glob {m inc : Bool} : (if m then inc else !inc) = true ↔ m = inc := by cases m <;> cases inc <;> decide

theorem stringTest_created (env : TestEnv) (mode : CaseMode) {ty : Ty} (hty : ty.stringType = true) {op : Str} {reference : Option (Option Val)} {value s : Str}
    (hs : testInput env ty reference value = some (.str s)) {t : Test}
    (h : createTest env mode ty op reference value = .ok t) (v : Str) :
    stringTest env.low t v = true ↔
      strTest (envRe env) (envGlob env (decide (ty = .path)) (fold env.low mode s v) false) op (fold env.low mode s s) (fold env.low mode s v) := by
  obtain ⟨h1, h2, h3, h4⟩ := createTest_string env mode hty hs h
  have hv : (if t.ignoreCase = some true then env.low v else v) = fold env.low mode s v := by
    rw [h2]; unfold fold; by_cases hc : insensitive env.low mode s <;> simp [hc]
  have hops : op = ['='] ∨ op = [':'] ∨ op = ['~'] ∨ op = ['%'] := by
    cases ty <;> simp [Ty.stringType] at hty <;> simpa [Ty.operators] using h3
  unfold stringTest
  simp only [hv, h1]
  rcases hops with rfl | rfl | rfl | rfl
  · obtain ⟨g1, _⟩ | ⟨g1, _⟩ | ⟨_, _, g⟩ := h4
    · simp at g1
    · simp at g1
    · rw [g]; simp [strTest]
  · obtain ⟨g1, _⟩ | ⟨g1, _⟩ | ⟨_, _, g⟩ := h4
    · simp at g1
    · simp at g1
    · rw [g]; simp only [strTest]; exact isInfix_iff _ _
  · obtain ⟨_, f, g1, g2⟩ | ⟨g1, _⟩ | ⟨g1, _⟩ := h4
    · rw [g2]; simp [strTest, envRe, g1]
    · simp at g1
    · simp at g1
  · obtain ⟨g1, _⟩ | ⟨_, g⟩ | ⟨_, g1, _⟩ := h4
    · simp at g1
    · rw [g]; simp only [strTest, envGlob]; exact decide_glob
    · simp at g1

/-- C27: the answer of every accepted test on a string attribute, for each of the four operators: pattern and value are compared as they are, or
both lower-cased if case is ignored. -/
theorem C27_string (env : TestEnv) (mode : CaseMode) {op s : Str} {t : Test} (h : createTest env mode .string op none s = .ok t) (e : EntryInfo) (v : Str) :
    Ty.test env.low .string t e (.str v) = true ↔
      strTest (envRe env) (envGlob env false (fold env.low mode s v) false) op (fold env.low mode s s) (fold env.low mode s v) :=
  stringTest_created env mode (ty := .string) rfl (s := s) rfl h v

/-- The same for path attributes; glob patterns see the entry's own name and whether it is a directory. -/
theorem C27_path (env : TestEnv) (hl : ∀ s, env.low (env.low s) = env.low s) (mode : CaseMode) {op s : Str} {t : Test}
    (h : createTest env mode .path op none s = .ok t) (e : EntryInfo) (v : Str) :
    Ty.test env.low .path t e (.str v) = true ↔
      strTest (envRe env) (envGlob env true (fold env.low mode s e.name) e.isDir) op (fold env.low mode s s) (fold env.low mode s v) := by
  obtain ⟨h1, h2, h3, h4⟩ := createTest_string env mode (ty := .path) rfl (s := s) rfl h
  have hv : ∀ v, (if t.ignoreCase = some true then env.low v else v) = fold env.low mode s v := by
    intro v; rw [h2]; unfold fold; by_cases hc : insensitive env.low mode s <;> simp [hc]
  have hff : fold env.low mode s (fold env.low mode s v) = fold env.low mode s v := by
    unfold fold; by_cases hc : insensitive env.low mode s <;> simp [hc, hl]
  simp only [Ty.test, pathTest, hv]
  have hs := stringTest_created env mode (ty := .path) rfl (s := s) rfl h (fold env.low mode s v)
  rw [hff] at hs
  by_cases hop : op = ['%']
  · subst hop
    obtain ⟨g1, _⟩ | ⟨_, g⟩ | ⟨_, g1, _⟩ := h4
    · simp at g1
    · simp only [h1, g, strTest, envGlob]
      exact decide_glob
    · simp at g1
  · split
    · rename_i g _; rw [h1] at g; exact absurd g hop
    rw [hs]
    simp only [Ty.operators, List.mem_cons, List.not_mem_nil, or_false] at h3
    rcases h3 with rfl | rfl | rfl | rfl
    · rfl
    · rfl
    · rfl
    · exact absurd rfl hop

/-- C27: when case is ignored (value in lower case with smart, always with ignore) values differing only in case get the same answer. -/
theorem C27_insensitive (env : TestEnv) (hl : ∀ s, env.low (env.low s) = env.low s) (mode : CaseMode) {ty : Ty} (hty : ty = .string ∨ ty = .path) {op s : Str} {t : Test}
    (h : createTest env mode ty op none s = .ok t) (hmode : mode = .ignore ∨ mode = .smart ∧ env.low s = s)
    (e e' : EntryInfo) (v v' : Str) (hv : env.low v = env.low v') (he : env.low e.name = env.low e'.name) (hd : e.isDir = e'.isDir) :
    ty.test env.low t e (.str v) = ty.test env.low t e' (.str v') := by
  have hi : insensitive env.low mode s := by
    rcases hmode with rfl | ⟨rfl, h'⟩
    · trivial
    · exact h'
  rw [Bool.eq_iff_iff]
  rcases hty with rfl | rfl
  · rw [C27_string env mode h, C27_string env mode h]; simp [fold, hi, hv]
  · rw [C27_path env hl mode h, C27_path env hl mode h]; simp [fold, hi, hv, he, hd]

/-- C27: when it is not, `=` and `:` compare exactly, and patterns are applied to the unchanged value. -/
theorem C27_exact (env : TestEnv) (mode : CaseMode) {op s : Str} {t : Test}
    (h : createTest env mode .string op none s = .ok t) (hmode : mode = .sensitive ∨ mode = .smart ∧ env.low s ≠ s) (e : EntryInfo) (v : Str) :
    Ty.test env.low .string t e (.str v) = true ↔ strTest (envRe env) (envGlob env false v false) op s v := by
  have hi : ¬ insensitive env.low mode s := by
    rcases hmode with rfl | ⟨rfl, h'⟩
    · exact fun h => h
    · exact h'
  rw [C27_string env mode h]; simp [fold, hi]

theorem C27_exact_path (env : TestEnv) (hl : ∀ s, env.low (env.low s) = env.low s) (mode : CaseMode) {op s : Str} {t : Test}
    (h : createTest env mode .path op none s = .ok t) (hmode : mode = .sensitive ∨ mode = .smart ∧ env.low s ≠ s) (e : EntryInfo) (v : Str) :
    Ty.test env.low .path t e (.str v) = true ↔ strTest (envRe env) (envGlob env true e.name e.isDir) op s v := by
  have hi : ¬ insensitive env.low mode s := by
    rcases hmode with rfl | ⟨rfl, h'⟩
    · exact fun h => h
    · exact h'
  rw [C27_path env hl mode h]; simp [fold, hi]

/-- With `--case ignore` the regular expression itself is lower-cased, so the complementary classes `\S` and `\s` become the same test. -/
theorem C27_regex_quirk (env : TestEnv) (hl : env.low "\\S".toList = "\\s".toList) (hl' : env.low "\\s".toList = "\\s".toList) :
    createTest env .ignore .string ['~'] none "\\S".toList = createTest env .ignore .string ['~'] none "\\s".toList := by
  simp only [createTest, testInput, Ty.input, ignoresCase, hl, hl']; rfl

/-- A small environment for the examples: regular expressions and globs are literal. -/
def demoEnv : TestEnv :=
  { low := List.map Char.toLower, debug := true, times := { float := fun _ => none, now := 0, formats := [] },
    compile := fun p => some (fun v => isInfix p v), glob := fun _ p => ((fun v _ _ => p = v), true) }

example : (∃ t, createTest demoEnv .smart .string ['='] none "abc".toList = .ok t ∧ Ty.test demoEnv.low .string t ⟨[], false⟩ (.str "aBC".toList) = true) ∧
    (∃ t, createTest demoEnv .smart .string [':'] none "aB".toList = .ok t ∧ Ty.test demoEnv.low .string t ⟨[], false⟩ (.str "xaby".toList) = false) :=
  ⟨⟨_, rfl, by decide⟩, ⟨_, rfl, by decide⟩⟩

/-- C28: a test on a list of strings holds iff it holds for at least one of them. -/
theorem C28_any (env : TestEnv) (mode : CaseMode) {op s : Str} {t : Test} (h : createTest env mode .listOfStrings op none s = .ok t) (e : EntryInfo) (vs : List Str) :
    Ty.test env.low .listOfStrings t e (.strs vs) = true ↔
      ∃ v ∈ vs, strTest (envRe env) (envGlob env false (fold env.low mode s v) false) op (fold env.low mode s s) (fold env.low mode s v) := by
  simp only [Ty.test, List.any_eq_true]
  constructor
  · rintro ⟨v, hv, h'⟩
    exact ⟨v, hv, (stringTest_created env mode (ty := .listOfStrings) rfl (s := s) rfl h v).1 h'⟩
  · rintro ⟨v, hv, h'⟩
    exact ⟨v, hv, (stringTest_created env mode (ty := .listOfStrings) rfl (s := s) rfl h v).2 h'⟩

/-- The same in terms of string tests: the string test with the same operator and value is created as well, and decides each element. -/
theorem C28_string (env : TestEnv) (mode : CaseMode) {op s : Str} {t : Test} (h : createTest env mode .listOfStrings op none s = .ok t) :
    ∃ t', createTest env mode .string op none s = .ok t' ∧
      ∀ e vs, Ty.test env.low .listOfStrings t e (.strs vs) = vs.any (fun v => Ty.test env.low .string t' e (.str v)) := by
  have hex : ∃ t', createTest env mode .string op none s = .ok t' := by
    revert h
    simp only [createTest, testInput, Ty.operators, Ty.input, Ty.stringType, reduceCtorEq, false_and, if_false, if_true]
    split
    · intro h; cases h
    · split
      · split
        · intro h; cases h
        · intro _; exact ⟨_, rfl⟩
      · split <;> (intro _; exact ⟨_, rfl⟩)
  obtain ⟨t', h'⟩ := hex
  refine ⟨t', h', ?_⟩
  intro e vs
  rw [Bool.eq_iff_iff, C28_any env mode h, List.any_eq_true]
  constructor
  · rintro ⟨v, hv, g⟩; exact ⟨v, hv, (C27_string env mode h' e v).2 g⟩
  · rintro ⟨v, hv, g⟩; exact ⟨v, hv, (C27_string env mode h' e v).1 g⟩

example : ∃ t, createTest demoEnv .smart .listOfStrings [':'] none "b".toList = .ok t ∧
    Ty.test demoEnv.low .listOfStrings t ⟨[], false⟩ (.strs ["xyz".toList, "aBc".toList]) = true := ⟨_, rfl, by decide⟩

/-! ### References -/

/-- The loop finds a common class above the top class iff there is one. -/
theorem commonSuper_isSome {α : Type} [DecidableEq α] (top : α) (a b : List α) :
    (commonSuper top a b).isSome = true ↔ ∃ c ∈ a.takeWhile (fun x => x ≠ top), c ∈ b := by
  induction a with
  | nil => simp [commonSuper]
  | cons x xs ih =>
    unfold commonSuper
    by_cases hx : x = top
    · simp [hx]
    · rw [if_neg hx]
      have htw : (x :: xs).takeWhile (fun x => x ≠ top) = x :: xs.takeWhile (fun x => x ≠ top) := by simp [hx]
      rw [htw]
      by_cases hb : x ∈ b
      · simp [hb]
      · rw [if_neg hb, ih]; simp [hb]

/-- C51, for class hierarchies in general: with method resolution orders `pa ++ top :: rest` the check succeeds iff the two classes have a common base
class before the top class, or one is such a base of the other. -/
theorem C51_accept_iff {α : Type} [DecidableEq α] (top : α) (pa pb rest : List α) (ha : top ∉ pa) (hr : ∀ x ∈ rest, x ∉ pa) :
    (commonSuper top (pa ++ top :: rest) (pb ++ top :: rest)).isSome = true ↔ ∃ c, c ∈ pa ∧ c ∈ pb := by
  rw [commonSuper_isSome]
  have htw : (pa ++ top :: rest).takeWhile (fun x => x ≠ top) = pa := by
    induction pa with
    | nil => simp
    | cons y ys ih =>
      simp only [List.mem_cons, not_or] at ha
      have := ih ha.2 (fun x hx hy => hr x hx (by simp [hy]))
      simp only [List.cons_append, List.takeWhile_cons, ne_eq, decide_not]
      simp only [ne_eq, decide_not] at this
      rw [this]; simp [Ne.symm ha.1]
  rw [htw]
  constructor
  · rintro ⟨c, h1, h2⟩
    rcases List.mem_append.1 h2 with h2 | h2
    · exact ⟨c, h1, h2⟩
    · rcases List.mem_cons.1 h2 with rfl | h2
      · exact absurd h1 ha
      · exact absurd h1 (hr c h2)
  · rintro ⟨c, h1, h2⟩; exact ⟨c, h1, by simp [h2]⟩

theorem C51_refl {α : Type} [DecidableEq α] (top : α) (a rest : List α) (hne : a ≠ []) (ha : top ∉ a) (hr : ∀ x ∈ rest, x ∉ a) :
    (commonSuper top (a ++ top :: rest) (a ++ top :: rest)).isSome = true := by
  rw [C51_accept_iff top a a rest ha hr]
  cases a with
  | nil => exact absurd rfl hne
  | cons x xs => exact ⟨x, by simp, by simp⟩

theorem C51_symm {α : Type} [DecidableEq α] (top : α) (pa pb rest : List α) (ha : top ∉ pa) (hb : top ∉ pb) (hra : ∀ x ∈ rest, x ∉ pa) (hrb : ∀ x ∈ rest, x ∉ pb) :
    (commonSuper top (pa ++ top :: rest) (pb ++ top :: rest)).isSome = (commonSuper top (pb ++ top :: rest) (pa ++ top :: rest)).isSome := by
  rw [Bool.eq_iff_iff, C51_accept_iff top pa pb rest ha hra, C51_accept_iff top pb pa rest hb hrb]
  exact ⟨fun ⟨c, h, h'⟩ => ⟨c, h', h⟩, fun ⟨c, h, h'⟩ => ⟨c, h', h⟩⟩

/-- C51 for the builtin types: two types can be compared iff both are numbers, both are strings (path or not), or they are equal. -/
theorem C51_builtin (a b : Ty) : (commonSuper none a.mro b.mro).isSome = true ↔
    a = b ∨ (a.numeric = true ∧ b.numeric = true) ∨ (a ∈ [Ty.string, Ty.path] ∧ b ∈ [Ty.string, Ty.path]) := by
  cases a <;> cases b <;> decide

example : (commonSuper none Ty.size.mro Ty.duration.mro) = some (some Ty.number) ∧ commonSuper none Ty.size.mro Ty.string.mro = none := by decide

/-- A reference on an attribute holding a list of strings passes the type check but cannot be turned into a test: an exception nobody catches. -/
theorem C51_list_crashes (env : TestEnv) (mode : CaseMode) (value : Str) (l : List Str) {op : Str} (hop : op ∈ Ty.operators .listOfStrings) :
    (commonSuper none Ty.listOfStrings.mro Ty.listOfStrings.mro).isSome = true ∧
    createTest env mode .listOfStrings op (some (some (.strs l))) value = .error .crash := by
  refine ⟨by decide, ?_⟩
  unfold createTest
  rw [if_neg (by simpa using hop)]
  simp [testInput, Ty.stringType]

example : Ty.input demoEnv .number "5".toList = some (.int 5) ∧ Ty.input demoEnv .duration "1m".toList = some (.int 60) ∧
    (∃ t, createTest demoEnv .smart .number ['+', '='] none "5".toList = .ok t ∧ Ty.test demoEnv.low .number t ⟨[], false⟩ (.int 5) = true) ∧
    (∃ t, createTest demoEnv .smart .mode ['~'] none "222".toList = .ok t ∧ Ty.test demoEnv.low .mode t ⟨[], false⟩ (.int 0o100644) = true) :=
  ⟨rfl, by decide, ⟨_, rfl, by decide⟩, ⟨_, rfl, by decide⟩⟩

/-! ### C66: file types -/

/-- C66: a test for a file type is accepted iff the name is one of the documented ones and the operator is `=`, and holds iff the file has the type the name stands for. -/
theorem C66_type (env : TestEnv) (hl : ∀ p ∈ fileTypeNames, env.low p.1 = p.1) (mode : CaseMode) (op s : Str) :
    ((∃ t, createTest env mode .fileType op none s = .ok t) ↔ op = ['='] ∧ ∃ k, (s, k) ∈ fileTypeNames) ∧
    ∀ k, (s, k) ∈ fileTypeNames → ∀ t, createTest env mode .fileType op none s = .ok t → ∀ e v, Ty.test env.low .fileType t e (.str v) = true ↔ v = k := by
  have hch : fileTypeChoices = fileTypeNames.map Prod.fst := by decide
  have hiff : (∀ x ∈ fileTypeChoices, Val.str s ≠ .str x) ↔ ¬ ∃ k, (s, k) ∈ fileTypeNames := by
    rw [hch]
    constructor
    · rintro h ⟨k, hk⟩; exact h s (List.mem_map.2 ⟨_, hk, rfl⟩) rfl
    · rintro h x hx e
      obtain ⟨p, hp, rfl⟩ := List.mem_map.1 hx
      cases e
      exact h ⟨p.2, hp⟩
  have hct : createTest env mode .fileType op none s = if op ≠ ['='] then .error .operator else
      if (∀ x ∈ fileTypeChoices, Val.str s ≠ .str x) then .error .choice else .ok { op := op, type := .fileType, value := .val (.str s), ignoreCase := none } := by
    simp only [createTest, Ty.operators, List.mem_singleton, testInput, Ty.input, true_and, Ty.stringType, Bool.false_eq_true, if_false]
  rw [hct]
  constructor
  · by_cases h1 : op = ['=']
    · rw [if_neg (by simpa using h1)]
      by_cases h2 : ∃ k, (s, k) ∈ fileTypeNames
      · rw [if_neg (fun h => hiff.1 h h2)]
        exact ⟨fun _ => ⟨h1, h2⟩, fun _ => ⟨_, rfl⟩⟩
      · rw [if_pos (hiff.2 h2)]
        exact ⟨fun ⟨t, h⟩ => (by cases h), fun h => absurd h.2 h2⟩
    · rw [if_pos h1]
      exact ⟨fun ⟨t, h⟩ => (by cases h), fun h => absurd h.1 h1⟩
  · intro k hk t ht e v
    by_cases h1 : op = ['=']
    · rw [if_neg (by simpa using h1), if_neg (fun h => hiff.1 h ⟨k, hk⟩)] at ht
      cases ht
      simp only [Ty.test, fileTypeTest, h1]
      have hls := hl _ hk
      simp only at hls
      rw [hls]
      have hm : ∀ p ∈ fileTypeNames, (if p.1 = ['d'] then "directory".toList else if p.1 = ['f'] then "file".toList else if p.1 = ['l'] then "symlink".toList
          else if p.1 = ['s'] then "socket".toList else if p.1 = ['p'] ∨ p.1 = "pipe".toList then "fifo".toList else p.1) = p.2 := by decide
      have := hm _ hk
      simp only at this
      rw [this]
      simp
    · rw [if_pos h1] at ht; cases ht

example : (∀ p ∈ fileTypeNames, demoEnv.low p.1 = p.1) ∧ ("p".toList, "fifo".toList) ∈ fileTypeNames := by decide

end FF
