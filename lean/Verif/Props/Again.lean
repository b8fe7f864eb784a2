import Verif.Spec.Again
import Verif.Props.Whole
import Verif.Props.Epoch
import Verif.Props.Field
import Verif.Props.Convert
import Verif.Props.Json
import Verif.Props.Sort
/-! C117: a value that has been printed finds its file again. -/
namespace FF
open Spec

theorem word_equals {t : Str} (h : '=' ∈ t) : Word t := by
  have hk : ∀ k : String, '=' ∉ k.toList → ¬Kw k t := by
    intro k hk hh
    exact hk (by rw [← hh]; exact List.mem_map.2 ⟨'=', h, by decide⟩)
  refine ⟨?_, ?_, hk _ (by decide), hk _ (by decide), hk _ (by decide)⟩
  · rintro (rfl | rfl) <;> revert h <;> decide
  · rintro (rfl | rfl) <;> revert h <;> decide

/-- A single test. -/
theorem kept_single {S : SearchEnv} {word : Str} (hw : Word word) {t : Attr × Test} (h : S.parseTest word = .ok t) (i : EntInfo) :
    S.kept [word] i = true ↔ S.outcome i t = some true := by
  have hd : Derives .disj [word] (.atom word) := .single (.item (.prim (.atom hw)))
  rw [kept_iff (.inr ⟨_, hd, by intro x hx; simp only [Formula.atoms, List.mem_singleton] at hx; subst hx; exact ⟨t, h⟩⟩)]
  constructor
  · rintro (hh | ⟨f, hf, he⟩)
    · cases hh
    · rw [C01_unambiguous _ _ _ hf hd] at he
      obtain ⟨t', ht', ho⟩ := (holds_iff S i word).1 he
      rw [h] at ht'; cases ht'; exact ho
  · intro ho
    exact .inr ⟨_, hd, (holds_iff S i word).2 ⟨t, h, ho⟩⟩

theorem plain_digits {cc : CharClass} {s : Str} (h : Digits s) : PlainValue cc s ∧ ¬LooksLikeReference cc s := by
  obtain ⟨hne, hd⟩ := h
  cases s with
  | nil => exact absurd rfl hne
  | cons c s =>
    have hc := hd c (by simp)
    have ha : c.isAlphanum = true := by
      unfold isDigit at hc
      simp only [Bool.and_eq_true, decide_eq_true_eq] at hc
      simp only [Char.isAlphanum, Char.isDigit, Bool.or_eq_true, Bool.and_eq_true, decide_eq_true_eq]
      exact .inr hc
    refine ⟨⟨⟨c, s, rfl, cc.word_not_space _ (cc.word_alnum _ ha)⟩, ?_⟩, ?_⟩
    · intro hn
      have := hd _ hn
      revert this; decide
    · rintro ⟨r, rest, _, _, he⟩
      injection he with he _
      subst he
      revert hc; decide


/-- A number that has been read is compared with. -/
theorem made_number {env : TestEnv} {mode : CaseMode} {ty : Ty} (hty : ty.numeric = true) {text : Str} {n : Int} (h : ty.input env text = some (.int n)) :
    ∃ t, createTest env mode ty ['='] none text = .ok t ∧ ∀ e w, ty.test env.low t e w = true ↔ w = .int n := by
  refine ⟨{ op := ['='], type := ty, value := .val (.int n), ignoreCase := none }, ?_, ?_⟩
  · unfold createTest
    rw [if_neg (by cases ty <;> first | (cases hty; done) | decide)]
    simp only [testInput, h]
    rw [if_neg (by rintro ⟨rfl, _⟩; cases hty), if_neg (by cases ty <;> first | (cases hty; done) | decide)]
  · intro e w
    cases ty <;> first
      | (cases hty; done)
      | (cases w <;> simp [Ty.test, numberTest])

theorem octal_digit : ∀ c ∈ baseDigits.take 8, isOct c = true ∧ digitVal c = baseDigits.idxOf c := by decide

/-- Octal numerals are modes. -/
theorem parseMode_numeral {s : Str} {n : Nat} (h : NumeralIn 8 s n) : parseMode s = some (n % 4096) := by
  obtain ⟨hne, hd, hv, _⟩ := h
  have ho : ∀ c ∈ s, isOct c = true := fun c hc => (octal_digit c (hd c hc)).1
  have he : ∀ (l : Str) (k : Nat), (∀ c ∈ l, c ∈ baseDigits.take 8) → l.foldl (fun n c => n * 8 + digitVal c) k = l.foldl (fun n c => n * 8 + baseDigits.idxOf c) k := by
    intro l
    induction l with
    | nil => intro k _; rfl
    | cons c l ih =>
      intro k hl
      simp only [List.foldl_cons]
      rw [(octal_digit c (hl c (by simp))).2]
      exact ih _ (fun x hx => hl x (by simp [hx]))
  have hoct : octal s = n := by rw [← hv]; exact he s 0 hd
  unfold parseMode
  rw [splitOn_not_mem _ _ (fun hm => (oct_cases (ho _ hm)).2.2 rfl)]
  simp only [modeLoop, modeClause_octal ho hne, hoct, Option.map_some, Nat.zero_or]
  have : modeAll = 2 ^ 12 - 1 := by decide
  rw [Nat.and_comm, this, Nat.and_two_pow_sub_one_eq_mod]

theorem intStr_nat {n : Int} (h : 0 ≤ n) : intStr n = natStr n.toNat := by
  unfold intStr
  rw [if_neg (by omega)]

theorem natStr_isDigits (n : Nat) : Digits (natStr n) := ⟨natStr_ne_nil n, natStr_digits n⟩

theorem formatDuration_chars (k : Nat) : formatDuration k ≠ [] ∧ ∀ c ∈ formatDuration k, c.isAlphanum = true ∧ c ≠ '\n' := by
  have dig : ∀ c, isDigit c = true → c.isAlphanum = true ∧ c ≠ '\n' := by
    intro c hc
    refine ⟨?_, by rintro rfl; revert hc; decide⟩
    unfold isDigit at hc
    simp only [Bool.and_eq_true, decide_eq_true_eq] at hc
    simp only [Char.isAlphanum, Char.isDigit, Bool.or_eq_true, Bool.and_eq_true, decide_eq_true_eq]
    exact .inr hc
  have d2 : ∀ n c, c ∈ natStr2 n → isDigit c = true := fun n c hc => (natStr2_spec n).2.1 c hc
  have unit : ∀ c ∈ ['h', 'm', 's'], c.isAlphanum = true ∧ c ≠ '\n' := by decide
  unfold formatDuration
  simp only
  split
  · refine ⟨by simp, fun c hc => ?_⟩
    simp only [List.mem_append, List.mem_singleton] at hc
    rcases hc with ((((h | h) | h) | h) | h) | h
    · exact dig _ (natStr_digits _ _ h)
    · exact unit _ (by simp [h])
    · exact dig _ (d2 _ _ h)
    · exact unit _ (by simp [h])
    · exact dig _ (d2 _ _ h)
    · exact unit _ (by simp [h])
  · refine ⟨by simp, fun c hc => ?_⟩
    simp only [List.mem_append, List.mem_singleton] at hc
    rcases hc with ((h | h) | h) | h
    · exact dig _ (natStr_digits _ _ h)
    · exact unit _ (by simp [h])
    · exact dig _ (d2 _ _ h)
    · exact unit _ (by simp [h])

/-- The printed text is a value that can be given, and the test is for what was printed. -/
theorem made_test {S : SearchEnv} (hl : Lower S.tests.low) (hk : ∀ p ∈ fileTypeNames, S.tests.low p.1 = p.1) {z : Zone} {now : Int} (ht : S.tests.times = localTimes z now)
    (o : OutEnv) {ty : Ty} {m : Option Char} {v : Val} (h : ReadBack S.cc ty m v) :
    PlainValue S.cc (ty.output o m v) ∧ ¬LooksLikeReference S.cc (ty.output o m v) ∧
    ∃ t, createTest S.tests S.case ty ['='] none (ty.output o m v) = .ok t ∧ ∀ e w, ty.test S.tests.low t e w = true ↔ SameValue S.tests.low S.case ty v w := by
  have alpha : ∀ s : Str, (∃ c r, s = c :: r ∧ c.isAlphanum = true) → '\n' ∉ s → PlainValue S.cc s ∧ ¬LooksLikeReference S.cc s := by
    rintro s ⟨c, r, rfl, hc⟩ hn
    refine ⟨⟨⟨c, r, rfl, S.cc.word_not_space _ (S.cc.word_alnum _ hc)⟩, hn⟩, ?_⟩
    rintro ⟨r, rest, _, _, he⟩
    injection he with he _
    subst he
    revert hc; decide
  cases h with
  | @text _ _ s hty hp hr =>
    have ho : ty.output o m (.str s) = s := by rcases hty with rfl | rfl <;> rfl
    rw [ho]
    refine ⟨hp, hr, { op := ['='], type := ty, value := .val (.str (if ignoresCase S.tests.low S.case s then S.tests.low s else s)), ignoreCase := some (ignoresCase S.tests.low S.case s) }, ?_, ?_⟩
    · unfold createTest
      rcases hty with rfl | rfl <;> simp [Ty.operators, testInput, Ty.input, Ty.stringType]
    · intro e w
      have key : ∀ s' : Str, ((if ignoresCase S.tests.low S.case s = true then S.tests.low s' else s') = (if ignoresCase S.tests.low S.case s = true then S.tests.low s else s)) ↔
          SameValue S.tests.low S.case ty (.str s) (.str s') := by
        intro s'
        have hs : SameValue S.tests.low S.case ty (.str s) (.str s') ↔ (match S.case with
            | .smart => if S.tests.low s = s then S.tests.low s' = s else s' = s
            | .ignore => S.tests.low s' = S.tests.low s
            | .sensitive => s' = s) := by rcases hty with rfl | rfl <;> rfl
        rw [hs]
        cases S.case with
        | smart =>
          simp only [ignoresCase, decide_eq_true_eq]
          by_cases hc : S.tests.low s = s
          · rw [if_pos hc.symm, if_pos hc.symm, if_pos hc, hc]
          · rw [if_neg (fun x => hc x.symm), if_neg (fun x => hc x.symm), if_neg hc]
        | ignore => simp [ignoresCase]
        | sensitive => simp [ignoresCase]
      rcases hty with rfl | rfl
      · cases w <;> first
          | (rw [← key]; simp [Ty.test, stringTest]; done)
          | simp [Ty.test, SameValue]
      · cases w <;> first
          | (rw [← key]
             simp only [Ty.test, pathTest, stringTest]
             by_cases hc : ignoresCase S.tests.low S.case s = true
             · simp [hc, hl.idem]
             · simp [hc])
          | simp [Ty.test, SameValue]
  | @kind _ short k hmem =>
    have ho : Ty.fileType.output o m (.str k) = k := rfl
    rw [ho]
    have hkk : (k, k) ∈ fileTypeNames := by
      have : ∀ p ∈ fileTypeNames, (p.2, p.2) ∈ fileTypeNames := by decide
      exact this _ hmem
    have hchars : ∀ p ∈ fileTypeNames, (∃ c r, p.1 = c :: r ∧ c.isAlphanum = true) ∧ '\n' ∉ p.1 := by
      have : ∀ p ∈ fileTypeNames, (p.1.head?.any Char.isAlphanum = true) ∧ '\n' ∉ p.1 := by decide
      intro p hp
      obtain ⟨h1, h2⟩ := this p hp
      refine ⟨?_, h2⟩
      cases hq : p.1 with
      | nil => rw [hq] at h1; cases h1
      | cons c r => rw [hq] at h1; exact ⟨c, r, rfl, h1⟩
    obtain ⟨a1, a2⟩ := alpha k (hchars _ hkk).1 (hchars _ hkk).2
    obtain ⟨b1, b2⟩ := C66_type S.tests hk S.case ['='] k
    obtain ⟨t, ht⟩ := b1.2 ⟨rfl, k, hkk⟩
    refine ⟨a1, a2, t, ht, fun e w => ?_⟩
    have := b2 k hkk t ht e
    cases w with
    | str s' => rw [this s']; simp [SameValue]
    | strs l => cases t; simp [Ty.test, SameValue]
    | int n => cases t; simp [Ty.test, SameValue]
    | bool n => cases t; simp [Ty.test, SameValue]
  | @bool _ b =>
    have ho : Ty.boolean.output o m (.bool b) = boolStr b := rfl
    rw [ho]
    have hc : (∃ c r, boolStr b = c :: r ∧ c.isAlphanum = true) ∧ '\n' ∉ boolStr b := by
      cases b
      · exact ⟨⟨_, _, rfl, by decide⟩, by decide⟩
      · exact ⟨⟨_, _, rfl, by decide⟩, by decide⟩
    obtain ⟨a1, a2⟩ := alpha _ hc.1 hc.2
    have hin := C26_documented (env := S.tests) hl (boolStr b) b (by cases b <;> decide)
    refine ⟨a1, a2, { op := ['='], type := .boolean, value := .val (.bool b), ignoreCase := none }, ?_, ?_⟩
    · unfold createTest
      simp [testInput, hin, Ty.operators, Ty.stringType]
    · intro e w
      cases w <;> simp [Ty.test, SameValue]
  | @number _ n hm hn =>
    have ho : Ty.number.output o m (.int n) = natStr n.toNat := by
      rw [← intStr_nat hn]
      rcases hm with rfl | rfl <;> rfl
    rw [ho]
    obtain ⟨a1, a2⟩ := plain_digits (cc := S.cc) (natStr_isDigits n.toNat)
    refine ⟨a1, a2, ?_⟩
    have hi : Ty.input S.tests .number (natStr n.toNat) = some (.int n) := by
      have e := pyInt_digits (natStr_digits n.toNat) (natStr_ne_nil _)
      rw [natOfDigits_natStr, Int.toNat_of_nonneg hn] at e
      simp only [Ty.input, numberInput, e]
      rw [if_neg (by omega)]; rfl
    obtain ⟨t, h1, h2⟩ := made_number (mode := S.case) (by decide) hi
    exact ⟨t, h1, fun e w => by rw [h2]; cases w <;> simp [SameValue]⟩
  | @size n hn =>
    have ho : Ty.size.output o none (.int n) = natStr n.toNat := by
      rw [← intStr_nat hn]; rfl
    rw [ho]
    obtain ⟨a1, a2⟩ := plain_digits (cc := S.cc) (natStr_isDigits n.toNat)
    refine ⟨a1, a2, ?_⟩
    have hi : Ty.input S.tests .size (natStr n.toNat) = some (.int n) := by
      have e := C24_bytes (natStr n.toNat) [] (natStr_isDigits _) (.inl rfl)
      rw [natOfDigits_natStr, List.append_nil] at e
      simp only [Ty.input, e]
      show some (Val.int (n.toNat : Int)) = _
      rw [Int.toNat_of_nonneg hn]
    obtain ⟨t, h1, h2⟩ := made_number (mode := S.case) (by decide) hi
    exact ⟨t, h1, fun e w => by rw [h2]; cases w <;> simp [SameValue]⟩
  | @time n hn =>
    have ho : Ty.time.output o none (.int n) = intStr n := rfl
    rw [ho]
    have hsci : ∀ k : Nat, Spec.Scientific (natStr k) (natOfDigits (natStr k) * 1) 1 := fun k => by
      have := Spec.Scientific.int (natStr_isDigits k) .none
      rwa [List.append_nil] at this
    have hplain : PlainValue S.cc (intStr n) ∧ ¬LooksLikeReference S.cc (intStr n) := by
      unfold intStr
      split
      · refine ⟨⟨⟨'-', _, rfl, S.cc.space_not_punct _ (by decide)⟩, ?_⟩, ?_⟩
        · intro hm
          rcases List.mem_cons.1 hm with h | h
          · cases h
          · have := natStr_digits _ _ h
            revert this; decide
        · rintro ⟨r, rest, _, _, he⟩
          injection he with he _
          revert he; decide
      · exact plain_digits (natStr_isDigits _)
    refine ⟨hplain.1, hplain.2, ?_⟩
    have hi : Ty.input S.tests .time (intStr n) = some (.int n) := by
      simp only [Ty.input, ht]
      by_cases hneg : n < 0
      · have e := C25_float_partial z now (s := intStr n) (neg := true) (n := n.natAbs) (by unfold intStr; rw [if_pos hneg]; exact .minus (hsci _)) (by decide)
          (by rw [natOfDigits_natStr]; omega) hn
        rw [e]
        simp only [if_true, Option.map_some]
        congr 2; omega
      · have e := C25_float_partial z now (s := intStr n) (neg := false) (n := n.natAbs) (by unfold intStr; rw [if_neg hneg]; exact .plain (hsci _)) (by decide)
          (by rw [natOfDigits_natStr]; omega) hn
        rw [e]
        simp only [Bool.false_eq_true, if_false, Option.map_some]
        congr 2; omega
    obtain ⟨t, h1, h2⟩ := made_number (mode := S.case) (by decide) hi
    exact ⟨t, h1, fun e w => by rw [h2]; cases w <;> simp [SameValue]⟩
  | @duration n hn =>
    have ho : Ty.duration.output o (some 'h') (.int n) = formatDuration n.toNat := by
      show formatDurationInt n = _
      unfold formatDurationInt
      rw [if_pos hn]
    rw [ho]
    have hc : (∃ c r, formatDuration n.toNat = c :: r ∧ c.isAlphanum = true) ∧ '\n' ∉ formatDuration n.toNat := by
      obtain ⟨h1, h2⟩ := formatDuration_chars n.toNat
      cases hq : formatDuration n.toNat with
      | nil => exact absurd hq h1
      | cons c r =>
        rw [hq] at h2
        refine ⟨⟨c, r, rfl, (h2 c (by simp)).1⟩, fun hm => (h2 _ hm).2 rfl⟩
    obtain ⟨a1, a2⟩ := alpha _ hc.1 hc.2
    refine ⟨a1, a2, ?_⟩
    have hi : Ty.input S.tests .duration (formatDuration n.toNat) = some (.int n) := by
      simp only [Ty.input, C22_roundtrip, Option.map_some]
      rw [show ((n.toNat : Nat) : Int) = n from Int.toNat_of_nonneg hn]
    obtain ⟨t, h1, h2⟩ := made_number (mode := S.case) (by decide) hi
    exact ⟨t, h1, fun e w => by rw [h2]; cases w <;> simp [SameValue]⟩
  | @mode n hn =>
    obtain ⟨s, hs, hnum⟩ := (C65_number o .mode (by decide) n).2
    rw [if_neg (by omega), List.nil_append] at hs
    rw [hs]
    have hp := parseMode_numeral hnum
    have hd : ∀ c ∈ s, c ∈ baseDigits.take 8 := hnum.2.1
    have hal : ∀ c ∈ baseDigits.take 8, c.isAlphanum = true ∧ c ≠ '\n' := by decide
    have hc : ∃ c r, s = c :: r ∧ c.isAlphanum = true := by
      cases hq : s with
      | nil => exact absurd hq hnum.1
      | cons c r => exact ⟨c, r, rfl, (hal c (hd c (by rw [hq]; simp))).1⟩
    obtain ⟨a1, a2⟩ := alpha s hc (fun hm => (hal _ (hd _ hm)).2 rfl)
    refine ⟨a1, a2, { op := ['='], type := .mode, value := .val (.int (n.natAbs % 4096 : Nat)), ignoreCase := none }, ?_, ?_⟩
    · unfold createTest
      simp [testInput, Ty.input, hp, Ty.operators, Ty.stringType]
    · intro e w
      cases w with
      | int w =>
        have hall : modeAll = 2 ^ 12 - 1 := by decide
        simp only [Ty.test, modeTest, SameValue, Int.toNat_natCast, hall, Nat.and_two_pow_sub_one_eq_mod]
        have : n.natAbs = n.toNat := by omega
        rw [this]
        simp
        omega
      | str _ => simp [Ty.test, SameValue]
      | strs _ => simp [Ty.test, SameValue]
      | bool _ => simp [Ty.test, SameValue]

/-- The test made of a printed value. -/
theorem parse_equals {S : SearchEnv} {name text : Str} {a : Attr} {ty : Ty} {t : Test} (hn : AttrName S.cc name) (ha : setupAttribute S.reg name = some a)
    (hty : attributeType S.reg a = some ty) (hp : PlainValue S.cc text) (hr : ¬LooksLikeReference S.cc text)
    (ht : createTest S.tests S.case ty ['='] none text = .ok t) : S.parseTest (equals name text) = .ok (a, t) := by
  have hb : Blank S.cc [] := by intro x hx; cases hx
  have e := C05_roundtrip_partial (cc := S.cc) [] name [] ['='] ['='] [] text hb hn hb (by decide) hb hp (fun _ hx => absurd hx (by unfold Extensible; decide))
    (fun _ r rest h1 h2 h3 => hr ⟨r, rest, h1, h2, h3⟩)
  simp only [List.nil_append, List.append_nil, List.append_assoc, List.singleton_append] at e
  unfold SearchEnv.parseTest equals
  simp only [e, ha, hty, Option.map_none, ht]

/-- C117: a value that has been printed, given in a test, finds exactly the entries that have this value. -/
theorem C117_exact_partial {S : SearchEnv} (hl : Lower S.tests.low) (hk : ∀ p ∈ fileTypeNames, S.tests.low p.1 = p.1) {z : Zone} {now : Int}
    (htimes : S.tests.times = localTimes z now) (o : OutEnv) {name : Str} {a : Attr} {ty : Ty} (hn : AttrName S.cc name) (ha : setupAttribute S.reg name = some a)
    (hty : attributeType S.reg a = some ty) {m : Option Char} {v : Val} (h : ReadBack S.cc ty m v) (j : EntInfo) :
    S.kept [equals name (ty.output o m v)] j = true ↔ ∃ w, S.attr j a = some w ∧ SameValue S.tests.low S.case ty v w := by
  obtain ⟨h1, h2, t, h3, h4⟩ := made_test hl hk htimes o h
  rw [kept_single (word_equals (by unfold equals; simp)) (parse_equals hn ha hty h1 h2 h3)]
  unfold SearchEnv.outcome
  cases S.attr j a with
  | none => simp
  | some w =>
    simp only [hty, Option.some.injEq, exists_eq_left']
    exact h4 _ w

theorem SameValue.refl {cc : CharClass} {low : Str → Str} {case : CaseMode} {ty : Ty} {m : Option Char} {v : Val} (h : ReadBack cc ty m v) : SameValue low case ty v v := by
  cases h with
  | @text _ _ s hty _ _ =>
    have : (match case with
            | .smart => if low s = s then low s = s else s = s
            | .ignore => low s = low s
            | .sensitive => s = s) := by
      cases case with
      | smart => by_cases hc : low s = s <;> simp [hc]
      | ignore => rfl
      | sensitive => rfl
    rcases hty with rfl | rfl <;> exact this
  | kind _ => simp [SameValue]
  | bool => simp [SameValue]
  | number _ _ => simp [SameValue]
  | size _ => simp [SameValue]
  | time _ => simp [SameValue]
  | duration _ => simp [SameValue]
  | mode _ => simp [SameValue]

/-- C117: in particular the entry for which it has been printed. -/
theorem C117_found_partial {S : SearchEnv} (hl : Lower S.tests.low) (hk : ∀ p ∈ fileTypeNames, S.tests.low p.1 = p.1) {z : Zone} {now : Int}
    (htimes : S.tests.times = localTimes z now) (o : OutEnv) {name : Str} {a : Attr} {ty : Ty} (hn : AttrName S.cc name) (ha : setupAttribute S.reg name = some a)
    (hty : attributeType S.reg a = some ty) {m : Option Char} {v : Val} (h : ReadBack S.cc ty m v) {i : EntInfo} (hv : S.attr i a = some v) :
    S.kept [equals name (ty.output o m v)] i = true :=
  (C117_exact_partial hl hk htimes o hn ha hty h i).2 ⟨v, hv, SameValue.refl h⟩

/-- C117: times as dates, unless clocks show them for the second time. -/
theorem C117_time_partial {S : SearchEnv} (o : OutEnv) {now : Int} (htimes : S.tests.times = localTimes o.zone now) {name : Str} {a : Attr} (hn : AttrName S.cc name)
    (ha : setupAttribute S.reg name = some a) (hty : attributeType S.reg a = some .time) {u : Int} (h1 : -30610224000 ≤ u + o.zone u)
    (h2 : u + o.zone u < 253402300800) (hc : OneChange o.zone (u + o.zone u)) (hf : FirstShown o.zone (u + o.zone u) u) (j : EntInfo) :
    S.kept [equals name (Ty.time.output o (some 'h') (.int u))] j = true ↔ S.attr j a = some (.int u) := by
  have hr := C70_roundtrip_partial o now u h1 h2 hc hf
  obtain ⟨y, m, d, hh, mi, s, hd, ht, e, ef⟩ := C70_shown o.zone u h1 h2
  have eo : Ty.time.output o (some 'h') (.int u) = formatTime o.zone u := rfl
  have hi : Ty.input S.tests .time (Ty.time.output o (some 'h') (.int u)) = some (.int u) := by
    simp only [Ty.input, htimes, hr, Option.map_some]
  obtain ⟨t, t1, t2⟩ := made_number (mode := S.case) (by decide) hi
  have hplain : PlainValue S.cc (Ty.time.output o (some 'h') (.int u)) ∧ ¬LooksLikeReference S.cc (Ty.time.output o (some 'h') (.int u)) := by
    have dc : ∀ n, (digitChar n).isAlphanum = true ∧ digitChar n ≠ '\n' := by
      intro n
      unfold digitChar
      split <;> decide
    rw [eo, ef]
    refine ⟨⟨⟨_, _, rfl, S.cc.word_not_space _ (S.cc.word_alnum _ (dc _).1)⟩, ?_⟩, ?_⟩
    · intro hm
      simp only [dateText, secondText, pad4, pad2, List.cons_append, List.nil_append, List.mem_cons, List.not_mem_nil, or_false] at hm
      have no : ∀ n, '\n' ≠ digitChar n := fun n h => (dc n).2 h.symm
      simp [no] at hm
    · rintro ⟨r, rest, _, _, he⟩
      injection he with he _
      have := (dc (y / 1000)).1
      rw [he] at this
      revert this; decide
  rw [kept_single (word_equals (by unfold equals; simp)) (parse_equals hn ha hty hplain.1 hplain.2 t1)]
  unfold SearchEnv.outcome
  cases S.attr j a with
  | none => simp
  | some w =>
    simp only [hty, Option.some.injEq]
    exact t2 _ w

/-! ### Where it fails -/

/-- A file with the mode 644, a duration of five minutes and a list of two members. -/
def againSearch : SearchEnv :=
  { cc := asciiClass, reg := [filePlugin, ⟨"medium".toList, [("duration".toList, .duration)], 3⟩, ⟨"tar".toList, [("members".toList, .listOfStrings)], 3⟩],
    tests := { demoEnv with times := localTimes (fun _ => 0) 0 }, case := .smart,
    stat := fun _ n => if n = "perm".toList then some (.int 0o644) else if n = "time".toList then some (.int 86400) else none,
    data := fun _ p _ => if p = "medium".toList then some (.int 300) else some (.strs ["a".toList, "b".toList]), refEntry := fun _ => none }

def againOut : OutEnv := { si := false, zone := fun _ => 0 }

set_option maxRecDepth 20000 in
/-- C117 is false for modes without a modifier, which are printed as decimal numbers but read as octal ones, and for modes as shown by ls, of which only the
beginning is read. -/
theorem C117_mode_false : againSearch.attr (demoNamed "x".toList) ("file".toList, "perm".toList) = some (.int 0o644) ∧
    Ty.mode.output againOut none (.int 0o644) = "420".toList ∧ againSearch.kept ["perm=420".toList] (demoNamed "x".toList) = false ∧
    Ty.mode.output againOut (some 'h') (.int 0o644) = "?rw-r--r--".toList ∧ Ty.mode.output againOut (some 'h') (.int 0o100644) = "-rw-r--r--".toList ∧
    (∃ t, againSearch.parseTest "mode=-rw-r--r--".toList = .ok t ∧ t.2.value = .val (.int 0)) := by
  refine ⟨by decide +kernel, by decide +kernel, by decide +kernel, by decide +kernel, by decide +kernel, _, rfl, rfl⟩

set_option maxRecDepth 20000 in
/-- C117 is false for durations without a modifier, which are printed in seconds but read in minutes. -/
theorem C117_duration_false : againSearch.attr (demoNamed "x".toList) ("medium".toList, "duration".toList) = some (.int 300) ∧
    Ty.duration.output againOut none (.int 300) = "300".toList ∧ againSearch.kept ["duration=300".toList] (demoNamed "x".toList) = false ∧
    againSearch.kept ["duration=5m00s".toList] (demoNamed "x".toList) = true := by
  refine ⟨by decide +kernel, by decide +kernel, by decide +kernel, by decide +kernel⟩

set_option maxRecDepth 20000 in
/-- C117 is false for lists of several members. -/
theorem C117_list_false : againSearch.attr (demoNamed "x".toList) ("tar".toList, "members".toList) = some (.strs ["a".toList, "b".toList]) ∧
    Ty.listOfStrings.output againOut none (.strs ["a".toList, "b".toList]) = "a,b".toList ∧ againSearch.kept ["members=a,b".toList] (demoNamed "x".toList) = false := by
  refine ⟨by decide +kernel, by decide +kernel, by decide +kernel⟩

set_option maxRecDepth 20000 in
/-- C117 is false for names that look like a reference, begin with a blank or have several lines. -/
theorem C117_name_false (n : Str) (h : n ∈ ["{}a".toList, " a".toList, "a\nb".toList]) : againSearch.attr (demoNamed n) ("file".toList, "name".toList) = some (.str n) ∧
    Ty.string.output againOut none (.str n) = n ∧ againSearch.kept [equals "name".toList n] (demoNamed n) = false := by
  revert n
  decide +kernel

/-! ### Examples -/

set_option maxRecDepth 20000 in
example : AttrName asciiClass "time".toList ∧ setupAttribute againSearch.reg "time".toList = some ("file".toList, "time".toList) ∧
    attributeType againSearch.reg ("file".toList, "time".toList) = some .time ∧ ReadBack againSearch.cc .time none (.int 86400) ∧
    againSearch.kept ["time=86400".toList] (demoNamed "x".toList) = true ∧ Lower againSearch.tests.low ∧ (∀ p ∈ fileTypeNames, againSearch.tests.low p.1 = p.1) :=
  ⟨.inl ⟨by decide, by decide⟩, by decide +kernel, by decide +kernel, .time (by decide), by decide +kernel, lower_ascii, by decide⟩

set_option maxRecDepth 20000 in
example : ReadBack asciiClass .string none (.str "{a} b".toList) → False := by
  intro h
  cases h with
  | text _ _ h => exact h ⟨"a".toList, " b".toList, .inr (.inl ⟨by decide, by decide⟩), by decide, rfl⟩

example : ReadBack asciiClass .string none (.str "{a".toList) :=
  .text (.inl rfl) ⟨⟨_, _, rfl, by decide⟩, by decide⟩ (by
    rintro ⟨r, rest, _, _, he⟩
    have : '}' ∈ "{a".toList := by rw [he]; simp
    revert this; decide)

example : againSearch.kept ["perm=644".toList] (demoNamed "x".toList) = true ∧ Ty.mode.output againOut (some 'o') (.int 0o644) = "644".toList ∧
    ReadBack asciiClass .mode (some 'o') (.int 0o644) := ⟨by decide +kernel, by decide +kernel, .mode (by decide)⟩

end FF
