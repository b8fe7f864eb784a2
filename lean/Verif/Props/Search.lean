import Verif.Model.Search
import Verif.Props.Registry
import Verif.Props.Expression
import Verif.Props.Parser
import Verif.Props.Walk
import Verif.Props.Arguments
/-! Properties C09, C10 and C63: options that are implemented by adding tests, from the words to the selected entries. -/
namespace FF
open Spec

/-! ### Tests of file attributes -/

/-- What is assumed of the environment: the file plugin is loaded, plugin and attribute names are unique, and `str.lower` is as expected. -/
structure SearchEnv.Ok (S : SearchEnv) : Prop where
  file : filePlugin ∈ S.reg
  regular : Regular S.reg
  low : Lower S.tests.low

theorem setup_file {S : SearchEnv} (hS : S.Ok) {a : Str} {ty : Ty} (ha : (a, ty) ∈ filePlugin.attrs) (hd : '.' ∉ a) :
    setupAttribute S.reg a = some ("file".toList, a) ∧ attributeType S.reg ("file".toList, a) = some ty := by
  constructor
  · exact (C49_unqualified S.reg hd _ _).2 ⟨rfl, ⟨filePlugin, hS.file, rfl, ty, ha⟩, .inl rfl⟩
  · exact (C49_type hS.regular _ ty).2 ⟨filePlugin, hS.file, rfl, ha⟩

theorem attrName_alnum (cc : CharClass) {a : Str} (hne : a ≠ []) (h : a.all Char.isAlphanum = true) : AttrName cc a :=
  .inl ⟨hne, fun x hx => cc.word_alnum x (List.all_eq_true.1 h x hx)⟩

/-- A test of a file attribute, written without blanks, with a value made of letters and digits. -/
theorem parse_file {S : SearchEnv} (hS : S.Ok) {a : Str} {ty : Ty} (ha : (a, ty) ∈ filePlugin.attrs) (hane : a ≠ []) (haln : a.all Char.isAlphanum = true)
    {op denoted : Str} (hop : (op, denoted) ∈ operators) {v : Str} (hv : v ≠ []) (hval : ∀ c ∈ v, c.isAlphanum = true) :
    S.parseTest (a ++ op ++ v) = match createTest S.tests S.case ty denoted none v with
      | .error e => .error (.badTest e.fail)
      | .ok t => .ok (("file".toList, a), t) := by
  obtain ⟨x, xs, rfl⟩ : ∃ x xs, v = x :: xs := by cases v with
    | nil => exact absurd rfl hv
    | cons x xs => exact ⟨x, xs, rfl⟩
  have hx := hval x (by simp)
  have hpv : PlainValue S.cc (x :: xs) := by
    refine ⟨⟨x, xs, rfl, S.cc.word_not_space x (S.cc.word_alnum x hx)⟩, ?_⟩
    intro h; exact absurd (hval _ h) (by decide)
  have hdot : '.' ∉ a := by intro h; exact absurd (List.all_eq_true.1 haln _ h) (by decide)
  have := C05_roundtrip_partial (cc := S.cc) [] a [] op denoted [] (x :: xs) (by intro x hx; cases hx) (attrName_alnum S.cc hane haln) (by intro x hx; cases hx) hop
    (by intro x hx; cases hx) hpv (fun _ _ h => by simp at h; subst h; exact absurd hx (by decide))
    (fun _ r rest _ _ h => by simp at h; rw [h.1] at hx; exact absurd hx (by decide))
  simp only [List.nil_append, List.append_nil] at this
  obtain ⟨h1, h2⟩ := setup_file hS ha hdot
  unfold SearchEnv.parseTest
  simp only [this, h1, h2, Option.map_none]
  cases createTest S.tests S.case ty denoted none (x :: xs) <;> rfl

set_option maxRecDepth 10000 in
theorem parse_bool {S : SearchEnv} (hS : S.Ok) {a : Str} (ha : a ∈ ["hide".toList, "samedev".toList]) {v : Str} {b : Bool}
    (hv : v = if b then "yes".toList else "no".toList) :
    S.parseTest (a ++ ['='] ++ v) = .ok (("file".toList, a), { op := ['='], type := .boolean, value := .val (.bool b), ignoreCase := none }) := by
  have hmem : (a, Ty.boolean) ∈ filePlugin.attrs := by
    simp only [List.mem_cons, List.not_mem_nil, or_false] at ha
    rcases ha with rfl | rfl <;> decide
  rw [parse_file hS hmem (by simp only [List.mem_cons, List.not_mem_nil, or_false] at ha; rcases ha with rfl | rfl <;> decide)
    (by simp only [List.mem_cons, List.not_mem_nil, or_false] at ha; rcases ha with rfl | rfl <;> decide) (op := ['=']) (denoted := ['=']) (by decide)
    (by subst hv; cases b <;> decide) (by subst hv; cases b <;> decide)]
  have hi : Ty.input S.tests .boolean v = some (.bool b) := C26_documented hS.low v b (by subst hv; cases b <;> decide)
  unfold createTest
  rw [if_neg (by decide)]
  simp [testInput, hi, Ty.stringType]

theorem outcome_bool {S : SearchEnv} (hS : S.Ok) {a : Str} (ha : (a, Ty.boolean) ∈ filePlugin.attrs) (hd : '.' ∉ a) (i : EntInfo) (b : Bool) :
    S.outcome i (("file".toList, a), { op := ['='], type := .boolean, value := .val (.bool b), ignoreCase := none }) = some true ↔
      S.attr i ("file".toList, a) = some (.bool b) := by
  unfold SearchEnv.outcome
  simp only [(setup_file hS ha hd).2]
  cases S.attr i ("file".toList, a) with
  | none => simp
  | some v => cases v <;> simp [Ty.test]

/-- The words made by ff itself are tests. -/
theorem word_of {t : Str} {c : Char} {r : Str} (h : t = c :: r) (hc : c ∉ ['(', ')', '{', '}', 'A', 'a', 'O', 'o', 'N', 'n']) (hl : 'a' ≤ c ∧ c ≤ 'z') : Word t := by
  subst h
  have hup : ∀ k : Char, c.toUpper = k → ('A' ≤ k ∧ k ≤ 'Z') → c = k.toLower := by
    intro k hk hkk
    subst hk
    have h1 : 97 ≤ c.val.toNat ∧ c.val.toNat ≤ 122 := ⟨hl.1, hl.2⟩
    have : ∀ n : Nat, n < 123 → 97 ≤ n → (Char.ofNat n) = ((Char.ofNat n).toUpper).toLower := by decide
    have := this c.val.toNat (by omega) (by omega)
    rwa [show Char.ofNat c.val.toNat = c from Char.ofNat_toNat c] at this
  simp only [List.mem_cons, List.not_mem_nil, or_false, not_or] at hc
  refine ⟨?_, ?_, ?_, ?_, ?_⟩
  · rintro (h | h)
    · exact hc.1 (List.cons.inj (h : c :: r = ['('])).1
    · exact hc.2.2.1 (List.cons.inj (h : c :: r = ['{', '{'])).1
  · rintro (h | h)
    · exact hc.2.1 (List.cons.inj (h : c :: r = [')'])).1
    · exact hc.2.2.2.1 (List.cons.inj (h : c :: r = ['}', '}'])).1
  · intro h
    have := (List.cons.inj (h : c.toUpper :: r.map Char.toUpper = ['A', 'N', 'D'])).1
    exact hc.2.2.2.2.2.1 (hup _ this (by decide))
  · intro h
    have := (List.cons.inj (h : c.toUpper :: r.map Char.toUpper = ['O', 'R'])).1
    exact hc.2.2.2.2.2.2.2.1 (hup _ this (by decide))
  · intro h
    have := (List.cons.inj (h : c.toUpper :: r.map Char.toUpper = ['N', 'O', 'T'])).1
    exact hc.2.2.2.2.2.2.2.2.2 (hup _ this (by decide))

/-- Accepted exclude tests. -/
def GoodTests (S : SearchEnv) (ts : List Str) : Prop := ∀ t ∈ ts, Word t ∧ ∃ x, S.parseTest t = .ok x

theorem excluded_iff {S : SearchEnv} {ts : List Str} (h : GoodTests S ts) (i : EntInfo) :
    S.excluded ts i = true ↔ ∃ t ∈ ts, ∃ x, S.parseTest t = .ok x ∧ S.outcome i x = some true := by
  obtain ⟨r, hr⟩ := C06_accepted S.parseTest S.speed ts (S.outcome i) h
  obtain ⟨b, rfl, hb⟩ := C06_excluded_iff S.parseTest S.speed ts (S.outcome i) r (fun t ht => .inl (h t ht).1) hr
  unfold SearchEnv.excluded
  simp only [hr, hb]
  constructor
  · rintro ⟨t, ht, _, h⟩; exact ⟨t, ht, h⟩
  · rintro ⟨t, ht, h'⟩; exact ⟨t, ht, (h t ht).1, h'⟩

theorem goodTests_append {S : SearchEnv} {a b : List Str} : GoodTests S (a ++ b) ↔ GoodTests S a ∧ GoodTests S b := by
  simp only [GoodTests, List.mem_append]
  exact ⟨fun h => ⟨fun t ht => h t (.inl ht), fun t ht => h t (.inr ht)⟩, fun h t ht => ht.elim (h.1 t) (h.2 t)⟩

/-- Adding tests excludes more. -/
theorem excluded_append {S : SearchEnv} {a b : List Str} (ha : GoodTests S a) (hb : GoodTests S b) (i : EntInfo) :
    S.excluded (a ++ b) i = (S.excluded a i || S.excluded b i) := by
  rw [Bool.eq_iff_iff, Bool.or_eq_true, excluded_iff ha, excluded_iff hb, excluded_iff (goodTests_append.2 ⟨ha, hb⟩)]
  simp only [List.mem_append]
  constructor
  · rintro ⟨t, ht | ht, h⟩
    · exact .inl ⟨t, ht, h⟩
    · exact .inr ⟨t, ht, h⟩
  · rintro (⟨t, ht, h⟩ | ⟨t, ht, h⟩)
    · exact ⟨t, .inl ht, h⟩
    · exact ⟨t, .inr ht, h⟩

theorem excluded_nil (S : SearchEnv) (i : EntInfo) : S.excluded [] i = false := by
  unfold SearchEnv.excluded; rw [C06_empty]

/-- A single Boolean test as the exclude list. -/
theorem excluded_bool {S : SearchEnv} (hS : S.Ok) {a : Str} (ha : a ∈ ["hide".toList, "samedev".toList]) {b : Bool} (w : Str)
    (hw : w = a ++ ['='] ++ (if b then "yes".toList else "no".toList)) :
    GoodTests S [w] ∧ ∀ i, S.excluded [w] i = true ↔ S.attr i ("file".toList, a) = some (.bool b) := by
  have hp := parse_bool hS ha (b := b) rfl
  rw [← hw] at hp
  have hword : Word w := by
    simp only [List.mem_cons, List.not_mem_nil, or_false] at ha
    rcases ha with rfl | rfl
    · exact word_of (c := 'h') (r := w.tail) (by rw [hw]; rfl) (by decide) (by decide)
    · exact word_of (c := 's') (r := w.tail) (by rw [hw]; rfl) (by decide) (by decide)
  have hg : GoodTests S [w] := by
    intro t ht
    simp only [List.mem_singleton] at ht
    subst ht
    exact ⟨hword, _, hp⟩
  refine ⟨hg, ?_⟩
  intro i
  have hmem : (a, Ty.boolean) ∈ filePlugin.attrs ∧ '.' ∉ a := by
    simp only [List.mem_cons, List.not_mem_nil, or_false] at ha
    rcases ha with rfl | rfl <;> decide
  rw [excluded_iff hg, ← outcome_bool hS hmem.1 hmem.2]
  constructor
  · rintro ⟨t, ht, x, hx, h⟩
    simp only [List.mem_singleton] at ht
    subst ht
    rw [hp] at hx; cases hx; exact h
  · intro h; exact ⟨w, by simp, _, hp, h⟩

theorem entryAt_entry_name {start : Start} (hr : start.root ≠ []) (base : List Str) (kids : List FNode) (isIgn : Str → Bool)
    {q : List FNode} {n : FNode} (hq : ∀ m ∈ q ++ [n], IsFileName m.name) : (entryAt isIgn start base kids (q ++ [n])).entry.name = n.name := by
  simp only [EntInfo.entry, entryAt, List.map_append, List.map_cons, List.map_nil]
  exact entry_name hr (by intro x hx; obtain ⟨m, hm, rfl⟩ := List.mem_map.1 hx; exact hq m (by simp [hm])) (hq n (by simp))

theorem selected_or {cfg cfg' : WalkCfg} {P : EntInfo → Prop} (hi : cfg'.isIgnoreFile = cfg.isIgnoreFile) (hk : cfg'.keep = cfg.keep)
    (he : ∀ i, cfg'.excl i = true ↔ cfg.excl i = true ∨ P i) (start : Start) (base : List Str) (kids : List FNode) (i : EntInfo) :
    Selected cfg' start base kids i ↔ SelectedBut cfg start base kids i P := by
  unfold Selected SelectedBut
  rw [hi, hk]
  have : ∀ j, cfg'.excl j = false ↔ cfg.excl j = false ∧ ¬ P j := by
    intro j
    rw [← Bool.not_eq_true, he, not_or, Bool.not_eq_true]
  simp only [this]

/-! ### C09 -/

/-- The exclude tests made from `--depth` are accepted. -/
theorem parse_depth {S : SearchEnv} (hS : S.Ok) {op denoted : Str} (hop : (op, denoted) ∈ operators) (hd : denoted ∈ [['='], ['+'], ['-'], ['+', '='], ['-', '=']])
    (n : Int) (hn : 0 ≤ n) : ∃ x, S.parseTest ("depth".toList ++ op ++ intStr n) = .ok x ∧ Word ("depth".toList ++ op ++ intStr n) ∧
      ∀ i, S.outcome i x = some true ↔ cmp denoted (i.entry.depth : Int) n := by
  have hs : intStr n = natStr n.toNat := by simp [intStr, Int.not_lt.2 hn]
  have hdig : ∀ c ∈ intStr n, c.isAlphanum = true := by
    rw [hs]
    intro c hc
    have := natStr_digits n.toNat c hc
    rw [isDigit_iff] at this
    simp only [Char.isAlphanum, Char.isDigit, Bool.or_eq_true, Bool.and_eq_true, decide_eq_true_eq]
    right
    exact ⟨by have := this.1; exact this, by have := this.2; exact this⟩
  have hne : intStr n ≠ [] := by rw [hs]; exact natStr_ne_nil _
  have hmem : ("depth".toList, Ty.number) ∈ filePlugin.attrs := by decide
  have hin : Ty.input S.tests .number (intStr n) = some (.int n) := by
    simp only [Ty.input, numberInput, hs, pyInt_natStr]
    have : ((n.toNat : Nat) : Int) = n := by omega
    rw [this, if_neg (by omega)]; rfl
  obtain ⟨t, ht, hcmp⟩ := C19_order S.tests S.case (ty := .number) rfl hin hd
  refine ⟨(("file".toList, "depth".toList), t), ?_, ?_, ?_⟩
  · rw [parse_file hS hmem (by decide) (by decide) hop hne hdig, ht]
  · exact word_of (c := 'd') (r := "epth".toList ++ op ++ intStr n) (by rfl) (by decide) (by decide)
  · intro i
    unfold SearchEnv.outcome
    have ha : S.attr i ("file".toList, "depth".toList) = some (.int i.entry.depth) := rfl
    simp only [ha, (setup_file hS hmem (by decide)).2, Option.some.injEq]
    exact hcmp _ _

theorem le_maxList {l : List Int} {x : Int} (h : x ∈ l) : x ≤ maxList l := by
  induction l with
  | nil => cases h
  | cons a l ih =>
    cases l with
    | nil => simp at h; simp [maxList, h]
    | cons b l =>
      simp only [maxList]
      rcases List.mem_cons.1 h with rfl | h
      · omega
      · have := ih h; omega

theorem maxList_mem {l : List Int} (h : l ≠ []) : maxList l ∈ l := by
  induction l with
  | nil => exact absurd rfl h
  | cons a l ih =>
    cases l with
    | nil => simp [maxList]
    | cons b l =>
      simp only [maxList]
      have := ih (by simp)
      by_cases hc : a ≤ maxList (b :: l)
      · rw [Int.max_eq_right hc]; exact List.mem_cons_of_mem _ this
      · rw [Int.max_eq_left (by omega)]; simp

/-- Ranges as they come from the command line. -/
def GoodRanges (l : List (Int × Option Int)) : Prop := ∀ r ∈ l, 0 ≤ r.1 ∧ ∀ stop, r.2 = some stop → r.1 ≤ stop

/-- The exclude test of `--depth` is accepted and excludes exactly what is deeper than the end of every range. -/
theorem depthExclude_spec {S : SearchEnv} (hS : S.Ok) {l : List (Int × Option Int)} (hne : l ≠ []) (hl : GoodRanges l) :
    GoodTests S (depthExclude l) ∧ ∀ i, S.excluded (depthExclude l) i = true ↔ ∀ r ∈ l, ∃ stop, r.2 = some stop ∧ stop < (i.entry.depth : Int) := by
  unfold depthExclude
  by_cases h : l.any (fun r => r.2 = none) = true
  · rw [if_pos h]
    refine ⟨(by intro t ht; cases ht), ?_⟩
    intro i
    rw [excluded_nil]
    simp only [Bool.false_eq_true, false_iff]
    intro hall
    obtain ⟨r, hr, hn⟩ := List.any_eq_true.1 h
    obtain ⟨s, hs, _⟩ := hall r hr
    simp [hs] at hn
  · rw [if_neg h]
    have hsome : ∀ r ∈ l, ∃ s, r.2 = some s := by
      intro r hr
      cases hs : r.2 with
      | none => exact absurd (List.any_eq_true.2 ⟨r, hr, by simp [hs]⟩) h
      | some s => exact ⟨s, rfl⟩
    have hfne : l.filterMap Prod.snd ≠ [] := by
      cases l with
      | nil => exact absurd rfl hne
      | cons r l => obtain ⟨s, hs⟩ := hsome r (by simp); simp [hs]
    have hm := maxList_mem hfne
    obtain ⟨r0, hr0, hs0⟩ := List.mem_filterMap.1 hm
    have hpos : 0 ≤ maxList (l.filterMap Prod.snd) := by
      have := hl r0 hr0
      have := this.2 _ hs0
      omega
    obtain ⟨x, hx, hw, ho⟩ := parse_depth hS (op := ['+']) (denoted := ['+']) (by decide) (by decide) _ hpos
    have hg : GoodTests S ["depth+".toList ++ intStr (maxList (l.filterMap Prod.snd))] := by
      intro t ht
      simp only [List.mem_singleton] at ht
      subst ht
      exact ⟨hw, x, hx⟩
    refine ⟨hg, ?_⟩
    intro i
    rw [excluded_iff hg]
    have hcmp : cmp ['+'] (i.entry.depth : Int) (maxList (l.filterMap Prod.snd)) ↔ maxList (l.filterMap Prod.snd) < (i.entry.depth : Int) := Iff.rfl
    constructor
    · rintro ⟨t, ht, y, hy, hoy⟩
      simp only [List.mem_singleton] at ht
      subst ht
      rw [show "depth+".toList = "depth".toList ++ ['+'] from rfl, hx] at hy
      cases hy
      have hlt := hcmp.1 ((ho i).1 hoy)
      intro r hr
      obtain ⟨s, hs⟩ := hsome r hr
      have := le_maxList (List.mem_filterMap.2 ⟨r, hr, hs⟩)
      exact ⟨s, hs, by omega⟩
    · intro hall
      refine ⟨_, by simp, x, hx, ?_⟩
      rw [ho, hcmp]
      obtain ⟨s, hs, hlt⟩ := hall r0 hr0
      rw [hs0] at hs; cases hs; exact hlt

/-- The exclude list of a search: the given one and the tests for `-I`, `--one-file-system`, `-H` and `-d`. -/
theorem processArguments_exclude (a : FArgs) : (processArguments a).exclude = a.exclude ++ (if a.ignore then ["ignored=yes".toList] else []) ++
    (if a.oneFileSystem then ["samedev=no".toList] else []) ++ (if a.hide then ["hide=yes".toList] else []) ++ (if a.depth ≠ [] then depthExclude a.depth else []) := by
  unfold processArguments
  by_cases h1 : a.json.isSome <;> by_cases h2 : a.ignore <;> by_cases h3 : a.oneFileSystem <;> by_cases h4 : a.hide <;> by_cases h5 : a.depth = [] <;>
    simp only [h1, h2, h3, h4, h5, if_true, if_false, ne_eq, not_true_eq_false, not_false_eq_true, Bool.false_eq_true] <;> split <;> simp

theorem processArguments_tests (a : FArgs) : (processArguments a).tests = if a.depth ≠ [] then depthTests a.depth a.tests else a.tests := by
  unfold processArguments
  by_cases h1 : a.json.isSome <;> by_cases h2 : a.ignore <;> by_cases h3 : a.oneFileSystem <;> by_cases h4 : a.hide <;> by_cases h5 : a.depth = [] <;>
    simp only [h1, h2, h3, h4, h5, if_true, if_false, ne_eq, not_true_eq_false, not_false_eq_true, Bool.false_eq_true] <;> split <;> simp

/-- The search for the given arguments. -/
def SearchEnv.search (S : SearchEnv) (isIgn : Str → Bool) (jobs : Nat) (slow : Bool) (a : FArgs) : WalkCfg :=
  S.cfg isIgn jobs slow (processArguments a).tests (processArguments a).exclude

/-- The exclude tests on the command line are accepted, and so is the one for `-I` if given. -/
def GoodExclude (S : SearchEnv) (a : FArgs) : Prop := GoodTests S (a.exclude ++ (if a.ignore then ["ignored=yes".toList] else []))

/-- What is excluded, by all the options. -/
theorem search_excl {S : SearchEnv} (hS : S.Ok) {a : FArgs} (hex : GoodExclude S a) (hr : GoodRanges a.depth) (isIgn : Str → Bool) (jobs : Nat) (slow : Bool) (i : EntInfo) :
    (S.search isIgn jobs slow a).excl i = true ↔
      (S.excluded (a.exclude ++ (if a.ignore then ["ignored=yes".toList] else [])) i = true ∨
      (a.oneFileSystem = true ∧ S.attr i ("file".toList, "samedev".toList) = some (.bool false))) ∨
      (a.hide = true ∧ S.attr i ("file".toList, "hide".toList) = some (.bool true)) ∨
      (a.depth ≠ [] ∧ ∀ r ∈ a.depth, ∃ stop, r.2 = some stop ∧ stop < (i.entry.depth : Int)) := by
  obtain ⟨s1, s2⟩ := excluded_bool hS (a := "samedev".toList) (by decide) (b := false) "samedev=no".toList rfl
  obtain ⟨t1, t2⟩ := excluded_bool hS (a := "hide".toList) (by decide) (b := true) "hide=yes".toList rfl
  have hnil : GoodTests S [] := by intro t ht; cases ht
  have g1 : GoodTests S (if a.oneFileSystem then ["samedev=no".toList] else []) := by split <;> assumption
  have g2 : GoodTests S (if a.hide then ["hide=yes".toList] else []) := by split <;> assumption
  have g3 : GoodTests S (if a.depth ≠ [] then depthExclude a.depth else []) := by
    split
    · rename_i h; exact (depthExclude_spec hS h hr).1
    · exact hnil
  show S.excluded (processArguments a).exclude i = true ↔ _
  rw [processArguments_exclude, excluded_append (goodTests_append.2 ⟨goodTests_append.2 ⟨hex, g1⟩, g2⟩) g3, excluded_append (goodTests_append.2 ⟨hex, g1⟩) g2, excluded_append hex g1]
  simp only [Bool.or_eq_true]
  have e1 : S.excluded (if a.oneFileSystem then ["samedev=no".toList] else []) i = true ↔ a.oneFileSystem = true ∧ S.attr i ("file".toList, "samedev".toList) = some (.bool false) := by
    split
    · rename_i h; rw [s2]; simp [h]
    · rename_i h; rw [excluded_nil]; simp [h]
  have e2 : S.excluded (if a.hide then ["hide=yes".toList] else []) i = true ↔ a.hide = true ∧ S.attr i ("file".toList, "hide".toList) = some (.bool true) := by
    split
    · rename_i h; rw [t2]; simp [h]
    · rename_i h; rw [excluded_nil]; simp [h]
  have e3 : S.excluded (if a.depth ≠ [] then depthExclude a.depth else []) i = true ↔
      a.depth ≠ [] ∧ ∀ r ∈ a.depth, ∃ stop, r.2 = some stop ∧ stop < (i.entry.depth : Int) := by
    split
    · rename_i h; rw [(depthExclude_spec hS h hr).2]; simp [h]
    · rename_i h; rw [excluded_nil]; simp at h; simp [h]
  rw [e1, e2, e3, or_assoc (c := a.depth ≠ [] ∧ _)]

/-- C09: with `-H` exactly those entries are selected that are selected without and whose path relative to the start directory has no component that
starts with a dot. -/
theorem C09_hide {S : SearchEnv} (hS : S.Ok) (a : FArgs) (hex : GoodExclude S a) (hr : GoodRanges a.depth) (isIgn : Str → Bool) (jobs : Nat) (slow : Bool)
    {start : Start} (hroot : start.root ≠ []) (base : List Str) {kids : List FNode} (hg : GoodTree kids) (i : EntInfo) :
    Selected (S.search isIgn jobs slow { a with hide := true }) start base kids i ↔
      Selected (S.search isIgn jobs slow { a with hide := false }) start base kids i ∧ ∀ c ∈ splitOn '/' i.relpath, ∀ r, c ≠ '.' :: r := by
  have hk : (S.search isIgn jobs slow { a with hide := true }).keep = (S.search isIgn jobs slow { a with hide := false }).keep := by
    show S.kept _ = S.kept _
    rw [processArguments_tests, processArguments_tests]
  have he : ∀ i, (S.search isIgn jobs slow { a with hide := true }).excl i = true ↔
      (S.search isIgn jobs slow { a with hide := false }).excl i = true ∨ S.attr i ("file".toList, "hide".toList) = some (.bool true) := by
    intro i
    rw [search_excl hS (a := { a with hide := true }) hex hr, search_excl hS (a := { a with hide := false }) hex hr]
    simp only [true_and, Bool.false_eq_true, false_and, false_or]
    rw [or_assoc, or_comm (a := S.attr i _ = _)]
    simp only [or_assoc]
  rw [selected_or (cfg := S.search isIgn jobs slow { a with hide := false }) (cfg' := S.search isIgn jobs slow { a with hide := true }) rfl hk he]
  have hhide : ∀ (q : List FNode) (n : FNode), (∀ m ∈ q ++ [n], IsFileName m.name) →
      (S.attr (entryAt isIgn start base kids (q ++ [n])) ("file".toList, "hide".toList) = some (.bool true) ↔ ∃ r, n.name = '.' :: r) := by
    intro q n hq
    have : S.attr (entryAt isIgn start base kids (q ++ [n])) ("file".toList, "hide".toList) = ((entryAt isIgn start base kids (q ++ [n])).entry.hide).map .bool := rfl
    rw [this]
    unfold Entry.hide
    rw [entryAt_entry_name hroot base kids isIgn hq]
    cases hn : n.name with
    | nil => simp
    | cons c cs => simp
  have hcomp : ∀ p, Chain kids p → splitOn '/' (entryAt isIgn start base kids p).relpath = p.map FNode.name := by
    intro p hp
    exact splitOn_pathOf (by simpa using chain_ne_nil hp) (by
      intro x hx; obtain ⟨m, hm, rfl⟩ := List.mem_map.1 hx; exact (goodTree_chain hg hp m hm).2)
  constructor
  · rintro ⟨p, hp, rfl, hkeep, hall⟩
    refine ⟨⟨p, hp, rfl, hkeep, fun q h1 h2 => (hall q h1 h2).1⟩, ?_⟩
    show ∀ c ∈ splitOn '/' (entryAt isIgn start base kids p).relpath, _
    rw [hcomp p hp]
    intro c hc r hcr
    obtain ⟨n, hn, rfl⟩ := List.mem_map.1 hc
    obtain ⟨u, v, rfl⟩ := List.append_of_mem hn
    have h2 := (hall (u ++ [n]) (by simp) ⟨v, by simp⟩).2
    exact h2 ((hhide u n (fun m hm => goodTree_chain hg hp m (by
      rcases List.mem_append.1 hm with hm | hm
      · simp [hm]
      · simp at hm; simp [hm]))).2 ⟨r, hcr⟩)
  · rintro ⟨⟨p, hp, rfl, hkeep, hall⟩, hno⟩
    refine ⟨p, hp, rfl, hkeep, fun q h1 h2 => ⟨hall q h1 h2, ?_⟩⟩
    intro hh
    obtain ⟨u, n, rfl⟩ : ∃ u n, q = u ++ [n] := ⟨q.dropLast, q.getLast h1, (List.dropLast_concat_getLast h1).symm⟩
    obtain ⟨r, hr'⟩ := (hhide u n (fun m hm => goodTree_chain hg hp m (h2.subset hm))).1 hh
    have hno' : ∀ c ∈ splitOn '/' (entryAt isIgn start base kids p).relpath, ∀ r, c ≠ '.' :: r := hno
    rw [hcomp p hp] at hno'
    exact hno' n.name (List.mem_map.2 ⟨n, h2.subset (by simp), rfl⟩) r hr'

/-- C63: with `--one-file-system` exactly those entries are selected that are selected without when, in addition, no entry on a different device
than the start directory is entered or reported. -/
theorem C63_one_file_system {S : SearchEnv} (hS : S.Ok) (a : FArgs) (hex : GoodExclude S a) (hr : GoodRanges a.depth) (isIgn : Str → Bool) (jobs : Nat) (slow : Bool)
    (start : Start) (base : List Str) (kids : List FNode) (i : EntInfo) :
    Selected (S.search isIgn jobs slow { a with oneFileSystem := true }) start base kids i ↔
      SelectedBut (S.search isIgn jobs slow { a with oneFileSystem := false }) start base kids i (fun j => S.stat j "samedev".toList = some (.bool false)) := by
  apply selected_or (cfg := S.search isIgn jobs slow { a with oneFileSystem := false }) (cfg' := S.search isIgn jobs slow { a with oneFileSystem := true }) rfl
  · show S.kept _ = S.kept _
    rw [processArguments_tests, processArguments_tests]
  · intro j
    rw [search_excl hS (a := { a with oneFileSystem := true }) hex hr, search_excl hS (a := { a with oneFileSystem := false }) hex hr]
    have : S.attr j ("file".toList, "samedev".toList) = S.stat j "samedev".toList := rfl
    simp only [true_and, Bool.false_eq_true, false_and, or_false, this]
    rw [or_assoc, or_assoc, or_comm (a := S.stat j _ = _), or_assoc]

/-! ### C10 -/

/-- The formula made from one range. -/
def rangeFormula (r : Int × Option Int) : Formula :=
  if some r.1 = r.2 then .atom ("depth=".toList ++ intStr r.1)
  else match r.2 with
    | some stop => .conj (.atom ("depth+=".toList ++ intStr r.1)) (.atom ("depth-=".toList ++ intStr stop))
    | none => .atom ("depth+=".toList ++ intStr r.1)

def rangesFormula : List (Int × Option Int) → Formula
  | [] => .atom []
  | [r] => rangeFormula r
  | r :: rs => .disj (rangeFormula r) (rangesFormula rs)

/-- The value of the words made from `-d`. -/
theorem wordTrue_depth {S : SearchEnv} (hS : S.Ok) {op denoted : Str} (hop : (op, denoted) ∈ operators) (hd : denoted ∈ [['='], ['+'], ['-'], ['+', '='], ['-', '=']])
    (n : Int) (hn : 0 ≤ n) (i : EntInfo) : wordTrue S.parseTest (S.outcome i) ("depth".toList ++ op ++ intStr n) = true ↔ cmp denoted (i.entry.depth : Int) n := by
  obtain ⟨x, hx, _, ho⟩ := parse_depth hS hop hd n hn
  unfold wordTrue
  rw [hx]
  simp only [beq_iff_eq]
  exact ho i

theorem rangeFormula_spec {S : SearchEnv} (hS : S.Ok) {r : Int × Option Int} (hr : 0 ≤ r.1 ∧ ∀ stop, r.2 = some stop → r.1 ≤ stop) :
    Derives .conj (rangeTests r) (rangeFormula r) ∧ (∀ t ∈ (rangeFormula r).atoms, ∃ x, S.parseTest t = .ok x) ∧
    ∀ i, (rangeFormula r).eval (wordTrue S.parseTest (S.outcome i)) = true ↔ InRange (i.entry.depth : Int) r := by
  obtain ⟨a, b⟩ := r
  obtain ⟨h0, hb⟩ := hr
  simp only at h0 hb
  obtain ⟨x1, hx1, hw1, _⟩ := parse_depth hS (op := ['=']) (denoted := ['=']) (by decide) (by decide) a h0
  obtain ⟨x2, hx2, hw2, _⟩ := parse_depth hS (op := ['+', '=']) (denoted := ['+', '=']) (by decide) (by decide) a h0
  have v1 := wordTrue_depth hS (op := ['=']) (denoted := ['=']) (by decide) (by decide) a h0
  have v2 := wordTrue_depth hS (op := ['+', '=']) (denoted := ['+', '=']) (by decide) (by decide) a h0
  have e1 : "depth=".toList = "depth".toList ++ ['='] := rfl
  have e2 : "depth+=".toList = "depth".toList ++ ['+', '='] := rfl
  have e3 : "depth-=".toList = "depth".toList ++ ['-', '='] := rfl
  unfold rangeTests rangeFormula
  simp only
  split
  · rename_i h
    subst h
    rw [e1]
    refine ⟨.item (.prim (.atom hw1)), ?_, ?_⟩
    · intro t ht; simp only [Formula.atoms, List.mem_singleton] at ht; subst ht; exact ⟨x1, hx1⟩
    · intro i
      rw [Formula.eval, v1 i]
      simp only [InRange, Option.some.injEq, cmp]
      constructor
      · intro h; exact ⟨by omega, by intro s hs; omega⟩
      · rintro ⟨h1, h2⟩; have := h2 a rfl; omega
  · rename_i h
    cases b with
    | none =>
      rw [e2]
      refine ⟨.item (.prim (.atom hw2)), ?_, ?_⟩
      · intro t ht; simp only [Formula.atoms, List.mem_singleton] at ht; subst ht; exact ⟨x2, hx2⟩
      · intro i
        rw [Formula.eval, v2 i]
        simp [InRange, cmp]
    | some s =>
      have hs0 : 0 ≤ s := by have := hb s rfl; omega
      obtain ⟨x3, hx3, hw3, _⟩ := parse_depth hS (op := ['-', '=']) (denoted := ['-', '=']) (by decide) (by decide) s hs0
      have v3 := wordTrue_depth hS (op := ['-', '=']) (denoted := ['-', '=']) (by decide) (by decide) s hs0
      rw [e2, e3]
      refine ⟨.conj (ts := [_]) (us := [_]) (.item (.prim (.atom hw2))) (.item (.prim (.atom hw3))), ?_, ?_⟩
      · intro t ht
        simp only [Formula.atoms, List.mem_append, List.mem_singleton] at ht
        rcases ht with rfl | rfl
        · exact ⟨x2, hx2⟩
        · exact ⟨x3, hx3⟩
      · intro i
        rw [Formula.eval, Formula.eval, Formula.eval, Bool.and_eq_true, v2 i, v3 i]
        simp only [InRange, cmp, Option.some.injEq]
        constructor
        · rintro ⟨h1, h2⟩; exact ⟨h1, by intro s' hs'; omega⟩
        · rintro ⟨h1, h2⟩; exact ⟨h1, h2 s rfl⟩

theorem rangesFormula_spec {S : SearchEnv} (hS : S.Ok) {l : List (Int × Option Int)} (hne : l ≠ []) (hl : GoodRanges l) :
    Derives .disj (rangesTests l) (rangesFormula l) ∧ (∀ t ∈ (rangesFormula l).atoms, ∃ x, S.parseTest t = .ok x) ∧
    ∀ i, (rangesFormula l).eval (wordTrue S.parseTest (S.outcome i)) = true ↔ ∃ r ∈ l, InRange (i.entry.depth : Int) r := by
  induction l with
  | nil => exact absurd rfl hne
  | cons r l ih =>
    obtain ⟨h1, h2, h3⟩ := rangeFormula_spec hS (hl r (by simp))
    cases l with
    | nil =>
      refine ⟨.single h1, h2, ?_⟩
      intro i; simp only [rangesFormula, h3]; simp
    | cons r' l =>
      obtain ⟨i1, i2, i3⟩ := ih (by simp) (fun x hx => hl x (by simp [hx]))
      refine ⟨.disj (.single h1) (show Kw "OR" "OR".toList by unfold Kw; decide) i1, ?_, ?_⟩
      · intro t ht
        simp only [rangesFormula, Formula.atoms, List.mem_append] at ht
        exact ht.elim (h2 t) (i2 t)
      · intro i
        simp only [rangesFormula, Formula.eval, Bool.or_eq_true, h3, i3, List.mem_cons]
        constructor
        · rintro (h | ⟨x, hx, h⟩)
          · exact ⟨r, .inl rfl, h⟩
          · exact ⟨x, .inr hx, h⟩
        · rintro ⟨x, rfl | hx, h⟩
          · exact .inl h
          · exact .inr ⟨x, hx, h⟩

/-- The tests on the command line are an expression of the documented grammar made of accepted tests. -/
def GoodExpression (S : SearchEnv) (ts : List Str) : Prop := ts = [] ∨ ∃ f, Derives .disj ts f ∧ ∀ t ∈ f.atoms, ∃ x, S.parseTest t = .ok x

theorem derives_ne_nil {lv : Level} {ts : List Str} {f : Formula} (h : Derives lv ts f) : ts ≠ [] := by
  induction h with
  | atom | group | neg | andBefore | andAfter => simp
  | prim _ ih | item _ ih | single _ ih => exact ih
  | conj _ _ ih _ => simp [ih]
  | disj _ _ _ _ => simp

/-- C10: the matcher with `-d` accepts an entry iff its depth lies in one of the ranges and the matcher without accepts it. -/
theorem C10_matcher {S : SearchEnv} (hS : S.Ok) {l : List (Int × Option Int)} (hne : l ≠ []) (hl : GoodRanges l) {ts : List Str} (ht : GoodExpression S ts) (i : EntInfo) :
    S.kept (depthTests l ts) i = true ↔ (∃ r ∈ l, InRange (i.entry.depth : Int) r) ∧ S.kept ts i = true := by
  obtain ⟨d1, d2, d3⟩ := rangesFormula_spec hS hne hl
  have hgrp : Derives .conj ("{{".toList :: rangesTests l ++ ["}}".toList]) (rangesFormula l) := .item (.prim (.group (.inr rfl) (.inr rfl) d1))
  unfold SearchEnv.kept
  rcases ht with rfl | ⟨f, hf, hfa⟩
  · have e : depthTests l [] = "{{".toList :: rangesTests l ++ ["}}".toList] := by simp [depthTests]
    rw [e, C01_boolean_semantics S.parseTest S.speed _ _ (.single hgrp) d2, C01_empty]
    simp only [d3, and_true]
  · have hts : ts ≠ [] := by
      exact derives_ne_nil hf
    have e : depthTests l ts = ("{{".toList :: rangesTests l ++ ["}}".toList]) ++ ("{{".toList :: ts ++ ["}}".toList]) := by simp [depthTests, hts]
    have hc : Derives .conj (("{{".toList :: rangesTests l ++ ["}}".toList]) ++ ("{{".toList :: ts ++ ["}}".toList])) (.conj (rangesFormula l) f) :=
      .conj hgrp (.item (.prim (.group (.inr rfl) (.inr rfl) hf)))
    rw [e, C01_boolean_semantics S.parseTest S.speed _ _ (.single hc) (by
      intro t ht
      simp only [Formula.atoms, List.mem_append] at ht
      exact ht.elim (d2 t) (hfa t)), C01_boolean_semantics S.parseTest S.speed _ _ hf hfa]
    simp only [Formula.eval, Bool.and_eq_true, d3]

theorem entryAt_depth {kids : List FNode} (hg : GoodTree kids) {p : List FNode} (hp : Chain kids p) (isIgn : Str → Bool) (start : Start) (base : List Str)
    {q : List FNode} (hq : q ≠ []) (hqp : q <+: p) : (entryAt isIgn start base kids q).entry.depth + 1 = q.length := by
  have hn : ∀ x ∈ q.map FNode.name, '/' ∉ x := by
    intro x hx; obtain ⟨m, hm, rfl⟩ := List.mem_map.1 hx; exact (goodTree_chain hg hp m (hqp.subset hm)).2
  have h1 : ∀ ns : List Str, ns ≠ [] → (∀ x ∈ ns, '/' ∉ x) → (pathOf ns).count '/' + 1 = ns.length := by
    intro ns
    induction ns with
    | nil => intro h; exact absurd rfl h
    | cons a as ih =>
      intro _ h
      cases as with
      | nil => simp [pathOf, List.count_eq_zero.2 (h a (by simp))]
      | cons b bs =>
        have := ih (by simp) (fun x hx => h x (by simp [hx]))
        simp only [pathOf, List.count_append, List.count_cons_self, List.count_eq_zero.2 (h a (by simp)), List.length_cons] at this ⊢
        omega
  have := h1 (q.map FNode.name) (by simpa using hq) hn
  simpa [EntInfo.entry, mkEntry, Entry.depth, entryAt] using this

/-- C10: with `-d` exactly those entries are selected that are selected without and whose depth (the number of directories between the start directory and
the entry) lies in one of the ranges; in particular the pruning below the deepest range loses nothing. -/
theorem C10_depth {S : SearchEnv} (hS : S.Ok) (a : FArgs) (hex : GoodExclude S a) {l : List (Int × Option Int)} (hne : l ≠ []) (hl : GoodRanges l)
    (ht : GoodExpression S a.tests) (isIgn : Str → Bool) (jobs : Nat) (slow : Bool)
    (start : Start) (base : List Str) {kids : List FNode} (hg : GoodTree kids) (i : EntInfo) :
    Selected (S.search isIgn jobs slow { a with depth := l }) start base kids i ↔
      Selected (S.search isIgn jobs slow { a with depth := [] }) start base kids i ∧ ∃ r ∈ l, InRange ((splitOn '/' i.relpath).length - 1) r := by
  have hdep : ∀ p, Chain kids p → (((splitOn '/' (entryAt isIgn start base kids p).relpath).length : Int) - 1) = ((entryAt isIgn start base kids p).entry.depth : Int) := by
    intro p hp
    have h1 : splitOn '/' (entryAt isIgn start base kids p).relpath = p.map FNode.name :=
      splitOn_pathOf (by simpa using chain_ne_nil hp) (by
        intro x hx; obtain ⟨m, hm, rfl⟩ := List.mem_map.1 hx; exact (goodTree_chain hg hp m hm).2)
    have h2 := entryAt_depth hg hp isIgn start base (chain_ne_nil hp) (List.prefix_refl p)
    rw [h1, List.length_map]
    omega
  have hk1 : (S.search isIgn jobs slow { a with depth := l }).keep = S.kept (depthTests l a.tests) := by
    show S.kept _ = _
    rw [processArguments_tests]; simp [hne]
  have hk2 : (S.search isIgn jobs slow { a with depth := [] }).keep = S.kept a.tests := by
    show S.kept _ = _
    rw [processArguments_tests]; simp
  have he : ∀ j, (S.search isIgn jobs slow { a with depth := l }).excl j = true ↔
      (S.search isIgn jobs slow { a with depth := [] }).excl j = true ∨ ∀ r ∈ l, ∃ stop, r.2 = some stop ∧ stop < (j.entry.depth : Int) := by
    intro j
    rw [search_excl hS (a := { a with depth := l }) hex hl, search_excl hS (a := { a with depth := [] }) hex (by intro r hr; cases hr)]
    simp only [hne, ne_eq, not_false_eq_true, true_and, not_true_eq_false, false_and, or_false, or_assoc]
  constructor
  · rintro ⟨p, hp, hi, hkeep, hall⟩
    rw [hk1] at hkeep
    obtain ⟨hr, hkeep⟩ := (C10_matcher hS hne hl ht i).1 hkeep
    refine ⟨⟨p, hp, hi, by rw [hk2]; exact hkeep, ?_⟩, ?_⟩
    · intro q h1 h2
      have := hall q h1 h2
      rw [← Bool.not_eq_true] at this ⊢
      exact fun h => this ((he _).2 (.inl h))
    · have : i = entryAt isIgn start base kids p := hi
      rw [this, hdep p hp, ← this]; exact hr
  · rintro ⟨⟨p, hp, hi, hkeep, hall⟩, hr⟩
    have hi' : i = entryAt isIgn start base kids p := hi
    rw [hi', hdep p hp] at hr
    refine ⟨p, hp, hi, ?_, ?_⟩
    · rw [hk1]
      rw [hk2] at hkeep
      exact (C10_matcher hS hne hl ht i).2 ⟨by rw [hi']; exact hr, hkeep⟩
    · intro q h1 h2
      rw [← Bool.not_eq_true, he]
      rintro (h | h)
      · have := hall q h1 h2
        rw [← Bool.not_eq_true] at this
        exact this h
      · obtain ⟨r, hrl, hin⟩ := hr
        obtain ⟨s, hs, hlt⟩ := h r hrl
        have h3 := entryAt_depth hg hp isIgn start base h1 h2
        have h4 := entryAt_depth hg hp isIgn start base (chain_ne_nil hp) (List.prefix_refl p)
        have h5 := h2.length_le
        have h6 := hin.2 s hs
        have hlt' : s < ((entryAt isIgn start base kids q).entry.depth : Int) := hlt
        omega

/-! ### An instance -/

def demoSearch : SearchEnv :=
  { cc := asciiClass, reg := demoReg, tests := demoEnv, case := .smart, stat := fun i n => if n = "samedev".toList then some (.bool (i.relpath ≠ "mnt".toList)) else none,
    data := fun _ _ _ => none, refEntry := fun _ => none }

set_option maxRecDepth 20000 in
theorem demoSearch_ok : demoSearch.Ok := by
  refine ⟨?_, ⟨by decide, by decide⟩, lower_ascii⟩
  show filePlugin ∈ demoReg
  unfold demoReg
  decide

def demoArgs : FArgs :=
  { tests := ["depth=1".toList], exclude := ["hide=yes".toList], json := none, color := [], absolutePath := false, ignore := false, oneFileSystem := true,
    hide := false, depth := [], count := none }

/-- The hypotheses of C09, C10 and C63 hold for a search with an exclude test, a test, `--one-file-system` and the depths 1-1 and 3-. -/
example : demoSearch.Ok ∧ GoodExclude demoSearch demoArgs ∧ GoodExpression demoSearch demoArgs.tests ∧ GoodRanges [(1, some 1), (3, none)] ∧
    demoRoot.start.root ≠ [] ∧ GoodTree demoRoot.kids := by
  refine ⟨demoSearch_ok, ?_, .inr ?_, by unfold GoodRanges; decide, by decide, demoRoot_ok.2.2⟩
  · have := (excluded_bool demoSearch_ok (a := "hide".toList) (by decide) (b := true) "hide=yes".toList rfl).1
    simpa [GoodExclude, demoArgs] using this
  · obtain ⟨x, hx, hw, _⟩ := parse_depth demoSearch_ok (op := ['=']) (denoted := ['=']) (by decide) (by decide) 1 (by decide)
    refine ⟨.atom "depth=1".toList, .single (.item (.prim (.atom hw))), ?_⟩
    intro t ht
    simp only [Formula.atoms, List.mem_singleton] at ht
    subst ht
    exact ⟨x, hx⟩

/-! ### C51, on tests -/

/-- C51: a test with a reference is accepted iff both attributes exist, their types can be compared, the reference is a file that has the attribute,
and its value can be tested with the operator; then the test is the one for that value. -/
theorem C51_search (S : SearchEnv) (word : Str) (t : TestExpr) (ht : splitTest S.cc word = some t) (r : Str) (hr : t.ref = some r) (a : Attr) (test : Test) :
    S.parseTest word = .ok (a, test) ↔
    ∃ ty ra rty i v, setupAttribute S.reg t.attr = some a ∧ attributeType S.reg a = some ty ∧
      (r = [] ∧ ra = a ∨ r ≠ [] ∧ setupAttribute S.reg r = some ra) ∧ attributeType S.reg ra = some rty ∧
      (ty = rty ∨ (ty.numeric = true ∧ rty.numeric = true) ∨ (ty ∈ [Ty.string, Ty.path] ∧ rty ∈ [Ty.string, Ty.path])) ∧
      S.refEntry t.value = some i ∧ S.attr i ra = some v ∧ createTest S.tests S.case ty t.op (some (some v)) t.value = .ok test := by
  have hcr : ∀ ty v, createTest S.tests S.case ty t.op (some v) t.value = .ok test → v ≠ none := by
    rintro ty v h rfl
    unfold createTest at h
    split at h
    · exact absurd h (by simp)
    · simp [testInput] at h
  unfold SearchEnv.parseTest
  simp only [ht, hr, Option.map_some]
  constructor
  · intro h
    cases ha : setupAttribute S.reg t.attr with
    | none => simp [ha] at h
    | some a' =>
      simp only [ha] at h
      cases hty : attributeType S.reg a' with
      | none => simp [hty] at h
      | some ty =>
        simp only [hty] at h
        cases hc : createTest S.tests S.case ty t.op (some (S.referenceValue ty a' r t.value)) t.value with
        | error e => simp [hc] at h
        | ok test' =>
          simp only [hc, Except.ok.injEq, Prod.mk.injEq] at h
          obtain ⟨rfl, rfl⟩ := h
          have hv := hcr _ _ hc
          cases hrv : S.referenceValue ty a' r t.value with
          | none => exact absurd hrv hv
          | some v =>
            rw [hrv] at hc
            unfold SearchEnv.referenceValue at hrv
            cases hra : (if r ≠ [] then setupAttribute S.reg r else some a') with
            | none => rw [hra] at hrv; simp at hrv
            | some ra =>
              rw [hra] at hrv
              simp only at hrv
              cases hrty : attributeType S.reg ra with
              | none => simp [hrty] at hrv
              | some rty =>
                simp only [hrty] at hrv
                cases hcs : commonSuper none ty.mro rty.mro with
                | none => simp [hcs] at hrv
                | some x =>
                  simp only [hcs, Option.isNone_some, Bool.false_eq_true, if_false] at hrv
                  cases hi : S.refEntry t.value with
                  | none => simp [hi] at hrv
                  | some i =>
                    simp only [hi] at hrv
                    refine ⟨ty, ra, rty, i, v, rfl, hty, ?_, hrty, (C51_builtin ty rty).1 (by simp [hcs]), rfl, hrv, hc⟩
                    by_cases h0 : r = []
                    · left; simp [h0] at hra; exact ⟨h0, hra.symm⟩
                    · right; simp [h0] at hra; exact ⟨h0, hra⟩
  · rintro ⟨ty, ra, rty, i, v, ha, hty, hra, hrty, hcs, hi, hv, hc⟩
    have hra' : (if r ≠ [] then setupAttribute S.reg r else some a) = some ra := by
      rcases hra with ⟨h0, rfl⟩ | ⟨h0, hra⟩ <;> simp [h0]
      exact hra
    have hrv : S.referenceValue ty a r t.value = some v := by
      unfold SearchEnv.referenceValue
      rw [hra']
      have := (C51_builtin ty rty).2 hcs
      cases hx : commonSuper none ty.mro rty.mro with
      | none => simp [hx] at this
      | some x => simp [hrty, hx, hi, hv]
    simp only [ha, hty, hrv, hc]

/-- A search where the file "r" can be used as a reference. -/
def demoRefSearch : SearchEnv :=
  { demoSearch with refEntry := fun p => if p = ['r'] then some ⟨demoRoot.start, ['r'], false, []⟩ else none }

set_option maxRecDepth 20000 in
/-- The depth of a file can be compared with that of the reference, but not with its path. -/
example : splitTest demoRefSearch.cc "depth+{depth}r".toList = some ⟨"depth".toList, ['+'], some "depth".toList, ['r']⟩ ∧
    (match demoRefSearch.parseTest "depth+{depth}r".toList with | .ok _ => true | .error _ => false) = true ∧
    (match demoRefSearch.parseTest "depth+{path}r".toList with | .ok _ => true | .error _ => false) = false := by
  refine ⟨by decide +kernel, by decide +kernel, by decide +kernel⟩

end FF
