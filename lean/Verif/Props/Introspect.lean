import Verif.Spec.Introspect
import Verif.Lemmas.PySort
import Verif.Lemmas.Path
import Verif.Props.Grep
import Verif.Lemmas.Order
import Verif.Props.Entry
/-! C93, C94: the plugins shebang and py. -/
namespace FF
open Spec

theorem isAsciiSpace_iff (c : Char) : isAsciiSpace c = true ↔ White c := by
  have h : ∀ d : Char, c = d ↔ c.toNat = d.toNat := by
    intro d
    refine ⟨fun e => by rw [e], fun e => ?_⟩
    rw [← Char.ofNat_toNat c, ← Char.ofNat_toNat d, e]
  have h9 : c = '\t' ↔ c.toNat = 9 := h _
  have h10 : c = '\n' ↔ c.toNat = 10 := h _
  have h11 : c = '\x0b' ↔ c.toNat = 11 := h _
  have h12 : c = '\x0c' ↔ c.toNat = 12 := h _
  have h13 : c = '\r' ↔ c.toNat = 13 := h _
  have h32 : c = ' ' ↔ c.toNat = 32 := h _
  simp only [isAsciiSpace, isSpace, White, Bool.or_eq_true, decide_eq_true_eq, Bool.and_eq_true, h9, h10, h11, h12, h13, h32]
  omega

theorem takeWhile_all {α : Type _} (p : α → Bool) : ∀ (l : List α), ∀ c ∈ l.takeWhile p, p c = true
  | [], _, h => by simp at h
  | a :: l, c, h => by
    cases ha : p a with
    | false => simp [List.takeWhile, ha] at h
    | true =>
      simp only [List.takeWhile, ha, List.mem_cons] at h
      rcases h with rfl | h
      · exact ha
      · exact takeWhile_all p l c h

theorem rstripSpace_trimmed (s : Str) : Trimmed s (rstripSpace s) := by
  refine ⟨(s.reverse.takeWhile isAsciiSpace).reverse, ?_, ?_, ?_⟩
  · rw [rstripSpace, ← List.reverse_append, List.takeWhile_append_dropWhile, List.reverse_reverse]
  · intro c hc
    exact (isAsciiSpace_iff c).mp (takeWhile_all _ _ _ (List.mem_reverse.mp hc))
  · intro u c h hw
    have h1 : s.reverse.dropWhile isAsciiSpace = c :: u.reverse := by
      have := congrArg List.reverse h
      simpa [rstripSpace] using this
    have := List.head?_dropWhile_not isAsciiSpace s.reverse
    rw [h1] at this
    rw [← isAsciiSpace_iff] at hw
    simp [hw] at this

theorem Spec.Trimmed.unique {s v w : Str} (hv : Trimmed s v) (hw : Trimmed s w) : v = w := by
  obtain ⟨a, ha, hsa, hla⟩ := hv
  obtain ⟨b, hb, hsb, hlb⟩ := hw
  have e : v ++ a = w ++ b := ha.symm.trans hb
  have key : ∀ (v w a b : Str), v ++ a = w ++ b → (∀ c ∈ a, White c) → (∀ u c, w = u ++ [c] → ¬ White c) → w.length ≤ v.length := by
    intro v w a b e h1 h2
    rcases Nat.lt_or_ge v.length w.length with h | h
    · exfalso
      obtain ⟨u, hu⟩ : ∃ u, w = v ++ u := by
        refine ⟨w.drop v.length, ?_⟩
        have := congrArg (List.take v.length) e
        rw [List.take_left, List.take_append_of_le_length (Nat.le_of_lt h)] at this
        conv => rhs; arg 1; rw [this]
        exact (List.take_append_drop _ _).symm
      subst hu
      have hu : u ≠ [] := by rintro rfl; simp at h
      have hc := h2 (v ++ u.dropLast) (u.getLast hu) (by rw [List.append_assoc, List.dropLast_concat_getLast])
      have e2 : a = u ++ b := by rw [List.append_assoc] at e; exact List.append_cancel_left e
      exact hc (h1 _ (by rw [e2]; exact List.mem_append_left _ (List.getLast_mem hu)))
    · exact h
  have hl : v.length = w.length := Nat.le_antisymm (key w v b a e.symm hsb hla) (key v w a b e hsa hlb)
  exact (List.append_inj e hl).1

theorem Spec.Trimmed.newline {s v : Str} : Trimmed (s ++ ['\n']) v ↔ Trimmed s v := by
  have key : ∀ {s v : Str}, Trimmed s v → Trimmed (s ++ ['\n']) v := by
    rintro s v ⟨w, h1, h2, h3⟩
    refine ⟨w ++ ['\n'], by rw [h1, List.append_assoc], ?_, h3⟩
    intro c hc
    rcases List.mem_append.mp hc with h | h
    · exact h2 c h
    · rw [List.mem_singleton.mp h]; unfold White; decide
  refine ⟨fun h => ?_, key⟩
  rw [h.unique (key (rstripSpace_trimmed s))]
  exact rstripSpace_trimmed s

/-- A text is empty, or consists of its first line and what follows. -/
theorem first_line_cases (s : Str) : s = [] ∨ (s ≠ [] ∧ '\n' ∉ s) ∨ ∃ l r, s = l ++ '\n' :: r ∧ '\n' ∉ l := by
  induction s with
  | nil => exact .inl rfl
  | cons c s ih =>
    by_cases hc : c = '\n'
    · exact .inr (.inr ⟨[], s, by rw [hc]; rfl, by simp⟩)
    · rcases ih with rfl | ⟨_, h⟩ | ⟨l, r, rfl, h⟩
      · exact .inr (.inl ⟨by simp, by simpa using fun e => hc e.symm⟩)
      · exact .inr (.inl ⟨by simp, by simpa using ⟨fun e => hc e.symm, h⟩⟩)
      · exact .inr (.inr ⟨c :: l, r, rfl, by simpa using ⟨fun e => hc e.symm, h⟩⟩)

theorem append_newline_inj {a b r t : Str} (ha : '\n' ∉ a) (hb : '\n' ∉ b) (h : a ++ '\n' :: r = b ++ '\n' :: t) : a = b ∧ r = t := by
  induction a generalizing b with
  | nil =>
    cases b with
    | nil => simpa using h
    | cons d b =>
      simp only [List.nil_append, List.cons_append, List.cons.injEq] at h
      exact absurd (by rw [← h.1]; simp) hb
  | cons c a ih =>
    cases b with
    | nil =>
      simp only [List.nil_append, List.cons_append, List.cons.injEq] at h
      exact absurd (by rw [h.1]; simp) ha
    | cons d b =>
      simp only [List.cons_append, List.cons.injEq] at h
      have := ih (fun x => ha (by simp [x])) (fun x => hb (by simp [x])) h.2
      exact ⟨by rw [h.1, this.1], this.2⟩

theorem Spec.FirstLine.line {l r line : Str} (hl : '\n' ∉ l) (h : FirstLine (l ++ '\n' :: r) line) : line = l := by
  obtain ⟨h1, h2 | ⟨t, h2⟩⟩ := h
  · exact absurd (by rw [← h2]; simp) h1
  · exact (append_newline_inj hl h1 h2).1.symm

theorem Spec.FirstLine.last {l line : Str} (hl : '\n' ∉ l) (h : FirstLine l line) : line = l := by
  obtain ⟨h1, h2 | ⟨t, h2⟩⟩ := h
  · exact h2.symm
  · exact absurd (by rw [h2]; simp) hl

theorem decodeAscii_some {s v : Str} : decodeAscii s = some v ↔ v = s ∧ ∀ c ∈ s, c.toNat < 128 := by
  rw [decodeAscii]
  split
  · rename_i h
    simp only [List.all_eq_true, decide_eq_true_eq] at h
    simp only [Option.some.injEq]
    exact ⟨fun e => ⟨e.symm, h⟩, fun e => e.1.symm⟩
  · rename_i h
    simp only [List.all_eq_true, decide_eq_true_eq] at h
    simp only [reduceCtorEq, false_iff]
    exact fun e => h e.2

/-- What the loop does with a line beginning with `#!`. -/
theorem shebang_line {rest v : Str} : (decodeAscii rest).map rstripSpace = some v ↔ (∀ c ∈ rest, c.toNat < 128) ∧ Trimmed rest v := by
  rw [Option.map_eq_some_iff]
  constructor
  · rintro ⟨a, h, rfl⟩
    obtain ⟨rfl, h⟩ := decodeAscii_some.mp h
    exact ⟨h, rstripSpace_trimmed _⟩
  · rintro ⟨h1, h2⟩
    exact ⟨rest, decodeAscii_some.mpr ⟨rfl, h1⟩, (rstripSpace_trimmed rest).unique h2⟩

theorem startsWith_shebang {l : Str} : startsWith l ['#', '!'] = true ↔ ∃ t, l = '#' :: '!' :: t := by
  rw [startsWith, List.isPrefixOf_iff_prefix]
  constructor
  · rintro ⟨t, rfl⟩; exact ⟨t, rfl⟩
  · rintro ⟨t, rfl⟩; exact ⟨t, rfl⟩

theorem shebang_newline {l : Str} : (∃ t, l ++ ['\n'] = '#' :: '!' :: t) ↔ ∃ t, l = '#' :: '!' :: t := by
  constructor
  · rintro ⟨t, h⟩
    cases l with
    | nil => simp at h
    | cons a l => cases l with
      | nil => simp at h
      | cons b l =>
        simp only [List.cons_append, List.cons.injEq] at h
        exact ⟨l, by rw [h.1, h.2.1]⟩
  · rintro ⟨t, rfl⟩; exact ⟨t ++ ['\n'], rfl⟩

/-- **C93** (what it does). For every file: `shebang` has a value iff the first of the lines that begin with `#!` is ASCII, and then it is the rest of this
line without the white space at its end. -/
theorem C93_some (content v : Str) : extractShebang (some content) = some v ↔ SomeShebang content v := by
  show shebangLoop (readlines content) = some v ↔ _
  generalize hn : content.length = n
  induction n using Nat.strongRecOn generalizing content with
  | ind n ih =>
    rcases first_line_cases content with rfl | ⟨h0, h⟩ | ⟨l, r, rfl, h⟩
    · simp only [readlines, shebangLoop, reduceCtorEq, false_iff]
      intro h
      generalize hs : ([] : Str) = s at h
      cases h with
      | here h =>
        subst hs
        obtain ⟨line, h, _⟩ := h
        have := h.last (by simp)
        simp at this
      | later => simp at hs
    · rw [readlines_last h h0]
      simp only [shebangLoop]
      by_cases hs : startsWith content ['#', '!'] = true
      · rw [if_pos hs]
        obtain ⟨t, rfl⟩ := startsWith_shebang.mp hs
        show (decodeAscii t).map rstripSpace = some v ↔ _
        rw [shebang_line]
        constructor
        · intro hv; exact .here ⟨t, ⟨h, .inl rfl⟩, hv⟩
        · intro hv
          generalize he : ('#' :: '!' :: t : Str) = s at hv
          cases hv with
          | here hv =>
            subst he
            obtain ⟨line, h1, h2⟩ := hv
            have := h1.last h
            simp only [List.cons.injEq, true_and] at this
            rw [← this]; exact h2
          | @later l s _ h1 h2 h3 => exact absurd (by rw [he]; simp) h
      · rw [if_neg hs]
        simp only [reduceCtorEq, false_iff]
        intro hv
        cases hv with
        | here hv =>
          obtain ⟨line, h1, h2⟩ := hv
          exact hs (startsWith_shebang.mpr ⟨line, (h1.last h).symm⟩)
        | later => exact h (by simp)
    · rw [readlines_line h]
      simp only [shebangLoop]
      by_cases hs : startsWith (l ++ ['\n']) ['#', '!'] = true
      · rw [if_pos hs]
        obtain ⟨t, rfl⟩ := shebang_newline.mp (startsWith_shebang.mp hs)
        show (decodeAscii (t ++ ['\n'])).map rstripSpace = some v ↔ _
        rw [shebang_line, Trimmed.newline]
        have hasc : (∀ c ∈ t ++ ['\n'], c.toNat < 128) ↔ ∀ c ∈ t, c.toNat < 128 := by
          constructor
          · intro h c hc; exact h c (List.mem_append_left _ hc)
          · intro h c hc
            rcases List.mem_append.mp hc with hc | hc
            · exact h c hc
            · rw [List.mem_singleton.mp hc]; decide
        rw [hasc]
        constructor
        · intro hv; exact .here ⟨t, ⟨h, .inr ⟨r, rfl⟩⟩, hv⟩
        · intro hv
          generalize he : (('#' :: '!' :: t : Str) ++ '\n' :: r) = s at hv
          cases hv with
          | here hv =>
            subst he
            obtain ⟨line, h1, h2⟩ := hv
            have := h1.line h
            simp only [List.cons.injEq, true_and] at this
            rw [← this]; exact h2
          | @later l s _ h1 h2 h3 =>
            exact absurd (append_newline_inj h h1 he).1.symm (h2 t)
      · rw [if_neg hs, ih r.length (by rw [← hn]; simp; omega) r rfl]
        have hl : ∀ t, l ≠ '#' :: '!' :: t := fun t e => hs (startsWith_shebang.mpr (shebang_newline.mpr ⟨t, e⟩))
        constructor
        · exact fun hv => .later h hl hv
        · intro hv
          generalize he : l ++ '\n' :: r = s at hv
          cases hv with
          | here hv =>
            subst he
            obtain ⟨line, h1, h2⟩ := hv
            exact absurd (h1.line h).symm (hl line)
          | @later l' s _ h1 h2 h3 =>
            rw [(append_newline_inj h h1 he).2]; exact h3

/-- **C93** (partial: only for files that begin with `#!` or have no line that does). `shebang` is the rest of the first line if the file begins with `#!`, and
missing otherwise. -/
theorem C93_first_partial (content v : Str) (h : (∃ t, content = '#' :: '!' :: t) ∨ ¬ ∃ a t, content = a ++ '\n' :: '#' :: '!' :: t) :
    extractShebang (some content) = some v ↔ ShebangLine content v := by
  rw [C93_some]
  refine ⟨fun hv => ?_, .here⟩
  cases hv with
  | here h => exact h
  | @later l s _ h1 h2 h3 =>
    exfalso
    rcases h with ⟨t, h⟩ | h
    · cases l with
      | nil => simp at h
      | cons a l => cases l with
        | nil => simp at h
        | cons b l =>
          simp only [List.cons_append, List.cons.injEq] at h
          exact h2 l (by rw [h.1, h.2.1])
    · have key : ∀ {s v : Str}, SomeShebang s v → ∀ l : Str, ∃ a t, l ++ '\n' :: s = a ++ '\n' :: '#' :: '!' :: t := by
        intro s v hs
        induction hs with
        | here hs =>
          intro l
          obtain ⟨line, ⟨_, rfl | ⟨r, rfl⟩⟩, _⟩ := hs
          · exact ⟨l, line, rfl⟩
          · exact ⟨l, line ++ '\n' :: r, rfl⟩
        | @later l' s v _ _ _ ih =>
          intro l
          obtain ⟨a, t, e⟩ := ih (l ++ '\n' :: l')
          exact ⟨a, t, by rw [← e]; simp⟩
      exact h (key h3 l)

/-- **C93** (what it does). Only regular files that can be read have the attribute. -/
theorem C93_regular (isFile : Bool) (content : Option Str) (v : Str) :
    shebangProcess isFile content = some v ↔ isFile = true ∧ ∃ c, content = some c ∧ SomeShebang c v := by
  unfold shebangProcess
  cases isFile with
  | false => simp
  | true =>
    cases content with
    | none => simp [extractShebang]
    | some c => simp [C93_some]

example : shebangProcess true (some ['#', '!', 'y']) = some ['y'] := by decide

example : extractShebang (some ['#', '!', '/', 's', 'h', ' ', '\n', 'x']) = some ['/', 's', 'h'] ∧
    (∃ t, (['#', '!', '/', 's', 'h', ' ', '\n', 'x'] : Str) = '#' :: '!' :: t) := ⟨by decide, _, rfl⟩

/-- **C93** (false). A file that does not begin with `#!` has the attribute, if any of its other lines does. -/
theorem C93_false : ∃ content v, (∀ t, content ≠ '#' :: '!' :: t) ∧ extractShebang (some content) = some v :=
  ⟨['x', '\n', '#', '!', 'y', '\n'], ['y'], by simp, by decide⟩

/-! ### C94 -/

theorem joinWith_snoc {c : Char} : ∀ {l : List Str} {x : Str}, l ≠ [] → joinWith c (l ++ [x]) = joinWith c l ++ c :: x
  | [], _, h => absurd rfl h
  | [a], x, _ => rfl
  | a :: b :: l, x, _ => by
    have := joinWith_snoc (c := c) (l := b :: l) (x := x) (by simp)
    show a ++ c :: joinWith c (b :: l ++ [x]) = (a ++ c :: joinWith c (b :: l)) ++ c :: x
    rw [this]; simp

theorem joinWith_ends {c : Char} : ∀ {l : List Str}, l ≠ [] → (∀ x ∈ l, x ≠ [] ∧ c ∉ x) → ∃ a d, joinWith c l = a ++ [d] ∧ d ≠ c
  | [], h, _ => absurd rfl h
  | [a], _, hl => by
    have h := hl a (by simp)
    refine ⟨a.dropLast, a.getLast h.1, (List.dropLast_concat_getLast h.1).symm, fun e => h.2 ?_⟩
    rw [← e]; exact List.getLast_mem h.1
  | a :: b :: l, _, hl => by
    obtain ⟨u, d, h1, h2⟩ := joinWith_ends (c := c) (l := b :: l) (by simp) (fun x hx => hl x (List.mem_cons_of_mem _ hx))
    exact ⟨a ++ c :: u, d, by rw [joinWith, h1]; simp; simp, h2⟩

/-- `os.path.split` takes the last name off. -/
theorem osPathSplit_snoc {l : List Str} {x : Str} (hl : ∀ y ∈ l, y ≠ [] ∧ '/' ∉ y) (hx : '/' ∉ x) :
    osPathSplit (joinWith '/' (l ++ [x])) = (joinWith '/' l, x) := by
  by_cases h : l = []
  · subst h
    simp [joinWith, osPathSplit, rfind_not_mem hx, sliceTo, sliceFrom]
  · rw [joinWith_snoc h]
    obtain ⟨a, d, h1, h2⟩ := joinWith_ends h hl
    have hr := rfind_split (joinWith '/' l) hx
    have e1 : ((((joinWith '/' l).length : Int) + 1)).toNat = (joinWith '/' l).length + 1 := by omega
    have e2 : List.take ((joinWith '/' l).length + 1) (joinWith '/' l ++ '/' :: x) = joinWith '/' l ++ ['/'] := by
      rw [show joinWith '/' l ++ '/' :: x = (joinWith '/' l ++ ['/']) ++ x by simp]
      exact List.take_left' (by simp)
    have e3 : List.drop ((joinWith '/' l).length + 1) (joinWith '/' l ++ '/' :: x) = x := by
      rw [show joinWith '/' l ++ '/' :: x = (joinWith '/' l ++ ['/']) ++ x by simp]
      exact List.drop_left' (by simp)
    simp only [osPathSplit, hr, sliceTo, sliceFrom, e1, e2, e3]
    rw [if_pos]
    · simp only [rstripChar, List.reverse_append, List.reverse_cons, List.reverse_nil, List.nil_append, List.cons_append, h1]
      simp [List.dropWhile, h2]
    · refine ⟨by simp, ?_⟩
      rw [h1]
      simp [h2]

theorem relativeParts_names : ∀ {used up : List Str} {acc : List Str}, (∀ y ∈ up ++ used, y ≠ [] ∧ '/' ∉ y) →
    relativeParts used.length (joinWith '/' (up ++ used)) acc = used ++ acc := by
  intro used
  generalize hn : used.length = n
  induction n generalizing used with
  | zero =>
    intro up acc _
    rw [List.length_eq_zero_iff.mp hn]; rfl
  | succ n ih =>
    intro up acc h
    have hne : used ≠ [] := by rintro rfl; simp at hn
    obtain ⟨u, x, rfl⟩ : ∃ u x, used = u ++ [x] := ⟨_, _, (List.dropLast_concat_getLast hne).symm⟩
    have hu : u.length = n := by simpa using hn
    rw [relativeParts, ← List.append_assoc, osPathSplit_snoc (fun y hy => h y (by rw [← List.append_assoc]; exact List.mem_append_left _ hy))
      (h x (by simp)).2, ih hu (fun y hy => h y (by rw [← List.append_assoc]; exact List.mem_append_left _ hy))]
    simp

/-- **C94** (what it does with dots). The module of an import with dots is reported with the names of as many directories in front as there are dots. -/
theorem C94_dots (up used : List Str) (m : Str) (names : List Str) (h : ∀ y ∈ up ++ used, y ≠ [] ∧ '/' ∉ y) (hu : used ≠ []) :
    stmtImports (joinWith '/' (up ++ used)) (.relative used.length (some m) names) = [joinWith '.' (used ++ [m])] := by
  rw [stmtImports, if_pos (List.length_pos_iff.mpr hu), relativeParts_names h]

/-- The statements for which the attribute is right: one module at a time, and at most one dot. -/
def Simple : ImportStmt → Prop
  | .plain _ others => others = []
  | .relative level modname _ => level ≤ 1 ∧ modname.isSome

theorem simple_imports {dir : List Str} (h0 : dir ≠ []) (h : ∀ y ∈ dir, y ≠ [] ∧ '/' ∉ y) {st : ImportStmt} (hs : Simple st) (m : Str) :
    m ∈ stmtImports (joinWith '/' dir) st ↔ Imports dir st m := by
  cases st with
  | plain first others =>
    have ho : others = [] := hs
    subst ho
    simp only [stmtImports]
    exact ⟨fun hm => .plain hm, fun hm => by cases hm with | plain hm => exact hm⟩
  | relative level modname names =>
    obtain ⟨hl, hm⟩ := hs
    cases modname with
    | none => simp at hm
    | some k =>
      by_cases h1 : level = 0
      · subst h1
        simp only [stmtImports, Nat.lt_irrefl, if_false, List.mem_singleton, gt_iff_lt]
        constructor
        · rintro rfl; exact .absolute
        · intro hm
          generalize hd : (ImportStmt.relative 0 (some k) names) = st at hm
          cases hm with
          | absolute => cases hd; rfl
          | plain => cases hd
          | member => cases hd
          | package => cases hd
      · have h1 : level = 1 := by omega
        subst h1
        obtain ⟨up, p, rfl⟩ : ∃ u x, dir = u ++ [x] := ⟨_, _, (List.dropLast_concat_getLast h0).symm⟩
        have := C94_dots up [p] k names h (by simp)
        simp only [List.length_singleton] at this
        rw [this, List.mem_singleton]
        constructor
        · rintro rfl
          exact .member (up := up) (p := p) (down := []) rfl
        · intro hm
          generalize hd : (ImportStmt.relative 1 (some k) names) = st at hm
          cases hm with
          | absolute => cases hd
          | plain => cases hd
          | @member up' p' down m' names' e =>
            cases down with
            | cons _ _ => simp at hd
            | nil =>
              simp only [List.length_nil, Nat.zero_add, ImportStmt.relative.injEq, Option.some.injEq, true_and] at hd
              have := (List.append_inj' e rfl).2
              simp only [List.cons.injEq, and_true] at this
              rw [hd.1, ← this]; rfl
          | package => simp at hd

/-- **C94** (partial: statements that import one module each, with at most one dot and the name of a module; files that are in a directory with a name).
`imports` consists of exactly the modules that are imported, in order. -/
theorem C94_imports_partial (dir : List Str) (stmts : List ImportStmt) (h0 : dir ≠ []) (h : ∀ y ∈ dir, y ≠ [] ∧ '/' ∉ y)
    (hs : ∀ st ∈ stmts, Simple st) : ∃ l, pyImports (joinWith '/' dir) (some stmts) = some l ∧ l.Pairwise (fun a b => strLe a b = true) ∧
      ∀ m, m ∈ l ↔ ∃ st ∈ stmts, Imports dir st m := by
  refine ⟨_, rfl, pySort_sorted ⟨fun a b => strLe_total a b, fun a b c => strLe_trans⟩ _, fun m => ?_⟩
  rw [(pySort_perm strLe _).mem_iff, List.mem_flatMap]
  constructor
  · rintro ⟨st, h1, h2⟩; exact ⟨st, h1, (simple_imports h0 h (hs st h1) m).mp h2⟩
  · rintro ⟨st, h1, h2⟩; exact ⟨st, h1, (simple_imports h0 h (hs st h1) m).mpr h2⟩

example : (∀ st ∈ [ImportStmt.relative 1 (some ['m']) [['x']], .plain ['a'] []], Simple st) ∧
    pyImports (joinWith '/' [['p'], ['q']]) (some [.relative 1 (some ['m']) [['x']], .plain ['a'] []]) = some [['a'], ['q', '.', 'm']] := by
  refine ⟨?_, by decide⟩
  intro st h
  simp only [List.mem_cons, List.not_mem_nil, or_false] at h
  rcases h with rfl | rfl
  · exact ⟨Nat.le_refl _, rfl⟩
  · rfl

/-- Whatever a file imports, the attribute is in order, and for files that are not Python it is missing. -/
theorem C94_sorted (dir : Str) (stmts : Option (List ImportStmt)) : (pyImports dir stmts = none ↔ stmts = none) ∧
    ∀ l, pyImports dir stmts = some l → l.Pairwise (fun a b => strLe a b = true) := by
  cases stmts with
  | none => exact ⟨⟨fun _ => rfl, fun _ => rfl⟩, fun l h => by simp [pyImports] at h⟩
  | some stmts =>
    refine ⟨by simp [pyImports], fun l h => ?_⟩
    simp only [pyImports, Option.map_some, Option.some.injEq] at h
    rw [← h]
    exact pySort_sorted ⟨fun a b => strLe_total a b, fun a b c => strLe_trans⟩ _

/-- **C94** (partial: the modules that are left out). The statements a file may contain besides do no harm: the modules of the others are reported. -/
theorem C94_found_partial (dir : List Str) (stmts : List ImportStmt) (h0 : dir ≠ []) (h : ∀ y ∈ dir, y ≠ [] ∧ '/' ∉ y) (st : ImportStmt) (m : Str)
    (hst : st ∈ stmts) (hs : Simple st) (hm : Imports dir st m) : ∃ l, pyImports (joinWith '/' dir) (some stmts) = some l ∧ m ∈ l := by
  refine ⟨_, rfl, ?_⟩
  rw [(pySort_perm strLe _).mem_iff, List.mem_flatMap]
  exact ⟨st, hst, (simple_imports h0 h hs m).mpr hm⟩

/-- **C94** (false). Of `import a, b` only `a` is reported. -/
theorem C94_several_false : ∃ dir stmts m, (∃ st ∈ stmts, Imports dir st m) ∧ ∃ l, pyImports (joinWith '/' dir) (some stmts) = some l ∧ m ∉ l :=
  ⟨[['p']], [.plain ['a'] [['b']]], ['b'], ⟨_, List.mem_singleton.mpr rfl, .plain (by simp)⟩, [['a']], by decide, by decide⟩

/-- **C94** (false). `from . import x` is not reported at all. -/
theorem C94_package_false : ∃ dir stmts m, (∃ st ∈ stmts, Imports dir st m) ∧ pyImports (joinWith '/' dir) (some stmts) = some [] :=
  ⟨[['p']], [.relative 1 none [['x']]], ['p'], ⟨_, List.mem_singleton.mpr rfl, .package (up := []) (down := []) rfl⟩, by decide⟩

theorem imports_two {p q m name : Str} (h : Imports [p, q] (.relative 2 (some m) []) name) : name = p ++ '.' :: m := by
  generalize hst : ImportStmt.relative 2 (some m) [] = st at h
  generalize hd : [p, q] = dir at h
  cases h with
  | absolute => cases hst
  | plain => cases hst
  | package => simp at hst
  | @member up p' down m' names e =>
    subst hd
    simp only [ImportStmt.relative.injEq, Option.some.injEq] at hst
    have hl : down.length = 1 := by omega
    have : up.length = 0 := by
      have := congrArg List.length e
      simp only [List.length_cons, List.length_nil, List.length_append] at this
      omega
    rw [List.length_eq_zero_iff.mp this] at e
    simp only [List.nil_append, List.cons.injEq] at e
    rw [e.1, hst.2.1]

/-- **C94** (false). With two dots the name of the directory the file is in is put in between, a module that is not imported. -/
theorem C94_dots_false : ∃ dir stmts m, (∀ st ∈ stmts, ¬ Imports dir st m) ∧ pyImports (joinWith '/' dir) (some stmts) = some [m] := by
  refine ⟨[['p'], ['q']], [.relative 2 (some ['m']) []], ['p', '.', 'q', '.', 'm'], ?_, by decide⟩
  intro st hst h
  rw [List.mem_singleton.mp hst] at h
  have := imports_two h
  simp at this

/-- Which files are taken for Python: those with the extension `py`, and scripts whose `#!` line mentions python. -/
theorem C94_handled (lower : Str → Str) (e : Entry) (content : Str) (h : lower e.ext ≠ ['p', 'y']) :
    pyCanHandle lower e (some content) = true ↔ ∃ v, SomeShebang content v ∧ ∃ a b, v = a ++ (['p', 'y', 't', 'h', 'o', 'n'] ++ b) := by
  have hsub : ∀ (p s : Str), hasSub p s = true ↔ ∃ a b, s = a ++ (p ++ b) := by
    intro p s
    induction s with
    | nil =>
      simp only [hasSub, List.isEmpty_iff]
      constructor
      · rintro rfl; exact ⟨[], [], rfl⟩
      · rintro ⟨a, b, h⟩
        have := congrArg List.length h
        simp only [List.length_nil, List.length_append] at this
        exact List.length_eq_zero_iff.mp (by omega)
    | cons c s ih =>
      simp only [hasSub, Bool.or_eq_true, ih, startsWith, List.isPrefixOf_iff_prefix]
      constructor
      · rintro (⟨b, h⟩ | ⟨a, b, rfl⟩)
        · exact ⟨[], b, h.symm⟩
        · exact ⟨c :: a, b, rfl⟩
      · rintro ⟨a, b, h⟩
        cases a with
        | nil => exact .inl ⟨b, h.symm⟩
        | cons d a =>
          simp only [List.cons_append, List.cons.injEq] at h
          exact .inr ⟨a, b, h.2⟩
  rw [pyCanHandle, if_neg h]
  cases hx : extractShebang (some content) with
  | none =>
    simp only [Bool.false_eq_true, false_iff]
    rintro ⟨v, hv, _⟩
    rw [(C93_some content v).mpr hv] at hx
    cases hx
  | some v =>
    simp only [hsub]
    constructor
    · exact fun hv => ⟨v, (C93_some content v).mp hx, hv⟩
    · rintro ⟨w, hw, hv⟩
      rw [(C93_some content w).mpr hw] at hx
      cases hx
      exact hv

end FF
