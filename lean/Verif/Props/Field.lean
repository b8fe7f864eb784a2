import Verif.Model.Field
import Verif.Spec.Field
import Verif.Lemmas.Re
import Verif.Lemmas.PyInt
import Verif.Lemmas.Arguments
/-! Fields: their syntax (C64), numbers in other bases (C65) and command templates (C40). -/
namespace FF
open Spec

theorem letter_iff (c : Char) : c.isAlpha = true ↔ Letter c := by
  unfold Letter Char.isAlpha Char.isUpper Char.isLower
  simp only [Bool.or_eq_true, Bool.and_eq_true, decide_eq_true_eq, ge_iff_le]
  constructor
  · rintro (⟨h1, h2⟩ | ⟨h1, h2⟩)
    · exact .inr ⟨h1, h2⟩
    · exact .inl ⟨h1, h2⟩
  · rintro (⟨h1, h2⟩ | ⟨h1, h2⟩)
    · exact .inr ⟨h1, h2⟩
    · exact .inl ⟨h1, h2⟩

theorem digit_iff (c : Char) : isDigit c = true ↔ Digit c := by
  unfold isDigit Digit; simp

theorem nameChar_iff (c : Char) : isNameChar c = true ↔ Letter c ∨ Digit c ∨ c = '_' := by
  unfold isNameChar Char.isAlphanum
  rw [Bool.or_eq_true, Bool.or_eq_true, letter_iff, decide_eq_true_eq, or_assoc]
  have : c.isDigit = true ↔ Digit c := by
    unfold Char.isDigit Digit; simp; rfl
  rw [this]

theorem modifier_iff (c : Char) : isModifier c = true ↔ c ∈ ['h', 'o', 'x', 'n', 'v'] := by
  unfold isModifier; simp

theorem nameWord_iff (w : Str) : NameWord w ↔ ∃ c d ds, w = c :: d :: ds ∧ c.isAlpha = true ∧ isNameChar d = true ∧ ∀ x ∈ ds, isNameChar x = true := by
  constructor
  · rintro ⟨c, d, ds, rfl, h1, h2⟩
    exact ⟨c, d, ds, rfl, (letter_iff c).2 h1, (nameChar_iff d).2 (h2 d (by simp)), fun x hx => (nameChar_iff x).2 (h2 x (by simp [hx]))⟩
  · rintro ⟨c, d, ds, rfl, h1, h2, h3⟩
    refine ⟨c, d, ds, rfl, (letter_iff c).1 h1, ?_⟩
    intro x hx
    rcases List.mem_cons.1 hx with rfl | hx
    · exact (nameChar_iff x).1 h2
    · exact (nameChar_iff x).1 (h3 x hx)

/-- The name part of the field regex. -/
def nameRe : Re := .seq (.opt (.seq (.chr Char.isAlpha) (.seq (.plus true isNameChar) (.lit '.')))) (.seq (.chr Char.isAlpha) (.plus false isNameChar))

theorem mat_name {s s' : Str} {c c' : Caps} (h : nameRe.Mat s c s' c') : c' = c ∧ ∃ n, FieldName n ∧ s = n ++ s' := by
  simp only [nameRe, Re.opt, Re.plus, Re.lit, Re.Mat] at h
  obtain ⟨s1, c1, h1, s2, c2, ⟨x, rfl, hx, rfl⟩, s3, c3, ⟨y, rfl, hy, rfl⟩, w, rfl, hw, rfl⟩ := h
  have hn : NameWord (x :: y :: w) := (nameWord_iff _).2 ⟨x, y, w, rfl, hx, hy, hw⟩
  rcases h1 with ⟨s4, c4, ⟨p, rfl, hp, rfl⟩, s5, c5, ⟨s6, c6, ⟨q, rfl, hq, rfl⟩, v, rfl, hv, rfl⟩, dot, h5, hdot, rfl⟩ | ⟨h1, h2⟩
  · have hdot : dot = '.' := by simpa using hdot
    subst hdot; subst h5
    refine ⟨rfl, (p :: q :: v) ++ '.' :: x :: y :: w, .inr ⟨_, _, (nameWord_iff _).2 ⟨p, q, v, rfl, hp, hq, hv⟩, hn, rfl⟩, by simp⟩
  · subst h1 h2
    exact ⟨rfl, _, .inl hn, by simp⟩

theorem name_mat {n s' : Str} {c : Caps} (h : FieldName n) : nameRe.Mat (n ++ s') c s' c := by
  simp only [nameRe, Re.opt, Re.plus, Re.lit, Re.Mat]
  rcases h with h | ⟨p, a, hp, ha, rfl⟩
  · obtain ⟨x, y, w, rfl, hx, hy, hw⟩ := (nameWord_iff _).1 h
    exact ⟨_, c, .inr ⟨rfl, rfl⟩, _, c, ⟨x, rfl, hx, rfl⟩, _, c, ⟨y, rfl, hy, rfl⟩, w, rfl, hw, rfl⟩
  · obtain ⟨x, y, w, rfl, hx, hy, hw⟩ := (nameWord_iff _).1 ha
    obtain ⟨p', q, v, rfl, hp, hq, hv⟩ := (nameWord_iff _).1 hp
    refine ⟨(x :: y :: w) ++ s', c, .inl ⟨_, c, ⟨p', rfl, hp, rfl⟩, _, c, ⟨_, c, ⟨q, rfl, hq, rfl⟩, v, ?_, hv, rfl⟩, '.', rfl, by simp, rfl⟩,
      _, c, ⟨x, rfl, hx, rfl⟩, _, c, ⟨y, rfl, hy, rfl⟩, w, rfl, hw, rfl⟩
    simp

theorem widthText_iff (w : Str) : WidthText w ↔ ∃ d ds, isDigit d = true ∧ (∀ x ∈ ds, isDigit x = true) ∧ (w = d :: ds ∨ w = '-' :: d :: ds) := by
  constructor
  · rintro ⟨ds, hne, hd, h⟩
    cases ds with
    | nil => exact absurd rfl hne
    | cons d ds => exact ⟨d, ds, (digit_iff d).2 (hd d (by simp)), fun x hx => (digit_iff x).2 (hd x (by simp [hx])), h⟩
  · rintro ⟨d, ds, h1, h2, h⟩
    refine ⟨d :: ds, by simp, ?_, h⟩
    intro x hx
    rcases List.mem_cons.1 hx with rfl | hx
    · exact (digit_iff x).1 h1
    · exact (digit_iff x).1 (h2 x hx)

/-- The tail of the field regex. -/
theorem mat_tail {s s' : Str} {c c' : Caps} (h : fieldTailRe.Mat s c s' c') :
    (s' = s ∧ c' = c) ∨ ∃ (w : Option Str) (m : Option Char), (∀ x ∈ w, WidthText x) ∧ (∀ x ∈ m, x ∈ ['h', 'o', 'x', 'n', 'v']) ∧
      s = ':' :: (w.getD [] ++ (m.toList ++ s')) ∧ c' = (m.toList.map (fun x => (3, [x]))) ++ ((w.toList.map (fun x => (2, x))) ++ c) := by
  simp only [fieldTailRe, Re.opt, Re.plus, Re.lit, Re.Mat] at h
  rcases h with ⟨s1, c1, ⟨x, rfl, hx, rfl⟩, s2, c2, hw, hm⟩ | h
  · have hx : x = ':' := by simpa using hx
    subst hx
    right
    have hw' : ∃ w : Option Str, (∀ x ∈ w, WidthText x) ∧ s1 = w.getD [] ++ s2 ∧ c2 = (w.toList.map (fun x => (2, x))) ++ c1 := by
      rcases hw with ⟨c3, ⟨s3, c4, hsign, s4, c5, ⟨d, rfl, hd, rfl⟩, ds, rfl, hds, rfl⟩, rfl⟩ | ⟨rfl, rfl⟩
      · rcases hsign with ⟨y, rfl, hy, rfl⟩ | ⟨h1, rfl⟩
        · have hy : y = '-' := by simpa using hy
          subst hy
          refine ⟨some ('-' :: d :: ds), ?_, by simp, ?_⟩
          · intro x hx; cases hx; exact (widthText_iff _).2 ⟨d, ds, hd, hds, .inr rfl⟩
          · have := take_sub_length ('-' :: d :: ds) s2
            simp only [List.cons_append] at this
            rw [this]; rfl
        · subst h1
          refine ⟨some (d :: ds), ?_, by simp, ?_⟩
          · intro x hx; cases hx; exact (widthText_iff _).2 ⟨d, ds, hd, hds, .inl rfl⟩
          · have := take_sub_length (d :: ds) s2
            simp only [List.cons_append] at this
            rw [this]; rfl
      · exact ⟨none, by simp, by simp, by simp⟩
    obtain ⟨w, hw1, rfl, rfl⟩ := hw'
    rcases hm with ⟨c3, ⟨y, rfl, hy, rfl⟩, rfl⟩ | ⟨rfl, rfl⟩
    · refine ⟨w, some y, hw1, ?_, by simp, ?_⟩
      · intro x hx; cases hx; exact (modifier_iff _).1 hy
      · have : List.take ((y :: s').length - s'.length) (y :: s') = [y] := take_sub_length [y] s'
        rw [this]; simp
    · exact ⟨w, none, hw1, by simp, by simp, by simp⟩
  · exact .inl h

theorem tail_mat {w : Option Str} {m : Option Char} {s' : Str} {c : Caps} (hw : ∀ x ∈ w, WidthText x) (hm : ∀ x ∈ m, x ∈ ['h', 'o', 'x', 'n', 'v']) :
    ∃ c', fieldTailRe.Mat (':' :: (w.getD [] ++ (m.toList ++ s'))) c s' c' := by
  simp only [fieldTailRe, Re.opt, Re.plus, Re.lit, Re.Mat]
  have h1 : ∃ c2, ((∃ c1, (∃ s1 c3, ((∃ x, w.getD [] ++ (m.toList ++ s') = x :: s1 ∧ decide (x = '-') = true ∧ c3 = c) ∨ s1 = w.getD [] ++ (m.toList ++ s') ∧ c3 = c) ∧
      ∃ s2 c4, (∃ x, s1 = x :: s2 ∧ isDigit x = true ∧ c4 = c3) ∧ ∃ w_1, s2 = w_1 ++ (m.toList ++ s') ∧ (∀ x ∈ w_1, isDigit x = true) ∧ c1 = c4) ∧
        c2 = (2, List.take ((w.getD [] ++ (m.toList ++ s')).length - (m.toList ++ s').length) (w.getD [] ++ (m.toList ++ s'))) :: c1) ∨
      m.toList ++ s' = w.getD [] ++ (m.toList ++ s') ∧ c2 = c) := by
    cases w with
    | none => exact ⟨c, .inr ⟨by simp, rfl⟩⟩
    | some w =>
      obtain ⟨d, ds, hd, hds, h⟩ := (widthText_iff w).1 (hw w rfl)
      refine ⟨_, .inl ⟨c, ?_, rfl⟩⟩
      rcases h with rfl | rfl
      · exact ⟨_, c, .inr ⟨rfl, rfl⟩, _, c, ⟨d, rfl, hd, rfl⟩, ds, rfl, hds, rfl⟩
      · exact ⟨_, c, .inl ⟨'-', rfl, by simp, rfl⟩, _, c, ⟨d, rfl, hd, rfl⟩, ds, rfl, hds, rfl⟩
  obtain ⟨c2, h1⟩ := h1
  cases m with
  | none => exact ⟨c2, .inl ⟨_, c, ⟨':', rfl, by simp, rfl⟩, _, c2, h1, .inr ⟨by simp, rfl⟩⟩⟩
  | some y => exact ⟨_, .inl ⟨_, c, ⟨':', rfl, by simp, rfl⟩, _, c2, h1, .inl ⟨c2, ⟨y, rfl, (modifier_iff y).2 (hm y rfl), rfl⟩, rfl⟩⟩⟩

theorem nameWord_chars {w : Str} (h : NameWord w) : ∀ x ∈ w, Letter x ∨ Digit x ∨ x = '_' := by
  obtain ⟨c, d, ds, rfl, h1, h2⟩ := h
  intro x hx
  rcases List.mem_cons.1 hx with rfl | hx
  · exact .inl h1
  · exact h2 x hx

theorem attrName_no_colon {n : Str} (h : FieldName n) : ':' ∉ n := by
  have hc : ¬ (Letter ':' ∨ Digit ':' ∨ ':' = '_') := by unfold Letter Digit; decide
  rcases h with h | ⟨p, a, hp, ha, rfl⟩
  · exact fun hx => hc (nameWord_chars h _ hx)
  · intro hx
    simp only [List.mem_append, List.mem_cons] at hx
    rcases hx with hx | hx | hx
    · exact hc (nameWord_chars hp _ hx)
    · cases hx
    · exact hc (nameWord_chars ha _ hx)

theorem append_sep_inj {c : Char} {a a' b b' : Str} (ha : c ∉ a) (ha' : c ∉ a') (h : a ++ c :: b = a' ++ c :: b') : a = a' ∧ b = b' := by
  induction a generalizing a' with
  | nil =>
    cases a' with
    | nil => simpa using h
    | cons x xs => simp only [List.nil_append, List.cons_append, List.cons.injEq] at h; exact absurd (by simp [h.1]) ha'
  | cons y ys ih =>
    cases a' with
    | nil => simp only [List.nil_append, List.cons_append, List.cons.injEq] at h; exact absurd (by simp [h.1]) ha
    | cons x xs =>
      simp only [List.cons_append, List.cons.injEq] at h
      obtain ⟨h1, h2⟩ := ih (fun hx => ha (by simp [hx])) (fun hx => ha' (by simp [hx])) h.2
      exact ⟨by rw [h.1, h1], h2⟩

theorem widthText_last {w : Str} (h : WidthText w) : ∃ a d, w = a ++ [d] ∧ Digit d := by
  obtain ⟨ds, hne, hd, h⟩ := h
  have hl : ds = ds.dropLast ++ [ds.getLast hne] := (List.dropLast_concat_getLast hne).symm
  have hld : Digit (ds.getLast hne) := hd _ (List.getLast_mem hne)
  rcases h with rfl | rfl
  · exact ⟨_, _, hl, hld⟩
  · refine ⟨'-' :: ds.dropLast, ds.getLast hne, ?_, hld⟩
    rw [List.cons_append, ← hl]

theorem tail_unique {w w' : Option Str} {m m' : Option Char} (hw : ∀ x ∈ w, WidthText x) (hm : ∀ x ∈ m, x ∈ ['h', 'o', 'x', 'n', 'v'])
    (hw' : ∀ x ∈ w', WidthText x) (hm' : ∀ x ∈ m', x ∈ ['h', 'o', 'x', 'n', 'v'])
    (h : w.getD [] ++ m.toList = w'.getD [] ++ m'.toList) : w = w' ∧ m = m' := by
  have hmd : ∀ d, Digit d → d ∉ ['h', 'o', 'x', 'n', 'v'] := by
    intro d hd hmem
    simp only [List.mem_cons, List.not_mem_nil, or_false] at hmem
    unfold Digit at hd
    rcases hmem with rfl | rfl | rfl | rfl | rfl <;> revert hd <;> decide
  have key : ∀ {w w' : Option Str} {y : Char}, (∀ x ∈ w', WidthText x) → y ∈ ['h', 'o', 'x', 'n', 'v'] → w.getD [] ++ [y] ≠ w'.getD [] := by
    intro w w' y hw' hy h
    cases w' with
    | none => simp at h
    | some v =>
      obtain ⟨a, d, hv, hd⟩ := widthText_last (hw' v rfl)
      rw [Option.getD_some, hv] at h
      have := List.append_inj' h rfl
      simp only [List.cons.injEq, and_true] at this
      exact hmd d hd (this.2 ▸ hy)
  have hww : ∀ {w w' : Option Str}, (∀ x ∈ w, WidthText x) → (∀ x ∈ w', WidthText x) → w.getD [] = w'.getD [] → w = w' := by
    intro w w' hw hw' h
    cases w with
    | none =>
      cases w' with
      | none => rfl
      | some v => obtain ⟨a, d, hv, _⟩ := widthText_last (hw' v rfl); simp [hv] at h
    | some u =>
      cases w' with
      | none => obtain ⟨a, d, hv, _⟩ := widthText_last (hw u rfl); simp [hv] at h
      | some v => simpa using h
  cases m with
  | none =>
    cases m' with
    | none => exact ⟨hww hw hw' (by simpa using h), rfl⟩
    | some y => exact absurd (by simpa using h.symm) (key (w := w') (w' := w) hw (hm' y rfl))
  | some x =>
    cases m' with
    | none => exact absurd (by simpa using h) (key (w := w) (w' := w') hw' (hm x rfl))
    | some y =>
      have := List.append_inj' h rfl
      refine ⟨hww hw hw' this.1, ?_⟩
      simpa using this.2

theorem fieldText_unique {s n n' : Str} {w w' : Option Str} {m m' : Option Char} (h : FieldText s n w m) (h' : FieldText s n' w' m') :
    n = n' ∧ w = w' ∧ m = m' := by
  cases h with
  | plain h1 =>
    generalize hs : s = s' at h'
    cases h' with
    | plain h2 => exact ⟨by simp [hs], rfl, rfl⟩
    | full h2 h3 h4 => exact absurd (by rw [hs]; simp) (attrName_no_colon h1)
  | full h1 h2 h3 =>
    generalize hs : n ++ ':' :: (w.getD [] ++ m.toList) = s' at h'
    cases h' with
    | plain h4 => exact absurd (by rw [← hs]; simp) (attrName_no_colon h4)
    | full h4 h5 h6 =>
      obtain ⟨h7, h8⟩ := append_sep_inj (attrName_no_colon h1) (attrName_no_colon h4) hs
      exact ⟨h7, tail_unique h2 h3 h5 h6 h8⟩

/-- What the field regex captures on a text without final newline. -/
theorem fieldRe_mat {s s' : Str} {c : Caps} (hs : ∀ a, s ≠ a ++ ['\n']) (h : fieldRe.Mat s [] s' c) :
    FieldText s ((c.get 1).getD []) (c.get 2) ((c.get 3).bind List.head?) := by
  obtain ⟨s1, c1, ⟨c0, h1, rfl⟩, s2, c2, h2, he, h3, h4⟩ := h
  obtain ⟨rfl, n, hn, rfl⟩ := mat_name h1
  subst h3 h4
  rw [take_sub_length n s1] at h2
  have hs' : s' = [] := by
    rcases he with rfl | rfl
    · rfl
    · exfalso
      rcases mat_tail h2 with ⟨h, _⟩ | ⟨w, m, _, _, h, _⟩
      · exact hs n (by rw [← h])
      · exact hs (n ++ ':' :: (w.getD [] ++ m.toList)) (by rw [h]; simp)
  subst hs'
  rcases mat_tail h2 with ⟨rfl, rfl⟩ | ⟨w, m, hw, hm, rfl, rfl⟩
  · simpa [Caps.get] using FieldText.plain hn
  · have := FieldText.full hn hw hm
    cases m <;> cases w <;> simpa [Caps.get] using this

/-- C64: a field is accepted exactly if it is `[plugin.]attribute[:[width][modifier]]`, and it is taken apart accordingly. -/
theorem C64_syntax (s n : Str) (w : Option Str) (m : Option Char) : splitField s = some (n, w, m) ↔ FieldText (strip s) n w m := by
  have hs := strip_last (s := s)
  constructor
  · intro h
    unfold splitField at h
    cases hm : fieldRe.match' (strip s) with
    | none => rw [hm] at h; cases h
    | some v =>
      rw [hm] at h
      simp only [Option.some.injEq, Prod.mk.injEq] at h
      have := fieldRe_mat hs (match'_some (s' := v.2) (c := v.1) hm)
      rwa [h.1, h.2.1, h.2.2] at this
  · intro h
    have hmat : ∃ c, fieldRe.Mat (strip s) [] [] c := by
      generalize strip s = t at h
      cases h with
      | plain hn =>
        refine ⟨_, _, _, ⟨[], ?_, rfl⟩, [], _, .inr ⟨rfl, rfl⟩, .inl rfl, rfl, rfl⟩
        have := name_mat (s' := []) (c := []) hn
        rwa [List.append_nil] at this
      | full hn hw hm =>
        obtain ⟨c', hc'⟩ := tail_mat (s' := []) (c := [(1, n)]) hw hm
        rw [List.append_nil] at hc'
        refine ⟨c', _, _, ⟨[], name_mat hn, rfl⟩, [], c', ?_, .inl rfl, rfl, rfl⟩
        rw [take_sub_length]; exact hc'
    obtain ⟨c, hc⟩ := hmat
    obtain ⟨c1, s1, h1, h2⟩ := match'_of_mat hc
    have h3 := fieldRe_mat hs h2
    obtain ⟨e1, e2, e3⟩ := fieldText_unique h3 h
    unfold splitField
    rw [h1]
    simp only [e1, e2, e3]

example : splitField " file.size:-10h".toList = some ("file.size".toList, some "-10".toList, some 'h') ∧ splitField "size".toList = some ("size".toList, none, none) ∧
    splitField "size:q".toList = none ∧ splitField "s".toList = none := by decide

/-! ### Numbers in base 8 and 16 -/

theorem baseDigit_idx : ∀ d < 16, baseDigits.idxOf (baseDigit d) = d ∧ (∀ b, d < b → baseDigit d ∈ baseDigits.take b) ∧ (baseDigit d = '0' → d = 0) := by
  intro d hd
  have h1 : baseDigits.idxOf (baseDigit d) = d ∧ baseDigits[d]? = some (baseDigit d) ∧ (baseDigit d = '0' → d = 0) := by
    have : ∀ d : Fin 16, baseDigits.idxOf (baseDigit d.1) = d.1 ∧ baseDigits[d.1]? = some (baseDigit d.1) ∧ (baseDigit d.1 = '0' → d.1 = 0) := by decide
    exact this ⟨d, hd⟩
  refine ⟨h1.1, fun b hb => ?_, h1.2.2⟩
  apply List.mem_of_getElem? (i := d)
  rw [List.getElem?_take, if_pos hb, h1.2.1]

theorem natBaseAux_spec (b : Nat) (hb : 2 ≤ b) (hb' : b ≤ 16) : ∀ f n, n < f → NumeralIn b (natBaseAux b f n) n := by
  intro f
  induction f with
  | zero => intro n h; omega
  | succ f ih =>
    intro n hn
    rw [natBaseAux]
    by_cases h : n < b
    · rw [if_pos h]
      obtain ⟨h1, h2, h3⟩ := baseDigit_idx n (by omega)
      refine ⟨by simp, ?_, by simp [readBase, h1], ?_⟩
      · intro c hc
        rw [List.mem_singleton] at hc
        subst hc
        exact h2 b h
      · intro h4
        simp only [List.head?_cons, Option.some.injEq] at h4
        rw [h4]
    · rw [if_neg h]
      have hdiv : n / b < n := Nat.div_lt_self (by omega) (by omega)
      have hpos : 0 < n / b := Nat.div_pos (by omega) (by omega)
      obtain ⟨i1, i2, i3, i4⟩ := ih (n / b) (by omega)
      have hmod : n % b < b := Nat.mod_lt _ (by omega)
      obtain ⟨h1, h2, h3⟩ := baseDigit_idx (n % b) (by omega)
      refine ⟨by simp, ?_, ?_, ?_⟩
      · intro c hc
        rcases List.mem_append.1 hc with hc | hc
        · exact i2 c hc
        · rw [List.mem_singleton] at hc; subst hc; exact h2 b hmod
      · rw [readBase, List.foldl_append]
        show readBase b (natBaseAux b f (n / b)) * b + baseDigits.idxOf (baseDigit (n % b)) = n
        rw [i3, h1, Nat.mul_comm]
        exact Nat.div_add_mod n b
      · intro h4
        rw [List.head?_append] at h4
        cases hh : natBaseAux b f (n / b) with
        | nil => exact absurd hh i1
        | cons x xs =>
          rw [hh] at h4 i3 i4
          simp only [List.head?_cons, Option.some_or, Option.some.injEq] at h4
          subst h4
          have := i4 rfl
          rw [this] at i3
          have hz : readBase b ['0'] = 0 := by
            show 0 * b + baseDigits.idxOf '0' = 0
            rw [Nat.zero_mul, Nat.zero_add]; decide
          rw [hz] at i3
          omega

/-- C65: with the x and o modifiers a number is shown in base 16 and 8, so that reading it in that base gives the number back. -/
theorem C65_number (o : OutEnv) (ty : Ty) (hty : ty ∈ [Ty.number, .mode, .size, .time, .duration]) (n : Int) :
    (∃ s, ty.output o (some 'x') (.int n) = (if n < 0 then ['-'] else []) ++ s ∧ NumeralIn 16 s n.natAbs) ∧
    (∃ s, ty.output o (some 'o') (.int n) = (if n < 0 then ['-'] else []) ++ s ∧ NumeralIn 8 s n.natAbs) := by
  have key : ∀ b, 2 ≤ b → b ≤ 16 → ∃ s, intBase b n = (if n < 0 then ['-'] else []) ++ s ∧ NumeralIn b s n.natAbs := by
    intro b h1 h2
    unfold intBase
    by_cases hn : n < 0
    · rw [if_pos hn, if_pos hn]
      refine ⟨_, rfl, ?_⟩
      have : (-n).toNat = n.natAbs := by omega
      rw [this]
      exact natBaseAux_spec b h1 h2 _ _ (Nat.lt_succ_self _)
    · rw [if_neg hn, if_neg hn]
      refine ⟨_, rfl, ?_⟩
      have : n.toNat = n.natAbs := by omega
      rw [this]
      exact natBaseAux_spec b h1 h2 _ _ (Nat.lt_succ_self _)
  have hx : ty.output o (some 'x') (.int n) = intBase 16 n ∧ ty.output o (some 'o') (.int n) = intBase 8 n := by
    simp only [List.mem_cons, List.not_mem_nil, or_false] at hty
    rcases hty with rfl | rfl | rfl | rfl | rfl <;> exact ⟨rfl, rfl⟩
  rw [hx.1, hx.2]
  exact ⟨key 16 (by omega) (by omega), key 8 (by omega) (by omega)⟩

example : intBase 16 (-255) = "-ff".toList ∧ intBase 8 493 = "755".toList := by decide

end FF
