import Verif.Spec.Arguments
import Verif.Lemmas.Re
import Verif.Lemmas.PyInt
namespace FF
open Spec

theorem mem_digits {c : Char} {d : Nat} : (c, d) ∈ digits ↔ isDigit c = true ∧ digitVal c = d := by
  constructor
  · intro h
    simp only [digits, List.mem_cons, List.not_mem_nil, or_false, Prod.mk.injEq] at h
    rcases h with ⟨rfl, rfl⟩ | ⟨rfl, rfl⟩ | ⟨rfl, rfl⟩ | ⟨rfl, rfl⟩ | ⟨rfl, rfl⟩ | ⟨rfl, rfl⟩ | ⟨rfl, rfl⟩ | ⟨rfl, rfl⟩ | ⟨rfl, rfl⟩ | ⟨rfl, rfl⟩ <;> decide
  · rintro ⟨h, rfl⟩
    have h2 := isDigit_iff.1 h
    have : c = Char.ofNat c.toNat := (Char.ofNat_toNat c).symm
    rw [this]
    generalize c.toNat = n at h2
    have : n = 48 ∨ n = 49 ∨ n = 50 ∨ n = 51 ∨ n = 52 ∨ n = 53 ∨ n = 54 ∨ n = 55 ∨ n = 56 ∨ n = 57 := by omega
    rcases this with rfl | rfl | rfl | rfl | rfl | rfl | rfl | rfl | rfl | rfl <;> decide

theorem numeral_iff {w : Str} {n : Nat} : Numeral w n ↔ w ≠ [] ∧ (∀ c ∈ w, isDigit c = true) ∧ natOfDigits w = n := by
  constructor
  · intro h
    induction h with
    | digit h =>
      obtain ⟨h1, h2⟩ := mem_digits.1 h
      exact ⟨by simp, by simpa using h1, by simpa [natOfDigits] using h2⟩
    | snoc _ hd ih =>
      obtain ⟨h1, h2⟩ := mem_digits.1 hd
      refine ⟨by simp, ?_, ?_⟩
      · intro c hc
        rcases List.mem_append.1 hc with hc | hc
        · exact ih.2.1 c hc
        · simp at hc; rw [hc]; exact h1
      · rw [natOfDigits_append, ih.2.2, h2]; omega
  · rintro ⟨hne, hd, hn⟩
    subst hn
    have : ∀ k (w : Str), w.length = k → w ≠ [] → (∀ c ∈ w, isDigit c = true) → Numeral w (natOfDigits w) := by
      intro k
      induction k with
      | zero => intro w hl hne; exact absurd (List.length_eq_zero_iff.1 hl) hne
      | succ k ih =>
        intro w hl hne hd
        obtain ⟨v, c, rfl⟩ : ∃ v c, w = v ++ [c] := ⟨w.dropLast, w.getLast hne, (List.dropLast_concat_getLast hne).symm⟩
        rw [natOfDigits_append]
        cases v with
        | nil => exact .digit (by rw [mem_digits]; exact ⟨hd c (by simp), by simp [natOfDigits]⟩)
        | cons x v =>
          rw [Nat.mul_comm]
          exact .snoc (ih _ (by simp at hl; simpa using hl) (by simp) (fun y hy => hd y (by simp at hy ⊢; rcases hy with h | h <;> simp [h])))
            (mem_digits.2 ⟨hd c (by simp), rfl⟩)
    exact this _ w rfl hne hd

theorem numeral_pyInt {w : Str} {n : Nat} (h : Numeral w n) : pyInt w = some (n : Int) := by
  obtain ⟨h1, h2, h3⟩ := numeral_iff.1 h
  rw [pyInt_digits h2 h1, h3]

theorem numeral_of {w : Str} (h1 : w ≠ []) (h2 : ∀ c ∈ w, isDigit c = true) : Numeral w (natOfDigits w) := numeral_iff.2 ⟨h1, h2, rfl⟩

theorem numeral_unique {w : Str} {m n : Nat} (h : Numeral w m) (h' : Numeral w n) : m = n := by
  rw [← (numeral_iff.1 h).2.2, ← (numeral_iff.1 h').2.2]

theorem match'_some {r : Re} {s s' : Str} {c : Caps} (h : r.match' s = some (c, s')) : r.Mat s [] s' c := by
  obtain ⟨s1, c1, h1, h2⟩ := Re.run_eq_some h
  simp only [Option.some.injEq, Prod.mk.injEq] at h2
  rw [← h2.1, ← h2.2]; exact h1

theorem match'_of_mat {r : Re} {s s' : Str} {c : Caps} (h : r.Mat s [] s' c) : ∃ c1 s1, r.match' s = some (c1, s1) ∧ r.Mat s [] s1 c1 := by
  have : (r.match' s).isSome = true := Re.run_isSome_of_mat h rfl
  obtain ⟨⟨c1, s1⟩, hv⟩ := Option.isSome_iff_exists.1 this
  exact ⟨c1, s1, hv, match'_some hv⟩

theorem rangeRe_mat {s s' : Str} {c : Caps} : rangeRe.Mat s [] s' c ↔ (s' = [] ∨ s' = ['\n']) ∧
    ((∃ d, d ≠ [] ∧ (∀ x ∈ d, isDigit x = true) ∧ s = d ++ s' ∧ c = [(1, d)]) ∨
     (∃ a b, (∀ x ∈ a, isDigit x = true) ∧ (∀ x ∈ b, isDigit x = true) ∧ s = a ++ '-' :: b ++ s' ∧ c = [(3, b), (2, a)])) := by
  simp only [rangeRe, Re.Mat, Re.mat_plus, Re.mat_lit]
  constructor
  · rintro ⟨s1, c1, h, he, rfl, rfl⟩
    refine ⟨he, ?_⟩
    rcases h with ⟨c1, ⟨w, hw1, hs, hw2, rfl⟩, rfl⟩ | ⟨s2, c2, ⟨c3, ⟨w, rfl, hw, rfl⟩, rfl⟩, s3, c4, ⟨hs2, rfl⟩, c5, ⟨w2, rfl, hw2, rfl⟩, rfl⟩
    · refine .inl ⟨w, hw1, hw2, hs, ?_⟩
      rw [hs, take_sub_length]
    · refine .inr ⟨w, w2, hw, hw2, by rw [hs2]; simp, ?_⟩
      rw [take_sub_length, take_sub_length]
  · rintro ⟨he, ⟨d, hne, hd, rfl, rfl⟩ | ⟨a, b, ha, hb, rfl, rfl⟩⟩
    · refine ⟨s', _, .inl ⟨_, ⟨d, hne, rfl, hd, rfl⟩, ?_⟩, he, rfl, rfl⟩
      rw [take_sub_length]
    · refine ⟨s', _, .inr ⟨'-' :: b ++ s', _, ⟨_, ⟨a, by simp, ha, rfl⟩, rfl⟩, _, _, ⟨rfl, rfl⟩, _, ⟨b, rfl, hb, rfl⟩, ?_⟩, he, rfl, rfl⟩
      have h1 := take_sub_length b s'
      have h2 := take_sub_length a ('-' :: b ++ s')
      have h3 : a ++ '-' :: b ++ s' = a ++ ('-' :: b ++ s') := by simp
      rw [h3, h2]
      exact congrArg (fun x => [(3, x), (2, a)]) h1.symm

/-- The value computed for one range. -/
theorem parseRange_of {s s' : Str} {c : Caps} (h : rangeRe.match' s = some (c, s')) :
    ∃ t r, s = t ++ s' ∧ (s' = [] ∨ s' = ['\n']) ∧ RangeText t r ∧ parseRange s = .ok r := by
  obtain ⟨he, hm⟩ := rangeRe_mat.1 (match'_some h)
  rcases hm with ⟨d, hne, hd, hs, rfl⟩ | ⟨a, b, ha, hb, hs, rfl⟩
  · refine ⟨d, _, hs, he, .single (numeral_of hne hd), ?_⟩
    simp [parseRange, h, Caps.get, argInt, pyInt_digits hd hne]
  · by_cases hae : a = []
    · subst hae
      by_cases hbe : b = []
      · subst hbe
        refine ⟨['-'], _, hs, he, .all, ?_⟩
        simp [parseRange, h, Caps.get]
      · refine ⟨'-' :: b, _, hs, he, .upto (numeral_of hbe hb), ?_⟩
        simp [parseRange, h, Caps.get, hbe, argInt, pyInt_digits hb hbe]
        omega
    · by_cases hbe : b = []
      · subst hbe
        refine ⟨a ++ ['-'], _, hs, he, .from (numeral_of hae ha), ?_⟩
        simp [parseRange, h, Caps.get, hae, argInt, pyInt_digits ha hae]
      · refine ⟨a ++ '-' :: b, _, hs, he, .both (numeral_of hae ha) (numeral_of hbe hb), ?_⟩
        simp only [parseRange, h, Caps.get, argInt]
        simp [hae, hbe, pyInt_digits ha hae, pyInt_digits hb hbe]
        split
        · simp; omega
        · simp; omega

theorem rangeText_chars {t : Str} {r : Int × Option Int} (h : RangeText t r) : ∀ c ∈ t, isDigit c = true ∨ c = '-' := by
  cases h with
  | single h => intro c hc; exact .inl ((numeral_iff.1 h).2.1 c hc)
  | both h1 h2 =>
    intro c hc
    rcases List.mem_append.1 hc with hc | hc
    · exact .inl ((numeral_iff.1 h1).2.1 c hc)
    · rcases List.mem_cons.1 hc with hc | hc
      · exact .inr hc
      · exact .inl ((numeral_iff.1 h2).2.1 c hc)
  | «from» h =>
    intro c hc
    rcases List.mem_append.1 hc with hc | hc
    · exact .inl ((numeral_iff.1 h).2.1 c hc)
    · simp at hc; exact .inr hc
  | upto h =>
    intro c hc
    rcases List.mem_cons.1 hc with hc | hc
    · exact .inr hc
    · exact .inl ((numeral_iff.1 h).2.1 c hc)
  | all => intro c hc; simp at hc; exact .inr hc

theorem rangeText_mat {t : Str} {r : Int × Option Int} (h : RangeText t r) : ∃ c, rangeRe.Mat t [] [] c := by
  cases h with
  | single h =>
    obtain ⟨h1, h2, _⟩ := numeral_iff.1 h
    exact ⟨_, rangeRe_mat.2 ⟨.inl rfl, .inl ⟨t, h1, h2, by simp, rfl⟩⟩⟩
  | @both a m b n h h' =>
    obtain ⟨h1, h2, _⟩ := numeral_iff.1 h
    obtain ⟨h3, h4, _⟩ := numeral_iff.1 h'
    exact ⟨_, rangeRe_mat.2 ⟨.inl rfl, .inr ⟨a, b, h2, h4, by simp, rfl⟩⟩⟩
  | @«from» a m h =>
    obtain ⟨h1, h2, _⟩ := numeral_iff.1 h
    exact ⟨_, rangeRe_mat.2 ⟨.inl rfl, .inr ⟨a, [], h2, by simp, by simp, rfl⟩⟩⟩
  | @upto b n h =>
    obtain ⟨h1, h2, _⟩ := numeral_iff.1 h
    exact ⟨_, rangeRe_mat.2 ⟨.inl rfl, .inr ⟨[], b, by simp, h2, by simp, rfl⟩⟩⟩
  | all => exact ⟨_, rangeRe_mat.2 ⟨.inl rfl, .inr ⟨[], [], by simp, by simp, by simp, rfl⟩⟩⟩

theorem split_at_unique {x : Char} {a b a' b' : Str} (ha : x ∉ a) (ha' : x ∉ a') (h : a ++ x :: b = a' ++ x :: b') : a = a' ∧ b = b' := by
  induction a generalizing a' with
  | nil =>
    cases a' with
    | nil => simpa using h
    | cons y a' => simp at h; simp [h.1] at ha'
  | cons y a ih =>
    cases a' with
    | nil => simp at h; simp [h.1] at ha
    | cons z a' =>
      simp only [List.cons_append, List.cons.injEq] at h
      simp only [List.mem_cons, not_or] at ha ha'
      obtain ⟨h1, h2⟩ := ih ha.2 ha'.2 h.2
      exact ⟨by rw [h.1, h1], h2⟩

theorem numeral_not_mem {w : Str} {n : Nat} (h : Numeral w n) {c : Char} (hc : isDigit c = false) : c ∉ w := by
  intro hm
  have := (numeral_iff.1 h).2.1 c hm
  rw [hc] at this; cases this

theorem numeral_ne {w : Str} {n : Nat} (h : Numeral w n) : w ≠ [] := (numeral_iff.1 h).1

/-- A text denotes at most one range. -/
theorem rangeText_unique {t : Str} {r r' : Int × Option Int} (h : RangeText t r) (h' : RangeText t r') : r = r' := by
  have hnd : isDigit '-' = false := by decide
  generalize ht : t = u at h'
  cases h with
  | single h =>
    have hm := numeral_not_mem h hnd
    cases h' with
    | single h' => subst ht; rw [numeral_unique h h']
    | both _ _ => exact absurd (by rw [ht]; simp) hm
    | «from» _ => exact absurd (by rw [ht]; simp) hm
    | upto _ => exact absurd (by rw [ht]; simp) hm
    | all => exact absurd (by rw [ht]; simp) hm
  | both h1 h2 =>
    have hm := numeral_not_mem h1 hnd
    cases h' with
    | single h' => exact absurd (by rw [← ht]; simp) (numeral_not_mem h' hnd)
    | both g1 g2 =>
      obtain ⟨e1, e2⟩ := split_at_unique hm (numeral_not_mem g1 hnd) ht
      rw [e1] at h1; rw [e2] at h2
      rw [numeral_unique h1 g1, numeral_unique h2 g2]
    | «from» g1 => exact absurd (split_at_unique hm (numeral_not_mem g1 hnd) ht).2 (numeral_ne h2)
    | upto g2 => exact absurd (split_at_unique (a' := []) hm (by simp) ht).1 (numeral_ne h1)
    | all => exact absurd (split_at_unique (a' := []) (b' := []) hm (by simp) ht).1 (numeral_ne h1)
  | «from» h1 =>
    have hm := numeral_not_mem h1 hnd
    cases h' with
    | single h' => exact absurd (by rw [← ht]; simp) (numeral_not_mem h' hnd)
    | both g1 g2 => exact absurd (split_at_unique hm (numeral_not_mem g1 hnd) ht).2.symm (numeral_ne g2)
    | «from» g1 =>
      have e1 := (split_at_unique hm (numeral_not_mem g1 hnd) ht).1
      rw [e1] at h1
      rw [numeral_unique h1 g1]
    | upto g2 => exact absurd (split_at_unique (a' := []) hm (by simp) ht).1 (numeral_ne h1)
    | all => exact absurd (split_at_unique (a' := []) (b' := []) hm (by simp) ht).1 (numeral_ne h1)
  | upto h2 =>
    cases h' with
    | single h' => exact absurd (by rw [← ht]; simp) (numeral_not_mem h' hnd)
    | both g1 g2 => exact absurd (split_at_unique (a := []) (by simp) (numeral_not_mem g1 hnd) ht).1.symm (numeral_ne g1)
    | «from» g1 => exact absurd (split_at_unique (a := []) (by simp) (numeral_not_mem g1 hnd) ht).1.symm (numeral_ne g1)
    | upto g2 =>
      simp only [List.cons.injEq, true_and] at ht; rw [ht] at h2; rw [numeral_unique h2 g2]
    | all => simp only [List.cons.injEq, true_and] at ht; exact absurd ht (numeral_ne h2)
  | all =>
    cases h' with
    | single h' => exact absurd (by rw [← ht]; simp) (numeral_not_mem h' hnd)
    | both g1 g2 => exact absurd (split_at_unique (a := []) (b := []) (by simp) (numeral_not_mem g1 hnd) ht).1.symm (numeral_ne g1)
    | «from» g1 => exact absurd (split_at_unique (a := []) (b := []) (by simp) (numeral_not_mem g1 hnd) ht).1.symm (numeral_ne g1)
    | upto g2 => simp only [List.cons.injEq, true_and] at ht; exact absurd ht.symm (numeral_ne g2)
    | all => rfl

theorem strip_last {s : Str} : ∀ a, strip s ≠ a ++ ['\n'] := by
  intro a h
  unfold strip at h
  have := congrArg List.reverse h
  simp only [List.reverse_reverse, List.reverse_append, List.reverse_cons, List.reverse_nil, List.nil_append, List.singleton_append] at this
  have key : ∀ l r : Str, l.dropWhile isSpace ≠ '\n' :: r := by
    intro l r h
    induction l with
    | nil => cases h
    | cons x l ih =>
      rw [List.dropWhile_cons] at h
      split at h
      · exact ih h
      · rename_i hx; simp only [List.cons.injEq] at h; rw [h.1] at hx; exact hx (by decide)
  exact key _ _ this

/-- One range of a list. -/
theorem parseRange_iff {p : Str} {r : Int × Option Int} : parseRange (strip p) = .ok r ↔ RangeText (strip p) r := by
  constructor
  · intro h
    cases hm : rangeRe.match' (strip p) with
    | none => simp [parseRange, hm] at h
    | some x =>
      obtain ⟨t, r', hs, he, ht, hp⟩ := parseRange_of hm
      rw [h] at hp; cases hp
      rcases he with he | he
      · rw [he, List.append_nil] at hs; rw [hs]; exact ht
      · rw [he] at hs; exact absurd hs (strip_last t)
  · intro h
    obtain ⟨c, hc⟩ := rangeText_mat h
    obtain ⟨c1, s1, hm, _⟩ := match'_of_mat hc
    obtain ⟨t, r', hs, he, ht, hp⟩ := parseRange_of hm
    rcases he with he | he
    · rw [he, List.append_nil] at hs
      rw [← hs] at ht
      rw [hp, rangeText_unique h ht]
    · rw [he] at hs; exact absurd hs (strip_last t)

theorem mapExcept_ok {α β ε : Type} {f : α → Except ε β} {l : List α} {ys : List β} :
    mapExcept f l = .ok ys ↔ All2 (fun x y => f x = .ok y) l ys := by
  induction l generalizing ys with
  | nil =>
    cases ys with
    | nil => simp only [mapExcept, true_iff]; exact .nil
    | cons y ys => simp only [mapExcept, Except.ok.injEq, reduceCtorEq, false_iff]; intro h; cases h
  | cons x l ih =>
    simp only [mapExcept]
    cases hf : f x with
    | error e =>
      simp only [reduceCtorEq, false_iff]
      intro h
      cases h with
      | cons h1 h2 => rw [hf] at h1; cases h1
    | ok y =>
      cases hm : mapExcept f l with
      | error e =>
        simp only [reduceCtorEq, false_iff]
        intro h
        cases h with
        | cons h1 h2 => rw [← ih, hm] at h2; cases h2
      | ok zs =>
        constructor
        · intro h; simp only [Except.ok.injEq] at h; subst h; exact .cons hf (ih.1 hm)
        · intro h
          cases h with
          | cons h1 h2 =>
            rw [hf] at h1; cases h1
            rw [← ih, hm] at h2; cases h2; rfl

/-! ### Slices -/

theorem boundRe_mat {s s' : Str} {c c' : Caps} : boundRe.Mat s c s' c' ↔
    ∃ w, s = w ++ s' ∧ c' = c ∧ ((∀ x ∈ w, isDigit x = true) ∨ ∃ v, w = '-' :: v ∧ v ≠ [] ∧ ∀ x ∈ v, isDigit x = true) := by
  simp only [boundRe, Re.Mat, Re.mat_plus, Re.mat_lit, Re.mat_opt]
  constructor
  · rintro (⟨w, h1, h2, h3⟩ | ⟨s1, c1, h, w, hne, h1, h2, h3⟩)
    · exact ⟨w, h1, h3, .inl h2⟩
    · rcases h with ⟨h4, h5⟩ | ⟨h4, h5⟩
      · exact ⟨'-' :: w, by rw [h4, h1]; rfl, by rw [h3, h5], .inr ⟨w, rfl, hne, h2⟩⟩
      · exact ⟨w, by rw [← h1, h4], by rw [h3, h5], .inl h2⟩
  · rintro ⟨w, rfl, rfl, h | ⟨v, rfl, hne, h⟩⟩
    · exact .inl ⟨w, rfl, h, rfl⟩
    · exact .inr ⟨v ++ s', c', .inl ⟨rfl, rfl⟩, v, hne, rfl, h, rfl⟩

/-- What a bound can look like. -/
def BoundText (w : Str) : Prop := (∀ x ∈ w, isDigit x = true) ∨ ∃ v, w = '-' :: v ∧ v ≠ [] ∧ ∀ x ∈ v, isDigit x = true

theorem boundText_position {w : Str} (h : BoundText w) (hne : w ≠ []) : ∃ n, Position w n ∧ pyInt w = some n := by
  rcases h with h | ⟨v, rfl, hv, h⟩
  · exact ⟨_, .pos (numeral_of hne h), pyInt_digits h hne⟩
  · refine ⟨_, .neg (numeral_of hv h), ?_⟩
    unfold pyInt
    rw [strip_of_not_space (by
      intro c hc
      rcases List.mem_cons.1 hc with rfl | hc
      · decide
      · exact digit_not_space (h c hc))]
    simp [intDigits_digits h false 0 (.inl hv), natOfDigits]

theorem position_boundText {w : Str} {n : Int} (h : Position w n) : BoundText w ∧ w ≠ [] := by
  cases h with
  | pos h => exact ⟨.inl (numeral_iff.1 h).2.1, numeral_ne h⟩
  | neg h => exact ⟨.inr ⟨_, rfl, numeral_ne h, (numeral_iff.1 h).2.1⟩, by simp⟩

theorem boundText_not_mem {w : Str} (h : BoundText w) {c : Char} (hc : isDigit c = false) (hm : c ≠ '-') : c ∉ w := by
  intro hmem
  rcases h with h | ⟨v, rfl, hv, h⟩
  · rw [h c hmem] at hc; cases hc
  · rcases List.mem_cons.1 hmem with e | e
    · exact hm e
    · rw [h c e] at hc; cases hc

theorem sliceRe_mat {s s' : Str} {c : Caps} : sliceRe.Mat s [] s' c ↔ (s' = [] ∨ s' = ['\n']) ∧
    ((∃ a b, BoundText a ∧ BoundText b ∧ s = a ++ (':' :: (b ++ s')) ∧ c = [(2, b), (1, a)]) ∨
     (∃ a b, a ≠ [] ∧ b ≠ [] ∧ (∀ x ∈ a, isDigit x = true) ∧ (∀ x ∈ b, isDigit x = true) ∧ s = a ++ (',' :: (b ++ s')) ∧ c = [(4, b), (3, a)])) := by
  simp only [sliceRe, Re.Mat, Re.mat_plus, Re.mat_lit, boundRe_mat]
  constructor
  · rintro ⟨s1, c1, h, he, rfl, rfl⟩
    refine ⟨he, ?_⟩
    rcases h with ⟨s2, c2, ⟨c3, ⟨w, rfl, rfl, hw⟩, rfl⟩, s3, c4, ⟨rfl, rfl⟩, c5, ⟨w2, rfl, rfl, hw2⟩, rfl⟩ |
      ⟨s2, c2, ⟨c3, ⟨w, hne, rfl, hw, rfl⟩, rfl⟩, s3, c4, ⟨rfl, rfl⟩, c5, ⟨w2, hne2, rfl, hw2, rfl⟩, rfl⟩
    · refine .inl ⟨w, w2, hw, hw2, rfl, ?_⟩
      rw [take_sub_length, take_sub_length]
    · refine .inr ⟨w, w2, hne, hne2, hw, hw2, rfl, ?_⟩
      rw [take_sub_length, take_sub_length]
  · rintro ⟨he, ⟨a, b, ha, hb, rfl, rfl⟩ | ⟨a, b, hae, hbe, ha, hb, rfl, rfl⟩⟩
    · refine ⟨s', _, .inl ⟨':' :: (b ++ s'), _, ⟨_, ⟨a, rfl, rfl, ha⟩, rfl⟩, _, _, ⟨rfl, rfl⟩, _, ⟨b, rfl, rfl, hb⟩, ?_⟩, he, rfl, rfl⟩
      rw [take_sub_length, take_sub_length]
    · refine ⟨s', _, .inr ⟨',' :: (b ++ s'), _, ⟨_, ⟨a, hae, rfl, ha, rfl⟩, rfl⟩, _, _, ⟨rfl, rfl⟩, _, ⟨b, hbe, rfl, hb, rfl⟩, ?_⟩, he, rfl, rfl⟩
      rw [take_sub_length, take_sub_length]

/-- The value computed for a slice. -/
theorem typeSlice_of {s s' : Str} {c : Caps} (h : sliceRe.match' s = some (c, s')) :
    ∃ t r, s = t ++ s' ∧ (s' = [] ∨ s' = ['\n']) ∧ SliceText t r ∧ typeSlice s = .ok r := by
  obtain ⟨he, hm⟩ := sliceRe_mat.1 (match'_some h)
  rcases hm with ⟨a, b, ha, hb, hs, rfl⟩ | ⟨a, b, hae, hbe, ha, hb, hs, rfl⟩
  · by_cases hae : a = []
    · subst hae
      by_cases hbe : b = []
      · subst hbe
        refine ⟨[':'], _, hs, he, .all, ?_⟩
        simp [typeSlice, h, Caps.get]
      · obtain ⟨n, hn, hi⟩ := boundText_position hb hbe
        refine ⟨':' :: b, _, by rw [hs]; simp, he, .upto hn, ?_⟩
        simp [typeSlice, h, Caps.get, hbe, argInt, hi]
    · obtain ⟨m, hm, hj⟩ := boundText_position ha hae
      by_cases hbe : b = []
      · subst hbe
        refine ⟨a ++ [':'], _, by rw [hs]; simp, he, .from hm, ?_⟩
        simp [typeSlice, h, Caps.get, hae, argInt, hj]
      · obtain ⟨n, hn, hi⟩ := boundText_position hb hbe
        refine ⟨a ++ ':' :: b, _, by rw [hs]; simp, he, .both hm hn, ?_⟩
        simp [typeSlice, h, Caps.get, hae, hbe, argInt, hi, hj]
  · refine ⟨a ++ ',' :: b, _, by rw [hs]; simp, he, .page (numeral_of hae ha) (numeral_of hbe hb), ?_⟩
    simp [typeSlice, h, Caps.get, argInt, pyInt_digits ha hae, pyInt_digits hb hbe]

theorem sliceText_mat {t : Str} {r : Int × Option Int} (h : SliceText t r) (e : Str) (he : e = [] ∨ e = ['\n']) : ∃ c, sliceRe.Mat (t ++ e) [] e c := by
  have hn : BoundText [] := .inl (by simp)
  cases h with
  | @both a m b n h h' => exact ⟨_, sliceRe_mat.2 ⟨he, .inl ⟨a, b, (position_boundText h).1, (position_boundText h').1, by simp, rfl⟩⟩⟩
  | @«from» a m h => exact ⟨_, sliceRe_mat.2 ⟨he, .inl ⟨a, [], (position_boundText h).1, hn, by simp, rfl⟩⟩⟩
  | @upto b n h => exact ⟨_, sliceRe_mat.2 ⟨he, .inl ⟨[], b, hn, (position_boundText h).1, by simp, rfl⟩⟩⟩
  | all => exact ⟨_, sliceRe_mat.2 ⟨he, .inl ⟨[], [], hn, hn, by simp, rfl⟩⟩⟩
  | @page a m b n h h' =>
    exact ⟨_, sliceRe_mat.2 ⟨he, .inr ⟨a, b, numeral_ne h, numeral_ne h', (numeral_iff.1 h).2.1, (numeral_iff.1 h').2.1, by simp, rfl⟩⟩⟩

theorem position_unique {w : Str} {m n : Int} (h : Position w m) (h' : Position w n) : m = n := by
  have hnd : isDigit '-' = false := by decide
  generalize hw : w = u at h'
  cases h with
  | pos h =>
    cases h' with
    | pos h' => subst hw; rw [numeral_unique h h']
    | neg h' => exact absurd (by rw [hw]; simp) (numeral_not_mem h hnd)
  | neg h =>
    cases h' with
    | pos h' => exact absurd (by rw [← hw]; simp) (numeral_not_mem h' hnd)
    | neg h' => simp only [List.cons.injEq, true_and] at hw; subst hw; rw [numeral_unique h h']

/-- A slice text is either two bounds or a page. -/
theorem sliceText_view {t : Str} {r : Int × Option Int} (h : SliceText t r) :
    (∃ a b, BoundText a ∧ BoundText b ∧ t = a ++ ':' :: b ∧ ((a = [] ∧ r.1 = 0) ∨ (a ≠ [] ∧ Position a r.1)) ∧
      ((b = [] ∧ r.2 = none) ∨ ∃ n, b ≠ [] ∧ Position b n ∧ r.2 = some n)) ∨
    (∃ a b m n, Numeral a m ∧ Numeral b n ∧ t = a ++ ',' :: b ∧ r = (((m * n : Nat) : Int), some ((m * (n + 1) : Nat) : Int))) := by
  have hn : BoundText [] := .inl (by simp)
  cases h with
  | @both a m b n h h' =>
    exact .inl ⟨a, b, (position_boundText h).1, (position_boundText h').1, rfl, .inr ⟨(position_boundText h).2, h⟩, .inr ⟨n, (position_boundText h').2, h', rfl⟩⟩
  | @«from» a m h => exact .inl ⟨a, [], (position_boundText h).1, hn, rfl, .inr ⟨(position_boundText h).2, h⟩, .inl ⟨rfl, rfl⟩⟩
  | @upto b n h => exact .inl ⟨[], b, hn, (position_boundText h).1, rfl, .inl ⟨rfl, rfl⟩, .inr ⟨n, (position_boundText h).2, h, rfl⟩⟩
  | all => exact .inl ⟨[], [], hn, hn, rfl, .inl ⟨rfl, rfl⟩, .inl ⟨rfl, rfl⟩⟩
  | @page a m b n h h' => exact .inr ⟨a, b, m, n, h, h', rfl, rfl⟩

/-- A text denotes at most one slice. -/
theorem sliceText_unique {t : Str} {r r' : Int × Option Int} (h : SliceText t r) (h' : SliceText t r') : r = r' := by
  have hc : isDigit ':' = false := by decide
  have hk : isDigit ',' = false := by decide
  rcases sliceText_view h with ⟨a, b, ha, hb, rfl, h1, h2⟩ | ⟨a, b, m, n, ha, hb, rfl, rfl⟩
  · rcases sliceText_view h' with ⟨a', b', ha', hb', e, h1', h2'⟩ | ⟨a', b', m', n', ha', hb', e, rfl⟩
    · obtain ⟨rfl, rfl⟩ := split_at_unique (boundText_not_mem ha hc (by decide)) (boundText_not_mem ha' hc (by decide)) e
      obtain ⟨r1, r2⟩ := r
      obtain ⟨q1, q2⟩ := r'
      have e1 : r1 = q1 := by
        rcases h1 with ⟨x, y⟩ | ⟨x, y⟩ <;> rcases h1' with ⟨x', y'⟩ | ⟨x', y'⟩
        · exact y.trans y'.symm
        · exact absurd x x'
        · exact absurd x' x
        · exact position_unique y y'
      have e2 : r2 = q2 := by
        rcases h2 with ⟨x, y⟩ | ⟨k, x, y, z⟩ <;> rcases h2' with ⟨x', y'⟩ | ⟨k', x', y', z'⟩
        · exact y.trans y'.symm
        · exact absurd x x'
        · exact absurd x' x
        · rw [position_unique y y'] at z; exact z.trans z'.symm
      rw [e1, e2]
    · exfalso
      have : ':' ∈ a' ++ ',' :: b' := by rw [← e]; simp
      rcases List.mem_append.1 this with h | h
      · exact numeral_not_mem ha' hc h
      · rcases List.mem_cons.1 h with h | h
        · exact absurd h (by decide)
        · exact numeral_not_mem hb' hc h
  · rcases sliceText_view h' with ⟨a', b', ha', hb', e, h1', h2'⟩ | ⟨a', b', m', n', ha', hb', e, rfl⟩
    · exfalso
      have : ':' ∈ a ++ ',' :: b := by rw [e]; simp
      rcases List.mem_append.1 this with h | h
      · exact numeral_not_mem ha hc h
      · rcases List.mem_cons.1 h with h | h
        · exact absurd h (by decide)
        · exact numeral_not_mem hb hc h
    · obtain ⟨rfl, rfl⟩ := split_at_unique (numeral_not_mem ha hk) (numeral_not_mem ha' hk) e
      rw [numeral_unique ha ha', numeral_unique hb hb']

theorem sliceText_no_newline {t : Str} {r : Int × Option Int} (h : SliceText t r) : '\n' ∉ t := by
  have hd : isDigit '\n' = false := by decide
  rcases sliceText_view h with ⟨a, b, ha, hb, rfl, h1, h2⟩ | ⟨a, b, m, n, ha, hb, rfl, rfl⟩
  · intro h
    rcases List.mem_append.1 h with h | h
    · exact boundText_not_mem ha hd (by decide) h
    · rcases List.mem_cons.1 h with h | h
      · exact absurd h (by decide)
      · exact boundText_not_mem hb hd (by decide) h
  · intro h
    rcases List.mem_append.1 h with h | h
    · exact numeral_not_mem ha hd h
    · rcases List.mem_cons.1 h with h | h
      · exact absurd h (by decide)
      · exact numeral_not_mem hb hd h

end FF
