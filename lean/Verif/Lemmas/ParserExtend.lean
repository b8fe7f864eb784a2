import Verif.Lemmas.ParserGrammar
namespace FF
open Spec
variable {T : Type}

/-- Appending tokens after the point where `parse_sequence` stops at a bracket changes nothing. -/
theorem PS_extend (pt : Str → Except PErr T) : ∀ n ts seqs rest out, ts.length ≤ n → PS pt ts seqs = .ok (rest, out) →
    (rest ≠ [] → ∀ x, PS pt (ts ++ x) seqs = .ok (rest ++ x, out)) ∧
    (rest = [] → lastEmpty out = false → ∀ c x, isClose c = true → PS pt (ts ++ c :: x) seqs = .ok (c :: x, out)) := by
  intro n
  induction n with
  | zero =>
    intro ts seqs rest out hn h
    cases ts with
    | nil =>
      rw [PS_nil] at h
      split at h
      · cases h
      · cases h
        refine ⟨by simp, ?_⟩
        intro _ hl c x hc
        rw [List.nil_append, PS_close hc]; simp [hl]
    | cons t ts => simp at hn
  | succ n ih =>
    intro ts seqs rest out hn h
    have hsub : ∀ mk ts', ts'.length ≤ n → afterSub pt mk seqs (PS pt ts' [[]]) = .ok (rest, out) →
        (rest ≠ [] → ∀ x, afterSub pt mk seqs (PS pt (ts' ++ x) [[]]) = .ok (rest ++ x, out)) ∧
        (rest = [] → lastEmpty out = false → ∀ c x, isClose c = true →
          afterSub pt mk seqs (PS pt (ts' ++ c :: x) [[]]) = .ok (c :: x, out)) := by
      intro mk ts' hl hh
      generalize hr : PS pt ts' [[]] = r at hh
      match r, hh with
      | .error e, hh => cases hh
      | .ok ([], sub), hh => cases hh
      | .ok (c :: ts'', sub), hh =>
        have hlen := PS_length hr
        have h1 := (ih _ _ _ _ hl hr).1 (by simp)
        simp only [afterSub] at hh
        have h2 := ih _ _ _ _ (by simp at hlen; omega) hh
        constructor
        · intro hrest x
          rw [h1 x]; simp only [List.cons_append, afterSub]; exact h2.1 hrest x
        · intro hrest hlast c' x hc
          rw [h1]; simp only [List.cons_append, afterSub]; exact h2.2 hrest hlast c' x hc
    cases ts with
    | nil =>
      rw [PS_nil] at h
      split at h
      · cases h
      · cases h
        refine ⟨by simp, ?_⟩
        intro _ hl c x hc
        rw [List.nil_append, PS_close hc]; simp [hl]
    | cons t ts =>
      simp only [List.length_cons] at hn
      simp only [List.cons_append]
      rcases token_cases t with h1 | h1 | h1 | h1 | h1 | h1
      · rw [PS_open h1] at h
        simp only [PS_open h1]
        exact hsub _ _ (by omega) h
      · rw [PS_close h1] at h
        simp only [PS_close h1]
        split at h
        · cases h
        · cases h
          rename_i hle
          simp [hle]
      · rw [PS_and h1] at h
        simp only [PS_and h1]
        exact ih _ _ _ _ (by omega) h
      · rw [PS_or h1] at h
        simp only [PS_or h1]
        exact ih _ _ _ _ (by omega) h
      · cases ts with
        | nil => rw [PS_not_nil h1] at h; cases h
        | cons t2 ts =>
          simp only [List.length_cons] at hn
          simp only [List.cons_append]
          by_cases h2 : isOpen t2 = true
          · rw [PS_not_open h1 h2] at h
            simp only [PS_not_open h1 h2]
            exact hsub _ _ (by omega) h
          · by_cases h3 : Word t2
            · rw [PS_not_word h1 h3] at h
              simp only [PS_not_word h1 h3]
              cases hp : pt t2 with
              | error e => rw [hp] at h; cases h
              | ok x => rw [hp] at h; simp only at h ⊢; exact ih _ _ _ _ (by omega) h
            · rw [PS_not_bad h1 (by simpa using h2) h3] at h; cases h
      · rw [PS_word h1] at h
        simp only [PS_word h1]
        cases hp : pt t with
        | error e => rw [hp] at h; cases h
        | ok x => rw [hp] at h; simp only at h ⊢; exact ih _ _ _ _ (by omega) h

/-- At the end of the tokens either there is one list or no list is empty. -/
theorem PS_end (pt : Str → Except PErr T) : ∀ n ts seqs out, ts.length ≤ n → PS pt ts seqs = .ok ([], out) →
    out.length ≤ 1 ∨ ∀ l ∈ out, l ≠ [] := by
  intro n
  induction n with
  | zero =>
    intro ts seqs out hn h
    cases ts with
    | nil =>
      rw [PS_nil] at h
      split at h
      · cases h
      · rename_i hcond
        cases h
        by_cases hl : seqs.length ≤ 1
        · exact .inl hl
        · right
          intro l hl' hnil
          apply hcond
          simp only [Bool.and_eq_true, decide_eq_true_eq, List.any_eq_true, List.isEmpty_iff]
          exact ⟨by omega, l, hl', hnil⟩
    | cons t ts => simp at hn
  | succ n ih =>
    intro ts seqs out hn h
    have hsub : ∀ mk ts', ts'.length ≤ n → afterSub pt mk seqs (PS pt ts' [[]]) = .ok ([], out) →
        out.length ≤ 1 ∨ ∀ l ∈ out, l ≠ [] := by
      intro mk ts' hl hh
      generalize hr : PS pt ts' [[]] = r at hh
      match r, hh with
      | .error e, hh => cases hh
      | .ok ([], sub), hh => cases hh
      | .ok (c :: ts'', sub), hh =>
        have hlen := PS_length hr
        exact ih ts'' _ _ (by simp at hlen; omega) hh
    cases ts with
    | nil => exact ih [] seqs out (by simp) h
    | cons t ts =>
      simp only [List.length_cons] at hn
      rcases token_cases t with h1 | h1 | h1 | h1 | h1 | h1
      · rw [PS_open h1] at h; exact hsub _ _ (by omega) h
      · rw [PS_close h1] at h
        split at h
        · cases h
        · cases h
      · rw [PS_and h1] at h; exact ih _ _ _ (by omega) h
      · rw [PS_or h1] at h; exact ih _ _ _ (by omega) h
      · cases ts with
        | nil => rw [PS_not_nil h1] at h; cases h
        | cons t2 ts =>
          simp only [List.length_cons] at hn
          by_cases h2 : isOpen t2 = true
          · rw [PS_not_open h1 h2] at h; exact hsub _ _ (by omega) h
          · by_cases h3 : Word t2
            · rw [PS_not_word h1 h3] at h
              split at h
              · cases h
              · exact ih _ _ _ (by omega) h
            · rw [PS_not_bad h1 (by simpa using h2) h3] at h; cases h
      · rw [PS_word h1] at h
        split at h
        · cases h
        · exact ih _ _ _ (by omega) h

/-- Any token but AND leaves a trace in the sequences. -/
theorem PS_trace (pt : Str → Except PErr T) : ∀ n ts pre cur rest out, ts.length ≤ n →
    PS pt ts (pre ++ [cur]) = .ok (rest, out) →
    ∃ zs more, out = pre ++ (cur ++ zs) :: more ∧
      (rest = [] → zs = [] → more = [] → ∀ t ∈ ts, isAnd t = true) := by
  intro n
  induction n with
  | zero =>
    intro ts pre cur rest out hn h
    cases ts with
    | nil =>
      rw [PS_nil] at h
      split at h
      · cases h
      · cases h
        exact ⟨[], [], by simp, by simp⟩
    | cons t ts => simp at hn
  | succ n ih =>
    intro ts pre cur rest out hn h
    have hitem : ∀ ts' y, ts'.length ≤ n → PS pt ts' (appendLast y (pre ++ [cur])) = .ok (rest, out) →
        ∃ zs more, out = pre ++ (cur ++ zs) :: more ∧ (rest = [] → zs = [] → more = [] → ∀ t ∈ ts, isAnd t = true) := by
      intro ts' y hl hh
      rw [appendLast_append] at hh
      obtain ⟨zs, more, h1, h2⟩ := ih _ _ _ _ _ hl hh
      exact ⟨y :: zs, more, by simp [h1], by simp⟩
    have hsub : ∀ mk ts', ts'.length ≤ n → afterSub pt mk (pre ++ [cur]) (PS pt ts' [[]]) = .ok (rest, out) →
        ∃ zs more, out = pre ++ (cur ++ zs) :: more ∧ (rest = [] → zs = [] → more = [] → ∀ t ∈ ts, isAnd t = true) := by
      intro mk ts' hl hh
      generalize hr : PS pt ts' [[]] = r at hh
      match r, hh with
      | .error e, hh => cases hh
      | .ok ([], sub), hh => cases hh
      | .ok (c :: ts'', sub), hh =>
        have hlen := PS_length hr
        exact hitem ts'' _ (by simp at hlen; omega) hh
    cases ts with
    | nil => exact ih [] pre cur rest out (by simp) h
    | cons t ts =>
      simp only [List.length_cons] at hn
      rcases token_cases t with h1 | h1 | h1 | h1 | h1 | h1
      · rw [PS_open h1] at h; exact hsub _ _ (by omega) h
      · rw [PS_close h1] at h
        split at h
        · cases h
        · cases h; exact ⟨[], [], by simp, by simp⟩
      · rw [PS_and h1] at h
        obtain ⟨zs, more, g1, g2⟩ := ih _ _ _ _ _ (by omega) h
        refine ⟨zs, more, g1, ?_⟩
        intro a b c t' ht'
        rcases List.mem_cons.1 ht' with rfl | ht'
        · exact h1
        · exact g2 a b c t' ht'
      · rw [PS_or h1] at h
        obtain ⟨zs, more, g1, g2⟩ := ih _ _ _ _ _ (by omega) h
        exact ⟨[], zs :: more, by simp [g1], by simp⟩
      · cases ts with
        | nil => rw [PS_not_nil h1] at h; cases h
        | cons t2 ts =>
          simp only [List.length_cons] at hn
          by_cases h2 : isOpen t2 = true
          · rw [PS_not_open h1 h2] at h; exact hsub _ _ (by omega) h
          · by_cases h3 : Word t2
            · rw [PS_not_word h1 h3] at h
              split at h
              · cases h
              · exact hitem _ _ (by omega) h
            · rw [PS_not_bad h1 (by simpa using h2) h3] at h; cases h
      · rw [PS_word h1] at h
        split at h
        · cases h
        · exact hitem _ _ (by omega) h

end FF
