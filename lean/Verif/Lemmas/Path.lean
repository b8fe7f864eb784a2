import Verif.Model.Path
namespace FF

theorem rfind_not_mem {s : Str} {c : Char} (h : c ∉ s) : rfind s c = -1 := by
  induction s with
  | nil => rfl
  | cons x xs ih =>
    simp only [List.mem_cons, not_or] at h
    simp [rfind, ih h.2, Ne.symm h.1]

theorem rfind_split (a : Str) {b : Str} {c : Char} (h : c ∉ b) :
    rfind (a ++ c :: b) c = a.length := by
  induction a with
  | nil => simp [rfind, rfind_not_mem h]
  | cons x xs ih =>
    simp only [List.cons_append, rfind, ih, List.length_cons]
    rw [if_pos (by omega)]; omega

/-- Every string splits at the last occurrence of a character. -/
theorem exists_last_split (s : Str) (c : Char) :
    c ∉ s ∨ ∃ a b, s = a ++ c :: b ∧ c ∉ b := by
  induction s with
  | nil => left; simp
  | cons x xs ih =>
    rcases ih with h | ⟨a, b, rfl, hb⟩
    · by_cases hx : x = c
      · right; exact ⟨[], xs, by simp [hx], h⟩
      · left; simp [h, Ne.symm hx]
    · right; exact ⟨x :: a, b, by simp, hb⟩

theorem rfind_neg_iff {s : Str} {c : Char} : rfind s c < 0 ↔ c ∉ s := by
  rcases exists_last_split s c with h | ⟨a, b, rfl, hb⟩
  · simp [rfind_not_mem h, h]
  · rw [rfind_split a hb]; simp

theorem rfind_ge (s : Str) (c : Char) : -1 ≤ rfind s c := by
  rcases exists_last_split s c with h | ⟨a, b, rfl, hb⟩
  · simp [rfind_not_mem h]
  · rw [rfind_split a hb]; omega

theorem splitextLoop_iff (path : Str) (idx n : Nat) (h : idx + n ≤ path.length) :
    splitextLoop path idx n = true ↔ ∃ x ∈ (path.drop idx).take n, x ≠ '.' := by
  induction n generalizing idx with
  | zero => simp [splitextLoop]
  | succ n ih =>
    have hlt : idx < path.length := by omega
    rw [splitextLoop, List.drop_eq_getElem_cons hlt]
    simp only [List.take_succ_cons, List.take_zero, ne_eq, List.cons.injEq, and_true]
    by_cases hx : path[idx] = '.'
    · simp only [hx, not_true_eq_false, if_false]
      rw [ih (idx + 1) (by omega)]; simp
    · simp [hx]

end FF
