import Verif.Model.PySort
namespace FF
variable {α : Type _}

theorem orderedInsert_perm (le : α → α → Bool) (a : α) (l : List α) : (orderedInsert le a l).Perm (a :: l) := by
  induction l with
  | nil => exact .refl _
  | cons b l ih =>
    simp only [orderedInsert]
    split
    · exact .refl _
    · exact (List.Perm.cons b ih).trans (List.Perm.swap a b l)

theorem pySort_perm (le : α → α → Bool) (l : List α) : (pySort le l).Perm l := by
  induction l with
  | nil => exact .refl _
  | cons a l ih => exact (orderedInsert_perm le a _).trans (List.Perm.cons a ih)

theorem pySortRev_perm (le : α → α → Bool) (l : List α) : (pySortRev le l).Perm l :=
  (List.reverse_perm _).trans ((pySort_perm le _).trans (List.reverse_perm l))

structure TotalPre (le : α → α → Bool) : Prop where
  total : ∀ a b, le a b = true ∨ le b a = true
  trans : ∀ a b c, le a b = true → le b c = true → le a c = true

theorem TotalPre.refl {le : α → α → Bool} (h : TotalPre le) (a : α) : le a a = true := by
  rcases h.total a a with h | h <;> exact h

theorem TotalPre.comap {β : Type _} {le : α → α → Bool} (h : TotalPre le) (f : β → α) :
    TotalPre (fun a b => le (f a) (f b)) :=
  ⟨fun _ _ => h.total _ _, fun _ _ _ => h.trans _ _ _⟩

theorem TotalPre.flip {le : α → α → Bool} (h : TotalPre le) : TotalPre (fun a b => le b a) :=
  ⟨fun _ _ => h.total _ _, fun _ _ _ h1 h2 => h.trans _ _ _ h2 h1⟩

theorem orderedInsert_sorted {le : α → α → Bool} (h : TotalPre le) (a : α) {l : List α}
    (hl : l.Pairwise (fun x y => le x y = true)) : (orderedInsert le a l).Pairwise (fun x y => le x y = true) := by
  induction l with
  | nil => simp [orderedInsert]
  | cons b l ih =>
    rw [List.pairwise_cons] at hl
    simp only [orderedInsert]
    split
    · rename_i hab
      rw [List.pairwise_cons, List.pairwise_cons]
      refine ⟨?_, hl⟩
      intro x hx
      rcases List.mem_cons.1 hx with rfl | hx
      · exact hab
      · exact h.trans _ _ _ hab (hl.1 x hx)
    · rename_i hab
      rw [List.pairwise_cons]
      refine ⟨?_, ih hl.2⟩
      intro x hx
      rcases List.mem_cons.1 ((orderedInsert_perm le a l).mem_iff.1 hx) with rfl | hx
      · rcases h.total x b with h' | h'
        · exact absurd h' hab
        · exact h'
      · exact hl.1 x hx

theorem pySort_sorted {le : α → α → Bool} (h : TotalPre le) (l : List α) :
    (pySort le l).Pairwise (fun x y => le x y = true) := by
  induction l with
  | nil => simp [pySort]
  | cons a l ih => exact orderedInsert_sorted h a ih

theorem pySortRev_sorted {le : α → α → Bool} (h : TotalPre le) (l : List α) :
    (pySortRev le l).Pairwise (fun x y => le y x = true) := by
  rw [pySortRev, List.pairwise_reverse]; exact pySort_sorted h _

/-- Two elements the order does not distinguish. -/
def eqv (le : α → α → Bool) (a b : α) : Bool := le a b && le b a

theorem filter_orderedInsert {le : α → α → Bool} (h : TotalPre le) (c a : α) {l : List α}
    (hl : l.Pairwise (fun x y => le x y = true)) :
    (orderedInsert le a l).filter (eqv le c) = (a :: l).filter (eqv le c) := by
  induction l with
  | nil => rfl
  | cons b l ih =>
    rw [List.pairwise_cons] at hl
    simp only [orderedInsert]
    split
    · rfl
    · rename_i hab
      rw [List.filter_cons, ih hl.2]
      by_cases hb : eqv le c b = true
      · have hca : eqv le c a = false := by
          simp only [eqv, Bool.and_eq_true] at hb
          simp only [eqv, Bool.and_eq_false_iff]
          right
          by_cases h' : le a c = true
          · exact absurd (h.trans _ _ _ h' hb.1) hab
          · simpa using h'
        simp [List.filter_cons, hca, hb]
      · simp [List.filter_cons, hb]

/-- Stability: elements equal under the order keep their relative order. -/
theorem pySort_stable {le : α → α → Bool} (h : TotalPre le) (c : α) (l : List α) :
    (pySort le l).filter (eqv le c) = l.filter (eqv le c) := by
  induction l with
  | nil => rfl
  | cons a l ih =>
    show (orderedInsert le a (pySort le l)).filter _ = _
    rw [filter_orderedInsert h c a (pySort_sorted h l), List.filter_cons, List.filter_cons, ih]

theorem pySortRev_stable {le : α → α → Bool} (h : TotalPre le) (c : α) (l : List α) :
    (pySortRev le l).filter (eqv le c) = l.filter (eqv le c) := by
  rw [pySortRev, List.filter_reverse, pySort_stable h, ← List.filter_reverse, List.reverse_reverse]

/-- A sorted list is determined by its classes of equal elements: any two stable sorts agree. -/
theorem stable_sort_unique {le : α → α → Bool} (h : TotalPre le) : ∀ {l₁ l₂ : List α},
    l₁.Pairwise (fun x y => le x y = true) → l₂.Pairwise (fun x y => le x y = true) →
    (∀ c, l₁.filter (eqv le c) = l₂.filter (eqv le c)) → l₁ = l₂ := by
  intro l₁
  induction l₁ with
  | nil =>
    intro l₂ _ _ hf
    cases l₂ with
    | nil => rfl
    | cons b l =>
      have := hf b
      simp [List.filter_cons, eqv, h.refl] at this
  | cons a l ih =>
    intro l₂ h₁ h₂ hf
    cases l₂ with
    | nil =>
      have := hf a
      simp [List.filter_cons, eqv, h.refl] at this
    | cons b l' =>
      rw [List.pairwise_cons] at h₁ h₂
      have haa : eqv le a a = true := by simp [eqv, h.refl]
      have hbb : eqv le b b = true := by simp [eqv, h.refl]
      have hmem_a : a ∈ b :: l' := by
        have : a ∈ (b :: l').filter (eqv le a) := by rw [← hf a]; simp [haa]
        exact (List.mem_filter.1 this).1
      have hmem_b : b ∈ a :: l := by
        have : b ∈ (a :: l).filter (eqv le b) := by rw [hf b]; simp [hbb]
        exact (List.mem_filter.1 this).1
      have hab : le a b = true := by
        rcases List.mem_cons.1 hmem_b with rfl | hm
        · exact h.refl _
        · exact h₁.1 b hm
      have hba : le b a = true := by
        rcases List.mem_cons.1 hmem_a with rfl | hm
        · exact h.refl _
        · exact h₂.1 a hm
      have hfa := hf a
      have e1 : eqv le a b = true := by simp [eqv, hab, hba]
      rw [List.filter_cons, List.filter_cons, if_pos haa, if_pos e1] at hfa
      simp only [List.cons.injEq] at hfa
      obtain ⟨rfl, _⟩ := hfa
      congr 1
      apply ih h₁.2 h₂.2
      intro c
      have := hf c
      rw [List.filter_cons, List.filter_cons] at this
      split at this
      · simpa using this
      · exact this

theorem pySort_unique {le : α → α → Bool} (h : TotalPre le) {l s : List α}
    (hs : s.Pairwise (fun x y => le x y = true)) (hst : ∀ c, s.filter (eqv le c) = l.filter (eqv le c)) :
    pySort le l = s :=
  stable_sort_unique h (pySort_sorted h l) hs (fun c => by rw [pySort_stable h, hst])

end FF
