import Verif.Model.PyInt
namespace FF

theorem isDigit_iff {c : Char} : isDigit c = true ↔ 48 ≤ c.toNat ∧ c.toNat ≤ 57 := by
  simp only [isDigit, Bool.and_eq_true, decide_eq_true_eq, Char.le_def, UInt32.le_iff_toNat_le]
  exact Iff.rfl

theorem digitChar_isDigit (n : Nat) : isDigit (digitChar n) = true := by
  unfold digitChar; split <;> decide

theorem digitVal_digitChar {n : Nat} (h : n < 10) : digitVal (digitChar n) = n := by
  have : n = 0 ∨ n = 1 ∨ n = 2 ∨ n = 3 ∨ n = 4 ∨ n = 5 ∨ n = 6 ∨ n = 7 ∨ n = 8 ∨ n = 9 := by omega
  rcases this with rfl | rfl | rfl | rfl | rfl | rfl | rfl | rfl | rfl | rfl <;> decide

theorem natOfDigits_append (a : Str) (c : Char) : natOfDigits (a ++ [c]) = natOfDigits a * 10 + digitVal c := by
  simp [natOfDigits]

theorem natStrAux_spec : ∀ f n, n < f → natOfDigits (natStrAux f n) = n ∧ (∀ c ∈ natStrAux f n, isDigit c = true) ∧ natStrAux f n ≠ [] := by
  intro f
  induction f with
  | zero => intro n h; omega
  | succ f ih =>
    intro n h
    unfold natStrAux
    split
    · rename_i h10
      refine ⟨?_, ?_, by simp⟩
      · simp [natOfDigits, digitVal_digitChar h10]
      · intro c hc; simp at hc; subst hc; exact digitChar_isDigit n
    · rename_i h10
      obtain ⟨h1, h2, h3⟩ := ih (n / 10) (by omega)
      refine ⟨?_, ?_, by simp⟩
      · rw [natOfDigits_append, h1, digitVal_digitChar (by omega)]; omega
      · intro c hc
        rcases List.mem_append.1 hc with hc | hc
        · exact h2 c hc
        · simp at hc; subst hc; exact digitChar_isDigit _

theorem natOfDigits_natStr (n : Nat) : natOfDigits (natStr n) = n := (natStrAux_spec (n + 1) n (by omega)).1
theorem natStr_digits (n : Nat) : ∀ c ∈ natStr n, isDigit c = true := (natStrAux_spec (n + 1) n (by omega)).2.1
theorem natStr_ne_nil (n : Nat) : natStr n ≠ [] := (natStrAux_spec (n + 1) n (by omega)).2.2

theorem natStr_injective {a b : Nat} (h : natStr a = natStr b) : a = b := by
  rw [← natOfDigits_natStr a, h, natOfDigits_natStr]

theorem natStr2_spec (n : Nat) : natOfDigits (natStr2 n) = n ∧ (∀ c ∈ natStr2 n, isDigit c = true) ∧ natStr2 n ≠ [] := by
  unfold natStr2
  split
  · refine ⟨?_, ?_, by simp⟩
    · have := natOfDigits_natStr n
      simpa [natOfDigits, digitVal] using this
    · intro c hc
      rcases List.mem_cons.1 hc with rfl | hc
      · decide
      · exact natStr_digits n c hc
  · exact ⟨natOfDigits_natStr n, natStr_digits n, natStr_ne_nil n⟩

theorem digit_not_space {c : Char} (h : isDigit c = true) : isSpace c = false := by
  rw [isDigit_iff] at h
  simp only [isSpace, Bool.or_eq_false_iff, decide_eq_false_iff_not]
  refine ⟨⟨⟨⟨⟨?_, ?_⟩, ?_⟩, ?_⟩, ?_⟩, ?_⟩ <;> (rintro rfl; revert h; decide)

theorem strip_of_not_space {s : Str} (h : ∀ c ∈ s, isSpace c = false) : strip s = s := by
  have d : ∀ l : Str, (∀ c ∈ l, isSpace c = false) → l.dropWhile isSpace = l := by
    intro l hl
    cases l with
    | nil => rfl
    | cons x xs => simp [hl x (by simp)]
  unfold strip
  rw [d s h, d s.reverse (fun c hc => h c (by simpa using hc))]
  simp

theorem intDigits_digits {s : Str} (h : ∀ c ∈ s, isDigit c = true) (prev : Bool) (acc : Nat) (hne : s ≠ [] ∨ prev = true) :
    intDigits prev acc s = some (s.foldl (fun n c => n * 10 + digitVal c) acc) := by
  induction s generalizing prev acc with
  | nil => simp at hne; simp [intDigits, hne]
  | cons c cs ih =>
    rw [intDigits, if_pos (h c (by simp)), ih (fun x hx => h x (by simp [hx])) true _ (.inr rfl)]
    rfl

theorem pyInt_digits {s : Str} (h : ∀ c ∈ s, isDigit c = true) (hne : s ≠ []) : pyInt s = some ((natOfDigits s : Nat) : Int) := by
  unfold pyInt
  rw [strip_of_not_space (fun c hc => digit_not_space (h c hc))]
  cases s with
  | nil => exact absurd rfl hne
  | cons c cs =>
    have hc := h c (by simp)
    split
    · rename_i heq; cases heq; exact absurd hc (by decide)
    · rename_i heq; cases heq; exact absurd hc (by decide)
    · rw [intDigits_digits h false 0 (.inl hne)]; rfl

theorem pyInt_natStr (n : Nat) : pyInt (natStr n) = some (n : Int) := by
  rw [pyInt_digits (natStr_digits n) (natStr_ne_nil n), natOfDigits_natStr]

theorem intDigits_chars {prev : Bool} {acc : Nat} {s : Str} {n : Nat} (h : intDigits prev acc s = some n) :
    ∀ c ∈ s, isDigit c = true ∨ c = '_' := by
  induction s generalizing prev acc with
  | nil => simp
  | cons x xs ih =>
    rw [intDigits] at h
    split at h
    · rename_i hx
      intro c hc
      rcases List.mem_cons.1 hc with rfl | hc
      · exact .inl hx
      · exact ih h c hc
    · split at h
      · rename_i hx
        intro c hc
        rcases List.mem_cons.1 hc with rfl | hc
        · exact .inr hx.1
        · exact ih h c hc
      · cases h

theorem mem_strip {s : Str} {c : Char} (h : c ∈ s) (hs : isSpace c = false) : c ∈ strip s := by
  have d : ∀ l : Str, c ∈ l → c ∈ l.dropWhile isSpace := by
    intro l hl
    induction l with
    | nil => cases hl
    | cons x xs ih =>
      rw [List.dropWhile_cons]
      split
      · rename_i hx
        rcases List.mem_cons.1 hl with rfl | hl
        · rw [hs] at hx; cases hx
        · exact ih hl
      · exact hl
  unfold strip
  rw [List.mem_reverse]
  apply d
  rw [List.mem_reverse]
  exact d s h

/-- Whatever `int` accepts consists of white space, digits, underscores and signs. -/
theorem pyInt_chars {s : Str} {n : Int} (h : pyInt s = some n) :
    ∀ c ∈ s, isSpace c = true ∨ isDigit c = true ∨ c = '_' ∨ c = '+' ∨ c = '-' := by
  intro c hc
  cases hs : isSpace c with
  | true => exact .inl rfl
  | false =>
    right
    have hm := mem_strip hc hs
    unfold pyInt at h
    split at h
    · rename_i r heq
      rw [heq] at hm
      obtain ⟨m, hm1, _⟩ := Option.map_eq_some_iff.1 h
      rcases List.mem_cons.1 hm with rfl | hm
      · simp
      · rcases intDigits_chars hm1 c hm with h1 | h1 <;> simp [h1]
    · rename_i r heq
      rw [heq] at hm
      obtain ⟨m, hm1, _⟩ := Option.map_eq_some_iff.1 h
      rcases List.mem_cons.1 hm with rfl | hm
      · simp
      · rcases intDigits_chars hm1 c hm with h1 | h1 <;> simp [h1]
    · obtain ⟨m, hm1, _⟩ := Option.map_eq_some_iff.1 h
      rcases intDigits_chars hm1 c hm with h1 | h1 <;> simp [h1]

end FF
