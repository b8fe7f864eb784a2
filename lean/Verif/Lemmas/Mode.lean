import Verif.Lemmas.Re
import Verif.Model.Types
import Verif.Spec.Types
namespace FF
open Spec

theorem testBit_modeAll (i : Nat) : modeAll.testBit i = decide (i < 12) := by
  have : modeAll = 2 ^ 12 - 1 := by decide
  rw [this, Nat.testBit_two_pow_sub_one]

theorem testBit_andNot (a b i : Nat) : (andNot a b).testBit i = (a.testBit i && !b.testBit i) := by
  simp only [andNot, Nat.testBit_xor, Nat.testBit_and]
  cases a.testBit i <;> cases b.testBit i <;> rfl

theorem modeRe_symbolic {c : Clause} (h : c.Ok) :
    modeRe.match' c.text = some ([(3, c.perms), (2, [c.op]), (1, c.who)], []) := by
  obtain ⟨hw, ho, hne, hp⟩ := h
  have hw' : ∀ x ∈ c.who, isWho x = true := fun x hx => by simpa [isWho] using hw x hx
  have ho' : isModeOp c.op = true := by simpa [isModeOp] using ho
  have hp' : ∀ x ∈ c.perms, isPerm x = true := fun x hx => by simpa [isPerm] using hp x hx
  have how : isWho c.op = false := by
    simp only [List.mem_cons, List.not_mem_nil, or_false] at ho
    rcases ho with h | h | h <;> rw [h] <;> decide
  have h1 : (Re.seq (.cap 1 (.star true isWho)) (.seq (.cap 2 (.chr isModeOp)) (.cap 3 (.plus true isPerm)))).run c.text []
      (fun s' c => some (c, s')) = some ([(3, c.perms), (2, [c.op]), (1, c.who)], []) := by
    simp only [Re.run, Clause.text]
    apply starG_some hw'
    · intro x xs hx; cases hx; exact how
    · rw [take_sub_length]
      simp only [Re.run, ho', if_true]
      obtain ⟨p, ps, hpp⟩ : ∃ p ps, c.perms = p :: ps := by
        cases hc : c.perms with
        | nil => exact absurd hc hne
        | cons p ps => exact ⟨p, ps, rfl⟩
      rw [hpp] at hp' ⊢
      simp only [Re.plus, Re.run, hp' p (by simp), if_true]
      have := starG_some (p := isPerm) (k := fun s' => some ([(3, List.take ((p :: ps).length - s'.length) (p :: ps)), (2, [c.op]), (1, c.who)], s'))
        (w := ps) (r := []) (v := ([(3, p :: ps), (2, [c.op]), (1, c.who)], [])) (fun x hx => hp' x (by simp [hx])) (by simp) (by simp)
      simpa using this
  show Re.run (.alt _ _) _ _ _ = _
  rw [Re.run, h1]

theorem testBit_foldl_or (f : Char → Nat) (l : Str) (a i : Nat) :
    (l.foldl (fun a ch => a ||| f ch) a).testBit i = (a.testBit i || l.any (fun ch => (f ch).testBit i)) := by
  induction l generalizing a with
  | nil => simp
  | cons x xs ih => rw [List.foldl_cons, ih]; simp [Bool.or_assoc]

theorem lt12 {i : Nat} (h : i < 12) : i = 0 ∨ i = 1 ∨ i = 2 ∨ i = 3 ∨ i = 4 ∨ i = 5 ∨ i = 6 ∨ i = 7 ∨ i = 8 ∨ i = 9 ∨ i = 10 ∨ i = 11 := by omega

theorem whoBits_bit {x : Char} (hx : x ∈ ['u', 'g', 'o', 'a']) {i : Nat} (hi : i < 12) :
    (whoBits x).testBit i = (x = bitClass i || x = 'a') := by
  simp only [List.mem_cons, List.not_mem_nil, or_false] at hx
  rcases hx with rfl | rfl | rfl | rfl <;> rcases lt12 hi with rfl | rfl | rfl | rfl | rfl | rfl | rfl | rfl | rfl | rfl | rfl | rfl <;> decide

theorem whoBits_high {x : Char} (hx : x ∈ ['u', 'g', 'o', 'a']) {i : Nat} (hi : 12 ≤ i) : (whoBits x).testBit i = false := by
  simp only [List.mem_cons, List.not_mem_nil, or_false] at hx
  apply Nat.testBit_lt_two_pow
  refine Nat.lt_of_lt_of_le ?_ (Nat.pow_le_pow_right (by omega) hi)
  rcases hx with rfl | rfl | rfl | rfl <;> decide

theorem permBits_bit {x : Char} (hx : x ∈ ['r', 'w', 'x', 'X', 's', 't']) {i : Nat} (hi : i < 12) :
    (permBits x).testBit i = decide (x = bitLetter i) := by
  simp only [List.mem_cons, List.not_mem_nil, or_false] at hx
  rcases hx with rfl | rfl | rfl | rfl | rfl | rfl <;> rcases lt12 hi with rfl | rfl | rfl | rfl | rfl | rfl | rfl | rfl | rfl | rfl | rfl | rfl <;> decide

/-- Effect of a clause on one bit of `affected` and of `result`, as the code computes it. -/
theorem modeClause_symbolic {c : Clause} (h : c.Ok) (st : Nat × Nat) : ∃ st', modeClause st c.text = some st' ∧
    ∀ i, i < 12 → (st'.1.testBit i = (st.1.testBit i || c.covers i)) ∧
      (st'.2.testBit i = if c.op = '-' then st.2.testBit i && !c.names i else st.2.testBit i || c.names i) := by
  unfold modeClause
  rw [modeRe_symbolic h]
  obtain ⟨hw, ho, hne, hp⟩ := h
  simp only [Caps.get]
  simp
  intro i hi
  have hval : (List.foldl (fun v ch => v ||| permBits ch) 0 c.perms).testBit i = c.names i := by
    rw [testBit_foldl_or]
    simp only [Nat.zero_testBit, Bool.false_or, Clause.names]
    have : ∀ l : Str, (∀ x ∈ l, x ∈ ['r', 'w', 'x', 'X', 's', 't']) → l.any (fun ch => (permBits ch).testBit i) = decide (bitLetter i ∈ l) := by
      intro l hl
      induction l with
      | nil => simp
      | cons y ys ih =>
        rw [List.any_cons, ih (fun x hx => hl x (by simp [hx])), permBits_bit (hl y (by simp)) hi]
        by_cases hy : y = bitLetter i
        · subst hy; simp
        · simp [hy, Ne.symm hy]
    exact this c.perms hp
  have hwho : ∀ l : Str, (∀ x ∈ l, x ∈ ['u', 'g', 'o', 'a']) → l.any (fun ch => (whoBits ch).testBit i) = decide (bitClass i ∈ l ∨ 'a' ∈ l) := by
    intro l hl
    induction l with
    | nil => simp
    | cons y ys ih =>
      rw [List.any_cons, ih (fun x hx => hl x (by simp [hx])), whoBits_bit (hl y (by simp)) hi]
      by_cases hy : y = bitClass i
      · subst hy; simp
      · by_cases hy2 : y = 'a'
        · subst hy2; simp
        · simp [hy, hy2, Ne.symm hy, Ne.symm hy2]
  constructor
  · split
    · rename_i hnil
      rw [testBit_foldl_or, hwho ['a'] (by simp)]
      simp [Clause.covers, hnil]
    · rename_i hnil
      rw [testBit_foldl_or, hwho c.who hw]
      simp [Clause.covers, hnil]
  · simp only [List.mem_cons, List.not_mem_nil, or_false] at ho
    rcases ho with h | h | h
    · simp [h, testBit_andNot, hval]
    · simp [h, hval]
    · simp [h, hval]

theorem modeLoop_symbolic : ∀ (cs : List Clause) (st : Nat × Nat), (∀ c ∈ cs, c.Ok) → ∃ st', modeLoop st (cs.map Clause.text) = some st' ∧
    ∀ i, i < 12 → (st'.1.testBit i = (st.1.testBit i || cs.any (fun c => c.covers i))) ∧
      (st'.2.testBit i = cs.foldl (fun b c => if c.op = '-' then b && !c.names i else b || c.names i) (st.2.testBit i)) := by
  intro cs
  induction cs with
  | nil => intro st _; exact ⟨st, rfl, fun i _ => by simp⟩
  | cons c cs ih =>
    intro st h
    obtain ⟨st1, h1, h2⟩ := modeClause_symbolic (h c (by simp)) st
    obtain ⟨st2, h3, h4⟩ := ih st1 (fun x hx => h x (by simp [hx]))
    refine ⟨st2, by simp only [List.map_cons, modeLoop, h1, h3], ?_⟩
    intro i hi
    obtain ⟨a1, a2⟩ := h2 i hi
    obtain ⟨b1, b2⟩ := h4 i hi
    rw [b1, b2, a1, a2]
    simp [Bool.or_assoc]

/-- `affected` never has other bits than the twelve. -/
theorem modeLoop_high : ∀ (cs : List Clause) (st : Nat × Nat) (st' : Nat × Nat), (∀ c ∈ cs, c.Ok) → (∀ i, 12 ≤ i → st.1.testBit i = false) →
    modeLoop st (cs.map Clause.text) = some st' → ∀ i, 12 ≤ i → st'.1.testBit i = false := by
  intro cs
  induction cs with
  | nil => intro st st' _ hst h; cases h; exact hst
  | cons c cs ih =>
    intro st st' hok hst h
    obtain ⟨st1, h1, h2⟩ := modeClause_symbolic (hok c (by simp)) st
    simp only [List.map_cons, modeLoop, h1] at h
    refine ih st1 st' (fun x hx => hok x (by simp [hx])) ?_ h
    intro i hi
    unfold modeClause at h1
    rw [modeRe_symbolic (hok c (by simp))] at h1
    simp only [Caps.get] at h1
    simp at h1
    rw [← h1]
    simp only
    obtain ⟨hw, _⟩ := hok c (by simp)
    split
    · rw [testBit_foldl_or, hst i hi]; simp [whoBits_high (x := 'a') (by simp) hi]
    · rw [testBit_foldl_or, hst i hi]
      simp only [Bool.false_or]
      rw [List.any_eq_false]
      intro x hx
      simp [whoBits_high (hw x hx) hi]

theorem clause_no_comma {c : Clause} (h : c.Ok) : ',' ∉ c.text := by
  obtain ⟨hw, ho, _, hp⟩ := h
  intro hm
  simp only [Clause.text, List.mem_append, List.mem_cons] at hm
  rcases hm with hm | hm | hm
  · have := hw _ hm; revert this; decide
  · rw [← hm] at ho; revert ho; decide
  · have := hp _ hm; revert this; decide

end FF
