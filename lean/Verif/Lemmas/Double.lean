import Verif.Model.Convert
/-! Doubles represent exactly the fractions `m * 2^t / 2^s` with `m < 2^53`. -/
namespace FF

theorem roundHalfEven_of_dvd {num den : Nat} (hd : 0 < den) (h : den ∣ num) : roundHalfEven num den = num / den := by
  unfold roundHalfEven
  have : num % den = 0 := Nat.mod_eq_zero_of_dvd h
  simp [this, hd]

theorem pow_lt_of {a b : Nat} (h : 2 ^ a < 2 ^ b) : a < b := (Nat.pow_lt_pow_iff_right (by omega)).1 h

/-- Rounding does nothing to representable fractions. -/
theorem roundDouble_exact {num den m s t : Nat} (hd : 0 < den) (hm : m < 2 ^ 53) (h : num * 2 ^ s = m * 2 ^ t * den) :
    (roundDouble (num, den)).1 * den = num * (roundDouble (num, den)).2 ∧ 0 < (roundDouble (num, den)).2 := by
  by_cases hn : num = 0
  · subst hn; simp [roundDouble]
  have hpos : ∀ k : Nat, 0 < 2 ^ k := fun k => Nat.pos_of_ne_zero (by simp)
  have hcases : (∃ t', num = m * 2 ^ t' * den) ∨ ∃ s', num * 2 ^ s' = m * den := by
    rcases Nat.le_total s t with hst | hst
    · left
      refine ⟨t - s, ?_⟩
      have e : 2 ^ t = 2 ^ (t - s) * 2 ^ s := by rw [← Nat.pow_add]; congr 1; omega
      rw [e] at h
      apply Nat.eq_of_mul_eq_mul_right (hpos s)
      rw [h]; ac_rfl
    · right
      refine ⟨s - t, ?_⟩
      have e : 2 ^ s = 2 ^ (s - t) * 2 ^ t := by rw [← Nat.pow_add]; congr 1; omega
      rw [e] at h
      apply Nat.eq_of_mul_eq_mul_right (hpos t)
      rw [Nat.mul_assoc, h]; ac_rfl
  unfold roundDouble
  simp only [hn, if_false]
  split
  · rename_i hle
    have hq : num / den ≠ 0 := by
      have := Nat.div_pos hle hd; omega
    have hl := Nat.log2_self_le hq
    generalize Nat.log2 (num / den) = l at *
    have hl' : 2 ^ l * den ≤ num := Nat.le_trans (Nat.mul_le_mul_right den hl) (Nat.div_mul_le_self num den)
    split
    · rename_i h52
      have hdvd : den ∣ num * 2 ^ (52 - l) := by
        rcases hcases with ⟨t', ht⟩ | ⟨s', hs⟩
        · rw [ht]; exact ⟨m * 2 ^ t' * 2 ^ (52 - l), by ac_rfl⟩
        · have hlt : 2 ^ (l + s') < 2 ^ 53 := by
            refine Nat.lt_of_le_of_lt ?_ hm
            apply Nat.le_of_mul_le_mul_right _ hd
            rw [← hs, Nat.pow_add]
            calc 2 ^ l * 2 ^ s' * den = 2 ^ l * den * 2 ^ s' := by ac_rfl
              _ ≤ num * 2 ^ s' := Nat.mul_le_mul_right _ hl'
          have := pow_lt_of hlt
          have e : 2 ^ (52 - l) = 2 ^ s' * 2 ^ (52 - l - s') := by rw [← Nat.pow_add]; congr 1; omega
          rw [e, ← Nat.mul_assoc, hs]
          exact ⟨m * 2 ^ (52 - l - s'), by ac_rfl⟩
      rw [roundHalfEven_of_dvd hd hdvd]
      exact ⟨by simp only; rw [Nat.div_mul_cancel hdvd], hpos _⟩
    · rename_i h52
      have hdvd : den * 2 ^ (l - 52) ∣ num := by
        rcases hcases with ⟨t', ht⟩ | ⟨s', hs⟩
        · have hlt : 2 ^ l < 2 ^ (53 + t') := by
            have h1 : 2 ^ l * den ≤ m * 2 ^ t' * den := by rw [← ht]; exact hl'
            have h2 := Nat.le_of_mul_le_mul_right h1 hd
            rw [Nat.pow_add]
            exact Nat.lt_of_le_of_lt h2 (Nat.mul_lt_mul_of_pos_right hm (hpos t'))
          have := pow_lt_of hlt
          have e : 2 ^ t' = 2 ^ (l - 52) * 2 ^ (t' - (l - 52)) := by rw [← Nat.pow_add]; congr 1; omega
          rw [ht, e]
          exact ⟨m * 2 ^ (t' - (l - 52)), by ac_rfl⟩
        · exfalso
          have hlt : 2 ^ (l + s') < 2 ^ 53 := by
            refine Nat.lt_of_le_of_lt ?_ hm
            apply Nat.le_of_mul_le_mul_right _ hd
            rw [← hs, Nat.pow_add]
            calc 2 ^ l * 2 ^ s' * den = 2 ^ l * den * 2 ^ s' := by ac_rfl
              _ ≤ num * 2 ^ s' := Nat.mul_le_mul_right _ hl'
          have := pow_lt_of hlt
          omega
      rw [roundHalfEven_of_dvd (Nat.mul_pos hd (hpos _)) hdvd]
      refine ⟨?_, by simp⟩
      simp only [Nat.mul_one]
      calc num / (den * 2 ^ (l - 52)) * 2 ^ (l - 52) * den = num / (den * 2 ^ (l - 52)) * (den * 2 ^ (l - 52)) := by ac_rfl
        _ = num := Nat.div_mul_cancel hdvd
  · rename_i hlt
    have hnd : num < den := by omega
    have hnp : 0 < num := by omega
    have hc : den ≤ num * 2 ^ (Nat.log2 ((den + num - 1) / num - 1) + 1) := by
      have h1 := Nat.lt_log2_self (n := (den + num - 1) / num - 1)
      have h2 : (den + num - 1) / num ≤ 2 ^ (Nat.log2 ((den + num - 1) / num - 1) + 1) := by omega
      refine Nat.le_trans ?_ (Nat.mul_le_mul_left num h2)
      have h3 := Nat.div_add_mod (den + num - 1) num
      have h4 := Nat.mod_lt (den + num - 1) hnp
      omega
    generalize Nat.log2 ((den + num - 1) / num - 1) + 1 = j at *
    obtain ⟨K, hK⟩ : ∃ K, K = 52 + j := ⟨_, rfl⟩
    rw [← hK]
    have hdvd : den ∣ num * 2 ^ K := by
      rcases hcases with ⟨t', ht⟩ | ⟨s', hs⟩
      · rw [ht]; exact ⟨m * 2 ^ t' * 2 ^ K, by ac_rfl⟩
      · have hlt : 2 ^ s' < 2 ^ (53 + j) := by
          have h1 : 2 ^ s' * den ≤ m * 2 ^ j * den := by
            calc 2 ^ s' * den ≤ 2 ^ s' * (num * 2 ^ j) := Nat.mul_le_mul_left _ hc
              _ = num * 2 ^ s' * 2 ^ j := by ac_rfl
              _ = m * 2 ^ j * den := by rw [hs]; ac_rfl
          have h2 := Nat.le_of_mul_le_mul_right h1 hd
          rw [Nat.pow_add]
          exact Nat.lt_of_le_of_lt h2 (Nat.mul_lt_mul_of_pos_right hm (hpos j))
        have := pow_lt_of hlt
        have hsK : s' ≤ K := by omega
        have e : 2 ^ K = 2 ^ s' * 2 ^ (K - s') := by rw [← Nat.pow_add]; congr 1; omega
        rw [e, ← Nat.mul_assoc, hs]
        exact ⟨m * 2 ^ (K - s'), by ac_rfl⟩
    rw [roundHalfEven_of_dvd hd hdvd]
    exact ⟨by simp only; rw [Nat.div_mul_cancel hdvd], hpos _⟩

/-- Rounding to an integer is off by at most one half. -/
theorem roundHalfEven_near {num den : Nat} (hd : 0 < den) :
    2 * (roundHalfEven num den * den) ≤ 2 * num + den ∧ 2 * num ≤ 2 * (roundHalfEven num den * den) + den := by
  have h1 := Nat.div_add_mod num den
  have h2 := Nat.mod_lt num hd
  have e : (num / den + 1) * den = den * (num / den) + den := by rw [Nat.add_mul, Nat.one_mul, Nat.mul_comm]
  have e' : num / den * den = den * (num / den) := Nat.mul_comm _ _
  unfold roundHalfEven
  simp only
  split
  · rw [e']; omega
  · split
    · rw [e]; omega
    · split
      · rw [e']; omega
      · rw [e]; omega

/-- The relative error of a double is at most 2^-53. -/
theorem roundDouble_near {num den : Nat} (hd : 0 < den) : 0 < (roundDouble (num, den)).2 ∧
    (roundDouble (num, den)).1 * den * 2 ^ 53 ≤ num * (roundDouble (num, den)).2 * (2 ^ 53 + 1) ∧
    num * (roundDouble (num, den)).2 * (2 ^ 53 - 1) ≤ (roundDouble (num, den)).1 * den * 2 ^ 53 := by
  have hpos : ∀ k : Nat, 0 < 2 ^ k := fun k => Nat.pos_of_ne_zero (by simp)
  have core : ∀ A N D : Nat, 2 * A ≤ 2 * N + D → 2 * N ≤ 2 * A + D → D * 2 ^ 52 ≤ N → A * 2 ^ 53 ≤ N * (2 ^ 53 + 1) ∧ N * (2 ^ 53 - 1) ≤ A * 2 ^ 53 := by
    intro A N D h1 h2 h3
    omega
  by_cases hn : num = 0
  · subst hn; simp [roundDouble]
  unfold roundDouble
  simp only [hn, if_false]
  split
  · rename_i hle
    have hq : num / den ≠ 0 := by
      have := Nat.div_pos hle hd; omega
    have hl := Nat.log2_self_le hq
    generalize Nat.log2 (num / den) = l at *
    have hl' : 2 ^ l * den ≤ num := Nat.le_trans (Nat.mul_le_mul_right den hl) (Nat.div_mul_le_self num den)
    split
    · rename_i h52
      obtain ⟨h1, h2⟩ := roundHalfEven_near (num := num * 2 ^ (52 - l)) hd
      refine ⟨hpos _, core _ _ den h1 h2 ?_⟩
      have e : 2 ^ 52 = 2 ^ l * 2 ^ (52 - l) := by rw [← Nat.pow_add]; congr 1; omega
      rw [e]
      calc den * (2 ^ l * 2 ^ (52 - l)) = 2 ^ l * den * 2 ^ (52 - l) := by ac_rfl
        _ ≤ num * 2 ^ (52 - l) := Nat.mul_le_mul_right _ hl'
    · rename_i h52
      obtain ⟨h1, h2⟩ := roundHalfEven_near (num := num) (Nat.mul_pos hd (hpos (l - 52)))
      refine ⟨by simp, ?_⟩
      have ea : roundHalfEven num (den * 2 ^ (l - 52)) * 2 ^ (l - 52) * den = roundHalfEven num (den * 2 ^ (l - 52)) * (den * 2 ^ (l - 52)) := by ac_rfl
      simp only [Nat.mul_one]
      rw [ea]
      refine core _ _ _ h1 h2 ?_
      have e : 2 ^ l = 2 ^ (l - 52) * 2 ^ 52 := by rw [← Nat.pow_add]; congr 1; omega
      calc den * 2 ^ (l - 52) * 2 ^ 52 = 2 ^ l * den := by rw [e]; ac_rfl
        _ ≤ num := hl'
  · rename_i hlt
    have hnd : num < den := by omega
    have hnp : 0 < num := by omega
    have hc : den ≤ num * 2 ^ (Nat.log2 ((den + num - 1) / num - 1) + 1) := by
      have h1 := Nat.lt_log2_self (n := (den + num - 1) / num - 1)
      have h2 : (den + num - 1) / num ≤ 2 ^ (Nat.log2 ((den + num - 1) / num - 1) + 1) := by omega
      refine Nat.le_trans ?_ (Nat.mul_le_mul_left num h2)
      have h3 := Nat.div_add_mod (den + num - 1) num
      have h4 := Nat.mod_lt (den + num - 1) hnp
      omega
    generalize Nat.log2 ((den + num - 1) / num - 1) + 1 = j at *
    obtain ⟨h1, h2⟩ := roundHalfEven_near (num := num * 2 ^ (52 + j)) hd
    refine ⟨hpos _, core _ _ den h1 h2 ?_⟩
    rw [Nat.pow_add]
    calc den * 2 ^ 52 ≤ num * 2 ^ j * 2 ^ 52 := Nat.mul_le_mul_right _ hc
      _ = num * (2 ^ 52 * 2 ^ j) := by ac_rfl

end FF
