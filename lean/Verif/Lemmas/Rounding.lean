import Verif.Lemmas.Double
import Mathlib.Tactic.Linarith
import Mathlib.Tactic.Ring
import Mathlib.Tactic.FieldSimp
import Mathlib.Tactic.Positivity
import Mathlib.Tactic.NormNum
import Mathlib.Algebra.Order.Field.Basic
import Mathlib.Algebra.Order.Ring.Rat
/-! Doubles as rational numbers. -/
namespace FF

/-- The number denoted by a fraction. -/
def val (x : Nat × Nat) : ℚ := (x.1 : ℚ) / (x.2 : ℚ)

theorem val_nonneg (x : Nat × Nat) : 0 ≤ val x := by unfold val; positivity

theorem val_lt_iff {x : Nat × Nat} (h : 0 < x.2) (b : Nat) : x.1 < b * x.2 ↔ val x < b := by
  unfold val
  have h' : (0 : ℚ) < x.2 := by exact_mod_cast h
  rw [div_lt_iff₀ h']
  exact_mod_cast Iff.rfl

/-- The relative error of a double is at most 2^-53. -/
theorem roundDouble_val {x : Nat × Nat} (h : 0 < x.2) : 0 < (roundDouble x).2 ∧
    val (roundDouble x) ≤ val x * (1 + 1 / 2 ^ 53) ∧ val x * (1 - 1 / 2 ^ 53) ≤ val (roundDouble x) := by
  obtain ⟨num, den⟩ := x
  obtain ⟨hp, h1, h2⟩ := roundDouble_near (num := num) (den := den) h
  refine ⟨hp, ?_, ?_⟩
  · unfold val
    have hd : (0 : ℚ) < den := by exact_mod_cast h
    have hr : (0 : ℚ) < (roundDouble (num, den)).2 := by exact_mod_cast hp
    generalize roundDouble (num, den) = r at *
    have h1' : (r.1 : ℚ) * den * 2 ^ 53 ≤ num * r.2 * (2 ^ 53 + 1) := by exact_mod_cast h1
    rw [div_le_iff₀ hr, div_mul_eq_mul_div, div_mul_eq_mul_div, le_div_iff₀ hd]
    nlinarith
  · unfold val
    have hd : (0 : ℚ) < den := by exact_mod_cast h
    have hr : (0 : ℚ) < (roundDouble (num, den)).2 := by exact_mod_cast hp
    generalize roundDouble (num, den) = r at *
    have h2'' : num * r.2 * 9007199254740991 ≤ r.1 * den * 9007199254740992 := h2
    have h2' : (num : ℚ) * r.2 * 9007199254740991 ≤ r.1 * den * 9007199254740992 := by exact_mod_cast h2''
    rw [le_div_iff₀ hr, div_mul_eq_mul_div, div_mul_eq_mul_div, div_le_iff₀ hd]
    norm_num
    linarith

/-- Rounding to an integer is off by at most one half. -/
theorem roundHalfEven_val {num den : Nat} (h : 0 < den) :
    (roundHalfEven num den : ℚ) ≤ val (num, den) + 1 / 2 ∧ val (num, den) ≤ (roundHalfEven num den : ℚ) + 1 / 2 := by
  obtain ⟨h1, h2⟩ := roundHalfEven_near (num := num) h
  unfold val
  have hd : (0 : ℚ) < den := by exact_mod_cast h
  generalize roundHalfEven num den = r at *
  have h1' : (2 : ℚ) * (r * den) ≤ 2 * num + den := by exact_mod_cast h1
  have h2' : (2 : ℚ) * num ≤ 2 * (r * den) + den := by exact_mod_cast h2
  constructor
  · have : (r : ℚ) - 1 / 2 ≤ num / den := by rw [le_div_iff₀ hd]; nlinarith
    linarith
  · rw [div_le_iff₀ hd]; nlinarith

/-- Rounding to an integer is monotone. -/
theorem roundHalfEven_mono {a b c d : Nat} (hb : 0 < b) (hd : 0 < d) (h : val (a, b) ≤ val (c, d)) : roundHalfEven a b ≤ roundHalfEven c d := by
  have hb' : (0 : ℚ) < b := by exact_mod_cast hb
  have hd' : (0 : ℚ) < d := by exact_mod_cast hd
  have hle : a * d ≤ c * b := by
    unfold val at h
    rw [div_le_div_iff₀ hb' hd'] at h
    exact_mod_cast h
  have hq : a / b ≤ c / d := by
    rw [Nat.le_div_iff_mul_le hd]
    apply Nat.le_of_mul_le_mul_right _ hb
    calc a / b * d * b = a / b * b * d := by ac_rfl
      _ ≤ a * d := Nat.mul_le_mul_right _ (Nat.div_mul_le_self a b)
      _ ≤ c * b := hle
  have ea := Nat.div_add_mod a b
  have ec := Nat.div_add_mod c d
  have e1 : ∀ x y : Nat, roundHalfEven x y ≤ x / y + 1 ∧ x / y ≤ roundHalfEven x y := by
    intro x y
    unfold roundHalfEven
    simp only
    split
    · omega
    · split
      · omega
      · split <;> omega
  by_cases hlt : a / b < c / d
  · have := (e1 a b).1
    have := (e1 c d).2
    omega
  have heq : a / b = c / d := by omega
  -- compare the remainders
  have hr : a % b * d ≤ c % d * b := by
    have h1 : a * d = b * (a / b) * d + a % b * d := by rw [← Nat.add_mul, ea]
    have h2 : c * b = d * (c / d) * b + c % d * b := by rw [← Nat.add_mul, ec]
    have h3 : b * (a / b) * d = d * (c / d) * b := by rw [heq]; ac_rfl
    omega
  unfold roundHalfEven
  simp only [heq]
  split
  · split <;> [omega; (split <;> [omega; (split <;> omega)])]
  · rename_i hn1
    split
    · rename_i h1
      -- `2 (a % b) > b`, so `2 (c % d) > d`
      have : d < 2 * (c % d) := by
        by_contra hc
        have hc' : 2 * (c % d) ≤ d := by omega
        have : 2 * (a % b * d) ≤ d * b := by nlinarith
        have : b * d < 2 * (a % b) * d := Nat.mul_lt_mul_of_pos_right h1 hd
        nlinarith
      rw [if_neg (by omega), if_pos this]
    · rename_i h1
      have hb2 : 2 * (a % b) = b := by omega
      have : d ≤ 2 * (c % d) := by
        by_contra hc
        have hc' : 2 * (c % d) < d := by omega
        have h4 : 2 * (c % d) * b < d * b := Nat.mul_lt_mul_of_pos_right hc' hb
        have h5 : 2 * (a % b * d) ≤ 2 * (c % d * b) := by omega
        have h6 : 2 * (a % b * d) = b * d := by rw [← Nat.mul_assoc, hb2]
        nlinarith
      rw [if_neg (show ¬ 2 * (c % d) < d by omega)]
      split <;> split <;> omega

theorem roundHalfEven_le {num den k : Nat} (hd : 0 < den) (h : num ≤ k * den) : roundHalfEven num den ≤ k := by
  have := roundHalfEven_mono hd (show 0 < 1 by omega) (a := num) (c := k) (by
    unfold val
    have hb' : (0 : ℚ) < den := by exact_mod_cast hd
    rw [div_le_iff₀ hb']
    simp
    exact_mod_cast h)
  rw [roundHalfEven_of_dvd (num := k) (den := 1) (by omega) ⟨k, by omega⟩] at this
  simpa using this

theorem le_roundHalfEven {num den k : Nat} (hd : 0 < den) (h : k * den ≤ num) : k ≤ roundHalfEven num den := by
  have := roundHalfEven_mono (show 0 < 1 by omega) hd (a := k) (c := num) (by
    unfold val
    have hb' : (0 : ℚ) < den := by exact_mod_cast hd
    rw [le_div_iff₀ hb']
    simp
    exact_mod_cast h)
  rw [roundHalfEven_of_dvd (num := k) (den := 1) (by omega) ⟨k, by omega⟩] at this
  simpa using this

/-- The nearest double of a number from one on, at a given scale. -/
theorem roundDouble_scale {num den : Nat} (hd : 0 < den) (h : den ≤ num) : ∃ l, (2 : ℚ) ^ l ≤ val (num, den) ∧ val (num, den) < 2 ^ (l + 1) ∧
    (2 : ℚ) ^ l ≤ val (roundDouble (num, den)) ∧ val (roundDouble (num, den)) ≤ 2 ^ (l + 1) ∧
    (l ≤ 52 → val (roundDouble (num, den)) = roundHalfEven (num * 2 ^ (52 - l)) den / 2 ^ (52 - l)) ∧
    (52 < l → val (roundDouble (num, den)) = roundHalfEven num (den * 2 ^ (l - 52)) * 2 ^ (l - 52)) := by
  have hpos : ∀ k : Nat, 0 < 2 ^ k := fun k => Nat.pos_of_ne_zero (by simp)
  have hd' : (0 : ℚ) < den := by exact_mod_cast hd
  have hn : num ≠ 0 := by omega
  have hq : num / den ≠ 0 := by
    have := Nat.div_pos h hd; omega
  have hl := Nat.log2_self_le hq
  have hl2 := Nat.lt_log2_self (n := num / den)
  have hrd : roundDouble (num, den) = if Nat.log2 (num / den) ≤ 52 then (roundHalfEven (num * 2 ^ (52 - Nat.log2 (num / den))) den, 2 ^ (52 - Nat.log2 (num / den)))
      else (roundHalfEven num (den * 2 ^ (Nat.log2 (num / den) - 52)) * 2 ^ (Nat.log2 (num / den) - 52), 1) := by
    unfold roundDouble
    simp only [hn, if_false, h, if_true]
  generalize Nat.log2 (num / den) = l at *
  have hl' : 2 ^ l * den ≤ num := Nat.le_trans (Nat.mul_le_mul_right den hl) (Nat.div_mul_le_self num den)
  have hl2' : num < 2 ^ (l + 1) * den := by
    rw [Nat.div_lt_iff_lt_mul hd] at hl2
    exact hl2
  refine ⟨l, ?_, ?_, ?_⟩
  · unfold val
    rw [le_div_iff₀ hd']
    exact_mod_cast hl'
  · unfold val
    rw [div_lt_iff₀ hd']
    exact_mod_cast hl2'
  · by_cases h52 : l ≤ 52
    · rw [if_pos h52] at hrd
      have e : 2 ^ 52 = 2 ^ l * 2 ^ (52 - l) := by rw [← Nat.pow_add]; congr 1; omega
      have lo : 2 ^ 52 ≤ roundHalfEven (num * 2 ^ (52 - l)) den := le_roundHalfEven hd (by
        rw [e]
        calc 2 ^ l * 2 ^ (52 - l) * den = 2 ^ l * den * 2 ^ (52 - l) := by ac_rfl
          _ ≤ num * 2 ^ (52 - l) := Nat.mul_le_mul_right _ hl')
      have hi : roundHalfEven (num * 2 ^ (52 - l)) den ≤ 2 * 2 ^ 52 := roundHalfEven_le hd (by
        rw [e]
        calc num * 2 ^ (52 - l) ≤ 2 ^ (l + 1) * den * 2 ^ (52 - l) := Nat.mul_le_mul_right _ (by omega)
          _ = 2 * (2 ^ l * 2 ^ (52 - l)) * den := by rw [Nat.pow_succ]; ring)
      have hv : val (roundDouble (num, den)) = roundHalfEven (num * 2 ^ (52 - l)) den / 2 ^ (52 - l) := by
        rw [hrd]; unfold val; simp
      have hp2 : (0 : ℚ) < 2 ^ (52 - l) := by positivity
      have eq : (2 : ℚ) ^ 52 = 2 ^ l * 2 ^ (52 - l) := by exact_mod_cast e
      have lo' : (2 : ℚ) ^ 52 ≤ roundHalfEven (num * 2 ^ (52 - l)) den := by exact_mod_cast lo
      have hi' : (roundHalfEven (num * 2 ^ (52 - l)) den : ℚ) ≤ 2 * 2 ^ 52 := by exact_mod_cast hi
      refine ⟨?_, ?_, fun _ => hv, fun hh => by omega⟩
      · rw [hv, le_div_iff₀ hp2, ← eq]; exact lo'
      · rw [hv, div_le_iff₀ hp2, pow_succ, mul_comm (2 ^ l : ℚ) 2, mul_assoc, ← eq]; exact hi'
    · rw [if_neg h52] at hrd
      have e : 2 ^ l = 2 ^ 52 * 2 ^ (l - 52) := by rw [← Nat.pow_add]; congr 1; omega
      have hdp : 0 < den * 2 ^ (l - 52) := Nat.mul_pos hd (hpos _)
      have lo : 2 ^ 52 ≤ roundHalfEven num (den * 2 ^ (l - 52)) := le_roundHalfEven hdp (by
        calc 2 ^ 52 * (den * 2 ^ (l - 52)) = 2 ^ 52 * 2 ^ (l - 52) * den := by ac_rfl
          _ = 2 ^ l * den := by rw [← e]
          _ ≤ num := hl')
      have hi : roundHalfEven num (den * 2 ^ (l - 52)) ≤ 2 * 2 ^ 52 := roundHalfEven_le hdp (by
        calc num ≤ 2 ^ (l + 1) * den := by omega
          _ = 2 * (2 ^ 52 * 2 ^ (l - 52)) * den := by rw [Nat.pow_succ, e]; ring
          _ = 2 * 2 ^ 52 * (den * 2 ^ (l - 52)) := by ring)
      have hv : val (roundDouble (num, den)) = roundHalfEven num (den * 2 ^ (l - 52)) * 2 ^ (l - 52) := by
        rw [hrd]; unfold val; simp
      have hp2 : (0 : ℚ) < 2 ^ (l - 52) := by positivity
      have eq : (2 : ℚ) ^ l = 2 ^ 52 * 2 ^ (l - 52) := by exact_mod_cast e
      have lo' : (2 : ℚ) ^ 52 ≤ roundHalfEven num (den * 2 ^ (l - 52)) := by exact_mod_cast lo
      have hi' : (roundHalfEven num (den * 2 ^ (l - 52)) : ℚ) ≤ 2 * 2 ^ 52 := by exact_mod_cast hi
      refine ⟨?_, ?_, fun hh => by omega, fun _ => hv⟩
      · rw [hv, eq]; exact mul_le_mul_of_nonneg_right lo' hp2.le
      · rw [hv, pow_succ, eq]
        calc (roundHalfEven num (den * 2 ^ (l - 52)) : ℚ) * 2 ^ (l - 52) ≤ 2 * 2 ^ 52 * 2 ^ (l - 52) := mul_le_mul_of_nonneg_right hi' hp2.le
          _ = 2 ^ 52 * 2 ^ (l - 52) * 2 := by ring

/-- Rounding to doubles is monotone from one on. -/
theorem roundDouble_mono {x y : Nat × Nat} (hx : 0 < x.2) (hy : 0 < y.2) (h1 : x.2 ≤ x.1) (h : val x ≤ val y) :
    val (roundDouble x) ≤ val (roundDouble y) := by
  obtain ⟨a, b⟩ := x
  obtain ⟨c, d⟩ := y
  have hb' : (0 : ℚ) < b := by exact_mod_cast hx
  have hd' : (0 : ℚ) < d := by exact_mod_cast hy
  have h1y : d ≤ c := by
    have h2 : (1 : ℚ) ≤ val (a, b) := by
      unfold val
      rw [le_div_iff₀ hb', one_mul]
      exact_mod_cast h1
    have h3 : (1 : ℚ) ≤ val (c, d) := le_trans h2 h
    unfold val at h3
    rw [le_div_iff₀ hd', one_mul] at h3
    exact_mod_cast h3
  obtain ⟨l, l1, l2, l3, l4, l5, l6⟩ := roundDouble_scale hx h1
  obtain ⟨k, k1, k2, k3, k4, k5, k6⟩ := roundDouble_scale hy h1y
  have hlk : l ≤ k := by
    by_contra hc
    have : (2 : ℚ) ^ (k + 1) ≤ 2 ^ l := pow_le_pow_right₀ (by norm_num) (by omega)
    linarith
  rcases Nat.lt_or_ge l k with hlt | hge
  · have : (2 : ℚ) ^ (l + 1) ≤ 2 ^ k := pow_le_pow_right₀ (by norm_num) (by omega)
    linarith
  · have hkl : k = l := by omega
    subst hkl
    rcases Nat.lt_or_ge 52 k with h52 | h52
    · rw [l6 h52, k6 h52]
      have hp2 : (0 : ℚ) < 2 ^ (k - 52) := by positivity
      have hpn : 0 < 2 ^ (k - 52) := Nat.pos_of_ne_zero (by simp)
      refine mul_le_mul_of_nonneg_right ?_ hp2.le
      have := roundHalfEven_mono (a := a) (c := c) (Nat.mul_pos hx hpn) (Nat.mul_pos hy hpn) (by
        unfold val at h ⊢
        push_cast
        rw [← div_div, ← div_div]
        exact div_le_div_of_nonneg_right h hp2.le)
      exact_mod_cast this
    · rw [l5 h52, k5 h52]
      have hp2 : (0 : ℚ) < 2 ^ (52 - k) := by positivity
      refine div_le_div_of_nonneg_right ?_ hp2.le
      have := roundHalfEven_mono (a := a * 2 ^ (52 - k)) (c := c * 2 ^ (52 - k)) hx hy (by
        unfold val at h ⊢
        push_cast
        rw [mul_div_right_comm, mul_div_right_comm]
        exact mul_le_mul_of_nonneg_right h hp2.le)
      exact_mod_cast this

end FF
