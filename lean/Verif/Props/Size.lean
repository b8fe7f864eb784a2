import Verif.Lemmas.Rounding
import Verif.Lemmas.PyInt
import Verif.Props.Convert
import Verif.Model.Field
/-! C68: human-readable sizes. -/
namespace FF
open Spec

/-- The double of so many tenths. -/
def tenth (m : Nat) : Nat × Nat := roundDouble (m, 10)

theorem tenth_val (m : Nat) : 0 < (tenth m).2 ∧ val (tenth m) ≤ m / 10 * (1 + 1 / 2 ^ 53) ∧ m / 10 * (1 - 1 / 2 ^ 53) ≤ val (tenth m) := by
  have h := roundDouble_val (x := (m, 10)) (by omega)
  have e : val (m, 10) = (m : ℚ) / 10 := by unfold val; norm_num
  rw [e] at h
  exact h

theorem tenth_exact (b : Nat) (h : b < 2 ^ 53) : val (tenth (10 * b)) = b := by
  obtain ⟨h1, h2⟩ := roundDouble_exact (num := 10 * b) (den := 10) (m := b) (s := 0) (t := 0) (by omega) h (by omega)
  unfold val tenth
  have h2' : (0 : ℚ) < (roundDouble (10 * b, 10)).2 := by exact_mod_cast h2
  rw [div_eq_iff h2'.ne']
  have h1' : ((roundDouble (10 * b, 10)).1 : ℚ) * 10 = 10 * b * (roundDouble (10 * b, 10)).2 := by exact_mod_cast h1
  linarith

/-- Comparing the double of some tenths with a small integer is comparing the tenths. -/
theorem tenth_lt_iff {b : Nat} (hb : 1 ≤ b) (hb2 : b ≤ 2 ^ 20) (m : Nat) : val (tenth m) < b ↔ m < 10 * b := by
  obtain ⟨-, h1, h2⟩ := tenth_val m
  have hb' : (b : ℚ) ≤ 1048576 := by exact_mod_cast (show b ≤ 1048576 from hb2)
  constructor
  · intro h
    by_contra hc
    rcases Nat.lt_or_ge (10 * b) m with hlt | hge
    · have hm : (10 * b + 1 : ℚ) ≤ m := by exact_mod_cast hlt
      have : (b + 1 / 10 : ℚ) * (1 - 1 / 2 ^ 53) ≤ m / 10 * (1 - 1 / 2 ^ 53) := mul_le_mul_of_nonneg_right (by linarith) (by norm_num)
      have h3 : (b + 1 / 10 : ℚ) * (1 - 1 / 2 ^ 53) < b := lt_of_le_of_lt (le_trans this h2) h
      have h4 : (b + 1 / 10 : ℚ) * (1 - 1 / 2 ^ 53) = b + 1 / 10 - (b + 1 / 10) / 2 ^ 53 := by ring
      rw [h4] at h3
      norm_num at h3
      linarith
    · have : m = 10 * b := by omega
      subst this
      rw [tenth_exact b (by omega)] at h
      exact lt_irrefl _ h
  · intro h
    have hm : (m : ℚ) ≤ 10 * b - 1 := by
      have : m + 1 ≤ 10 * b := h
      have : ((m + 1 : Nat) : ℚ) ≤ (10 * b : Nat) := by exact_mod_cast this
      push_cast at this
      linarith
    have h3 : (m : ℚ) / 10 * (1 + 1 / 2 ^ 53) ≤ (b - 1 / 10) * (1 + 1 / 2 ^ 53) := mul_le_mul_of_nonneg_right (by linarith) (by norm_num)
    have h4 : ((b : ℚ) - 1 / 10) * (1 + 1 / 2 ^ 53) < b := by
      have h5 : ((b : ℚ) - 1 / 10) * (1 + 1 / 2 ^ 53) = b - 1 / 10 + (b - 1 / 10) / 2 ^ 53 := by ring
      rw [h5]
      norm_num
      linarith
    linarith

theorem tenth_lt {b : Nat} (hb : 1 ≤ b) (hb2 : b ≤ 2 ^ 20) (m : Nat) : (tenth m).1 < b * (tenth m).2 ↔ m < 10 * b := by
  rw [val_lt_iff (tenth_val m).1, tenth_lt_iff hb hb2]

/-- `int()` of the double of some tenths. -/
theorem tenth_int (m : Nat) (h : m ≤ 2 ^ 20) : (tenth m).1 / (tenth m).2 = m / 10 := by
  have hp := (tenth_val m).1
  apply Nat.le_antisymm
  · have : (tenth m).1 < (m / 10 + 1) * (tenth m).2 := (tenth_lt (by omega) (by omega) m).2 (by omega)
    have := (Nat.div_lt_iff_lt_mul hp).2 this
    omega
  · rw [Nat.le_div_iff_mul_le hp]
    rcases Nat.eq_zero_or_pos (m / 10) with h0 | h0
    · rw [h0]; omega
    · have := (tenth_lt (b := m / 10) h0 (by omega) m).not.2 (by omega)
      omega

/-- A fraction times ten. -/
theorem val_ten (x : Nat × Nat) : val (10 * x.1, x.2) = 10 * val x := by
  unfold val; push_cast; ring

/-- One decimal of the double of some tenths. -/
theorem tenth_round (m : Nat) (h : m ≤ 2 ^ 20) : roundHalfEven (10 * (tenth m).1) (tenth m).2 = m := by
  obtain ⟨hp, h1, h2⟩ := tenth_val m
  obtain ⟨r1, r2⟩ := roundHalfEven_val (num := 10 * (tenth m).1) hp
  rw [val_ten] at r1 r2
  generalize roundHalfEven (10 * (tenth m).1) (tenth m).2 = r at *
  have hm : (m : ℚ) ≤ 1048576 := by exact_mod_cast (show m ≤ 1048576 from h)
  have e1 : (m : ℚ) / 10 * (1 + 1 / 2 ^ 53) = m / 10 + m / 10 / 2 ^ 53 := by ring
  have e2 : (m : ℚ) / 10 * (1 - 1 / 2 ^ 53) = m / 10 - m / 10 / 2 ^ 53 := by ring
  rw [e1] at h1
  rw [e2] at h2
  norm_num at h1 h2
  have a1 : (r : ℚ) < m + 1 := by linarith
  have a2 : (m : ℚ) < r + 1 := by linarith
  have b1 : r < m + 1 := by exact_mod_cast a1
  have b2 : m < r + 1 := by exact_mod_cast a2
  omega

/-- One round of the loop on tenths. -/
def stepT (base m : Nat) : Nat :=
  let y := roundDouble ((tenth m).1, (tenth m).2 * base)
  roundHalfEven (10 * y.1) y.2

/-- The first round. -/
def firstT (base n : Nat) : Nat :=
  let y := roundDouble (n, base)
  roundHalfEven (10 * y.1) y.2

theorem val_div (x : Nat × Nat) (base : Nat) : val (x.1, x.2 * base) = val x / base := by
  unfold val; push_cast; rw [div_div]

theorem stepT_near {base : Nat} (hb : 1 ≤ base) (m : Nat) :
    (stepT base m : ℚ) ≤ m / base * (1 + 3 / 2 ^ 53) + 1 / 2 ∧ m / base * (1 - 3 / 2 ^ 53) - 1 / 2 ≤ (stepT base m : ℚ) := by
  obtain ⟨hp, h1, h2⟩ := tenth_val m
  have hb' : (0 : ℚ) < base := by exact_mod_cast hb
  obtain ⟨hq, d1, d2⟩ := roundDouble_val (x := ((tenth m).1, (tenth m).2 * base)) (Nat.mul_pos hp (by omega))
  rw [val_div] at d1 d2
  obtain ⟨r1, r2⟩ := roundHalfEven_val (num := 10 * (roundDouble ((tenth m).1, (tenth m).2 * base)).1) hq
  rw [val_ten] at r1 r2
  unfold stepT
  simp only
  have hm0 : (0 : ℚ) ≤ m / base := by positivity
  have u : val (tenth m) / base ≤ m / base / 10 * (1 + 1 / 2 ^ 53) := by
    rw [div_le_iff₀ hb']
    calc val (tenth m) ≤ m / 10 * (1 + 1 / 2 ^ 53) := h1
      _ = m / base / 10 * (1 + 1 / 2 ^ 53) * base := by field_simp
  have l : m / base / 10 * (1 - 1 / 2 ^ 53) ≤ val (tenth m) / base := by
    rw [le_div_iff₀ hb']
    calc (m : ℚ) / base / 10 * (1 - 1 / 2 ^ 53) * base = m / 10 * (1 - 1 / 2 ^ 53) := by field_simp
      _ ≤ val (tenth m) := h2
  generalize (m : ℚ) / base = q at *
  generalize val (tenth m) / (base : ℚ) = w at *
  norm_num at *
  constructor
  · nlinarith
  · nlinarith

theorem firstT_near {base : Nat} (hb : 1 ≤ base) (n : Nat) :
    (firstT base n : ℚ) ≤ 10 * n / base * (1 + 1 / 2 ^ 53) + 1 / 2 ∧ 10 * n / base * (1 - 1 / 2 ^ 53) - 1 / 2 ≤ (firstT base n : ℚ) := by
  have hb' : (0 : ℚ) < base := by exact_mod_cast hb
  obtain ⟨hq, d1, d2⟩ := roundDouble_val (x := (n, base)) (by omega)
  obtain ⟨r1, r2⟩ := roundHalfEven_val (num := 10 * (roundDouble (n, base)).1) hq
  rw [val_ten] at r1 r2
  have e : val (n, base) = (n : ℚ) / base := rfl
  rw [e] at d1 d2
  unfold firstT
  simp only
  have e2 : 10 * (n : ℚ) / base = 10 * (n / base) := by ring
  rw [e2]
  generalize (n : ℚ) / base = q at *
  norm_num at *
  constructor
  · nlinarith
  · nlinarith

theorem val_one_le {x : Nat × Nat} (hp : 0 < x.2) (h : (1 : ℚ) ≤ val x) : x.2 ≤ x.1 := by
  have hd : (0 : ℚ) < x.2 := by exact_mod_cast hp
  unfold val at h
  rw [le_div_iff₀ hd, one_mul] at h
  exact_mod_cast h

theorem tenth_mono {m m' : Nat} (hm : 10 ≤ m) (h : m ≤ m') : val (tenth m) ≤ val (tenth m') :=
  roundDouble_mono (by simp) (by simp) hm (by
    unfold val
    simp only
    have : (m : ℚ) ≤ m' := by exact_mod_cast h
    apply div_le_div_of_nonneg_right this
    norm_num)

theorem round10_mono {x y : Nat × Nat} (hx : 0 < x.2) (hy : 0 < y.2) (h : val x ≤ val y) :
    roundHalfEven (10 * x.1) x.2 ≤ roundHalfEven (10 * y.1) y.2 :=
  roundHalfEven_mono hx hy (by rw [val_ten, val_ten]; linarith)

theorem firstT_mono {base n n' : Nat} (hb : 1 ≤ base) (hn : base ≤ n) (h : n ≤ n') : firstT base n ≤ firstT base n' := by
  unfold firstT
  simp only
  have hb' : (0 : ℚ) < base := by exact_mod_cast hb
  refine round10_mono (roundDouble_val (x := (n, base)) (by omega)).1 (roundDouble_val (x := (n', base)) (by omega)).1 ?_
  refine roundDouble_mono (by omega) (by omega) hn ?_
  unfold val
  have : (n : ℚ) ≤ n' := by exact_mod_cast h
  exact div_le_div_of_nonneg_right this hb'.le

theorem tenth_ge {base m : Nat} (hb : 1 ≤ base) (hb2 : base ≤ 2 ^ 20) (hm : 10 * base ≤ m) : (base : ℚ) ≤ val (tenth m) := by
  by_contra hc
  have := (tenth_lt_iff hb hb2 m).1 (not_le.1 hc)
  omega

theorem stepT_mono {base m m' : Nat} (hb : 1 ≤ base) (hb2 : base ≤ 2 ^ 20) (hm : 10 * base ≤ m) (h : m ≤ m') : stepT base m ≤ stepT base m' := by
  unfold stepT
  simp only
  have hb' : (0 : ℚ) < base := by exact_mod_cast hb
  have hp := (tenth_val m).1
  have hp' := (tenth_val m').1
  have hq : 0 < ((tenth m).1, (tenth m).2 * base).2 := Nat.mul_pos hp (by omega)
  have hq' : 0 < ((tenth m').1, (tenth m').2 * base).2 := Nat.mul_pos hp' (by omega)
  refine round10_mono (roundDouble_val hq).1 (roundDouble_val hq').1 ?_
  refine roundDouble_mono hq hq' (val_one_le hq ?_) ?_
  · rw [val_div, le_div_iff₀ hb', one_mul]
    exact tenth_ge hb hb2 hm
  · rw [val_div, val_div]
    exact div_le_div_of_nonneg_right (tenth_mono (by omega) h) hb'.le

theorem ten_le_round {x : Nat × Nat} (hp : 0 < x.2) (h : x.2 ≤ x.1) : 10 ≤ roundHalfEven (10 * (roundDouble x).1) (roundDouble x).2 := by
  obtain ⟨l, _, _, l3, _⟩ := roundDouble_scale (num := x.1) (den := x.2) hp h
  have hq := (roundDouble_val hp).1
  apply le_roundHalfEven hq
  have h1 : (1 : ℚ) ≤ val (roundDouble x) := le_trans (one_le_pow₀ (by norm_num)) l3
  have := val_one_le hq h1
  omega

theorem stepT_ge {base m : Nat} (hb : 1 ≤ base) (hb2 : base ≤ 2 ^ 20) (hm : 10 * base ≤ m) : 10 ≤ stepT base m := by
  have hb' : (0 : ℚ) < base := by exact_mod_cast hb
  have hq : 0 < ((tenth m).1, (tenth m).2 * base).2 := Nat.mul_pos (tenth_val m).1 (by omega)
  exact ten_le_round hq (val_one_le hq (by
    rw [val_div, le_div_iff₀ hb', one_mul]
    exact tenth_ge hb hb2 hm))

theorem firstT_ge {base n : Nat} (hb : 1 ≤ base) (hn : base ≤ n) : 10 ≤ firstT base n := ten_le_round (x := (n, base)) (by omega) hn

/-- The loop on tenths: the number of divisions and the tenths that are left. -/
def loopK (base : Nat) : Nat → Nat → Nat → Nat × Nat
  | 0, i, m => (i, m)
  | f + 1, i, m => if m < 10 * base then (i, m) else loopK base f (i + 1) (stepT base m)

/-- The units with the empty one. -/
def allUnits : List Str := [] :: sizeUnits.map (fun c => [c])

theorem sizeLoop_eq {base : Nat} (hb : 1 ≤ base) (hb2 : base ≤ 2 ^ 20) : ∀ (us pre : List Str) (u0 : Str) (m : Nat), allUnits = pre ++ u0 :: us →
    sizeLoop base us u0 (tenth m) =
      (allUnits.getD (min (loopK base us.length (pre.length + 1) m).1 8) [], tenth (loopK base us.length (pre.length + 1) m).2)
  | [], pre, u0, m, h => by
    have hl : pre.length = 8 := by
      have := congrArg List.length h
      simpa [allUnits, sizeUnits] using this.symm
    simp [sizeLoop, loopK, h, hl]
  | u :: us, pre, u0, m, h => by
    have hl : pre.length + 1 ≤ 8 := by
      have := congrArg List.length h
      simp [allUnits, sizeUnits] at this
      omega
    unfold sizeLoop
    simp only [List.length_cons, loopK]
    by_cases hm : m < 10 * base
    · rw [if_pos ((tenth_lt hb hb2 m).2 hm), if_pos hm, h, Nat.min_eq_left hl]
      simp
    · rw [if_neg (fun hc => hm ((tenth_lt hb hb2 m).1 hc)), if_neg hm]
      have ih := sizeLoop_eq hb hb2 us (pre ++ [u0]) u (stepT base m) (by rw [h]; simp)
      rw [List.length_append] at ih
      exact ih

/-- The unit and the tenths of a size. -/
def unitTenths (base n : Nat) : Nat × Nat := loopK base 8 1 (firstT base n)

theorem sizeLoop_units {base n : Nat} (hb : 1 ≤ base) (hb2 : base ≤ 2 ^ 20) (hn : base ≤ n) : sizeLoop base ([] :: sizeUnits.map (fun c => [c])) [] (n, 1) =
    (allUnits.getD (min (unitTenths base n).1 8) [], tenth (unitTenths base n).2) := by
  unfold sizeLoop
  rw [if_neg (by simp; omega)]
  have e : round1 (roundDouble ((n, 1).1, (n, 1).2 * base)) = tenth (firstT base n) := by
    simp only [Nat.one_mul]
    rfl
  rw [e]
  exact sizeLoop_eq hb hb2 (sizeUnits.map (fun c => [c])) [] [] (firstT base n) rfl

theorem loopK_ge (base : Nat) : ∀ (f i m : Nat), i ≤ (loopK base f i m).1
  | 0, i, m => Nat.le_refl _
  | f + 1, i, m => by
    unfold loopK
    split
    · exact Nat.le_refl _
    · exact Nat.le_trans (Nat.le_succ i) (loopK_ge base f (i + 1) _)

theorem loopK_mono {base : Nat} (hb : 1 ≤ base) (hb2 : base ≤ 2 ^ 20) : ∀ (f i m m' : Nat), m ≤ m' →
    (loopK base f i m).1 < (loopK base f i m').1 ∨ (loopK base f i m).1 = (loopK base f i m').1 ∧ (loopK base f i m).2 ≤ (loopK base f i m').2
  | 0, i, m, m', h => .inr ⟨rfl, h⟩
  | f + 1, i, m, m', h => by
    unfold loopK
    by_cases hm : m < 10 * base
    · rw [if_pos hm]
      by_cases hm' : m' < 10 * base
      · rw [if_pos hm']; exact .inr ⟨rfl, h⟩
      · rw [if_neg hm']
        exact .inl (loopK_ge base f (i + 1) _)
    · rw [if_neg hm, if_neg (by omega)]
      exact loopK_mono hb hb2 f (i + 1) _ _ (stepT_mono hb hb2 (by omega) h)

/-- After `i` divisions: the tenths are at least ten, and near those of the exact quotient. -/
def Near (base n i m : Nat) : Prop :=
  10 ≤ m ∧ (m : ℚ) ≤ 10 * n / base ^ i * (1 + 4 * i / 2 ^ 53) + 0.502 ∧ 10 * n / base ^ i * (1 - 4 * i / 2 ^ 53) - 0.502 ≤ (m : ℚ)

theorem near_first {base n : Nat} (hb : 1 ≤ base) (hn : base ≤ n) : Near base n 1 (firstT base n) := by
  obtain ⟨h1, h2⟩ := firstT_near hb n
  refine ⟨firstT_ge hb hn, ?_, ?_⟩
  all_goals
    rw [pow_one]
    have hq : (0 : ℚ) ≤ 10 * n / base := by positivity
    generalize 10 * (n : ℚ) / base = q at *
    norm_num at *
    linarith

theorem near_step {base n i m : Nat} (hb : 1000 ≤ base) (hb2 : base ≤ 2 ^ 20) (hi : i ≤ 8) (hm : 10 * base ≤ m) (h : Near base n i m) :
    Near base n (i + 1) (stepT base m) := by
  obtain ⟨h0, h1, h2⟩ := h
  obtain ⟨s1, s2⟩ := stepT_near (base := base) (by omega) m
  have hb' : (1000 : ℚ) ≤ base := by exact_mod_cast hb
  have hbp : (0 : ℚ) < base := by linarith
  have hi' : (i : ℚ) ≤ 8 := by exact_mod_cast hi
  have hi0 : (0 : ℚ) ≤ i := by positivity
  have eq : 10 * (n : ℚ) / base ^ (i + 1) = 10 * n / base ^ i / base := by rw [pow_succ, div_div]
  have hq : (0 : ℚ) ≤ 10 * n / base ^ i := by positivity
  refine ⟨stepT_ge (by omega) hb2 hm, ?_, ?_⟩
  · rw [eq]
    refine le_trans s1 ?_
    push_cast
    generalize 10 * (n : ℚ) / base ^ i = q at *
    have hm' : (m : ℚ) / base ≤ q / base * (1 + 4 * i / 2 ^ 53) + 0.000502 := by
      rw [div_le_iff₀ hbp]
      have : (q / base * (1 + 4 * i / 2 ^ 53) + 0.000502) * base = q * (1 + 4 * i / 2 ^ 53) + 0.000502 * base := by field_simp
      rw [this]
      linarith
    have hqb : (0 : ℚ) ≤ q / base := by positivity
    generalize q / (base : ℚ) = r at *
    generalize (m : ℚ) / base = t at *
    have hri : (0 : ℚ) ≤ r * i := by positivity
    have hri8 : r * i ≤ r * 8 := mul_le_mul_of_nonneg_left hi' hqb
    norm_num at hm' ⊢
    nlinarith
  · rw [eq]
    refine le_trans ?_ s2
    push_cast
    generalize 10 * (n : ℚ) / base ^ i = q at *
    have hm' : q / base * (1 - 4 * i / 2 ^ 53) - 0.000502 ≤ (m : ℚ) / base := by
      rw [le_div_iff₀ hbp]
      have : (q / base * (1 - 4 * i / 2 ^ 53) - 0.000502) * base = q * (1 - 4 * i / 2 ^ 53) - 0.000502 * base := by field_simp
      rw [this]
      linarith
    have hqb : (0 : ℚ) ≤ q / base := by positivity
    generalize q / (base : ℚ) = r at *
    generalize (m : ℚ) / base = t at *
    have hri : (0 : ℚ) ≤ r * i := by positivity
    have hri8 : r * i ≤ r * 8 := mul_le_mul_of_nonneg_left hi' hqb
    norm_num at hm' ⊢
    nlinarith

theorem loopK_near {base n : Nat} (hb : 1000 ≤ base) (hb2 : base ≤ 2 ^ 20) (hn : n < base ^ 8) : ∀ (f i m : Nat), f + i = 9 → 1 ≤ i → i ≤ 8 → Near base n i m →
    1 ≤ (loopK base f i m).1 ∧ (loopK base f i m).1 ≤ 8 ∧ (loopK base f i m).2 < 10 * base ∧ Near base n (loopK base f i m).1 (loopK base f i m).2
  | 0, i, m, hf, _, hi, _ => by omega
  | f + 1, i, m, hf, h1, hi, h => by
    unfold loopK
    by_cases hm : m < 10 * base
    · rw [if_pos hm]; exact ⟨h1, hi, hm, h⟩
    · rw [if_neg hm]
      have hi8 : i < 8 := by
        by_contra hc
        have : i = 8 := by omega
        subst this
        obtain ⟨_, h2, _⟩ := h
        have hbp : (0 : ℚ) < (base : ℚ) ^ 8 := by
          have : (0 : ℚ) < base := by exact_mod_cast (show 0 < base by omega)
          positivity
        have hq : 10 * (n : ℚ) / base ^ 8 ≤ 10 := by
          rw [div_le_iff₀ hbp]
          have : (n : ℚ) ≤ base ^ 8 := by exact_mod_cast hn.le
          linarith
        have hm' : (10 * base : ℚ) ≤ m := by exact_mod_cast (show 10 * base ≤ m by omega)
        have hb' : (1000 : ℚ) ≤ base := by exact_mod_cast hb
        have hq0 : (0 : ℚ) ≤ 10 * n / base ^ 8 := by positivity
        generalize 10 * (n : ℚ) / base ^ 8 = q at *
        norm_num at h2
        linarith
      exact loopK_near hb hb2 hn f (i + 1) _ (by omega) (by omega) (by omega) (near_step hb hb2 hi (by omega) h)

/-- The text of a unit. -/
def unitText (base k : Nat) : Str := if base = 1000 then allUnits.getD (min k 8) [] ++ ['B'] else allUnits.getD (min k 8) []

theorem unitText_mem {base k : Nat} (hb : base = 1000 ∨ base = 1024) (h1 : 1 ≤ k) (h8 : k ≤ 8) : (unitText base k, base ^ k) ∈ sizeFactors := by
  have : ∀ k ∈ [1, 2, 3, 4, 5, 6, 7, 8], (unitText 1000 k, 1000 ^ k) ∈ sizeFactors ∧ (unitText 1024 k, 1024 ^ k) ∈ sizeFactors := by decide
  have hk : k ∈ [1, 2, 3, 4, 5, 6, 7, 8] := by
    simp only [List.mem_cons, List.not_mem_nil, or_false]; omega
  rcases hb with rfl | rfl
  · exact (this k hk).1
  · exact (this k hk).2

theorem natStr_lt {n : Nat} (h : n < 10) : natStr n = [digitChar n] := by
  unfold natStr natStrAux
  rw [if_pos h]

theorem digitVal_char {n : Nat} (h : n < 10) : digitVal (digitChar n) = n ∧ isDigit (digitChar n) = true := by
  have : ∀ n ∈ List.range 10, digitVal (digitChar n) = n ∧ isDigit (digitChar n) = true := by decide
  exact this n (List.mem_range.2 h)

theorem unitTenths_spec {base n : Nat} (hb : base = 1000 ∨ base = 1024) (hn : base ≤ n) (hn8 : n < base ^ 8) :
    1 ≤ (unitTenths base n).1 ∧ (unitTenths base n).1 ≤ 8 ∧ (unitTenths base n).2 < 10 * base ∧ Near base n (unitTenths base n).1 (unitTenths base n).2 :=
  loopK_near (by omega) (by omega) hn8 8 1 _ rfl (by omega) (by omega) (near_first (by omega) hn)

theorem formatSize_eq {base n : Nat} (hb : base = 1000 ∨ base = 1024) (hn : base ≤ n) (hn8 : n < base ^ 8) : formatSize base n =
    (if (unitTenths base n).2 < 100 then digitChar ((unitTenths base n).2 / 10) :: '.' :: [digitChar ((unitTenths base n).2 % 10)]
      else natStr ((unitTenths base n).2 / 10)) ++ unitText base (unitTenths base n).1 := by
  obtain ⟨h1, h8, hlt, hnear⟩ := unitTenths_spec hb hn hn8
  unfold formatSize
  rw [if_neg (by omega)]
  simp only [sizeLoop_units (base := base) (n := n) (by omega) (by omega) hn]
  generalize unitTenths base n = r at *
  have hm : r.2 ≤ 2 ^ 20 := by omega
  rw [show (if base = 1000 then allUnits.getD (min r.1 8) [] ++ ['B'] else allUnits.getD (min r.1 8) []) = unitText base r.1 from rfl]
  by_cases h100 : r.2 < 100
  · rw [if_pos ((tenth_lt (b := 10) (by omega) (by omega) r.2).2 (by omega)), if_pos h100]
    unfold fixed1
    simp only [tenth_round r.2 hm]
    rw [natStr_lt (by omega : r.2 / 10 < 10), natStr_lt (by omega : r.2 % 10 < 10)]
    rfl
  · rw [if_neg (fun h => h100 ((tenth_lt (b := 10) (by omega) (by omega) r.2).1 h)), if_neg h100, tenth_int r.2 hm]

theorem near_bounds {base n k m : Nat} (hb : base = 1000 ∨ base = 1024) (h8 : k ≤ 8) (hm : m < 10 * base) (h : Near base n k m) :
    1000 * (m * base ^ k) ≤ 1000 * (10 * n) + 503 * base ^ k ∧ 1000 * (10 * n) ≤ 1000 * (m * base ^ k) + 503 * base ^ k := by
  obtain ⟨_, h1, h2⟩ := h
  have hbp : (0 : ℚ) < base ^ k := by
    have : (0 : ℚ) < base := by exact_mod_cast (show 0 < base by omega)
    positivity
  have hk : (k : ℚ) ≤ 8 := by exact_mod_cast h8
  have hm' : (m : ℚ) ≤ 10240 := by exact_mod_cast (show m ≤ 10240 by omega)
  have hq0 : (0 : ℚ) ≤ 10 * n / base ^ k := by positivity
  have hqk : 10 * (n : ℚ) / base ^ k * k ≤ 10 * n / base ^ k * 8 := mul_le_mul_of_nonneg_left hk hq0
  have e : 10 * (n : ℚ) = 10 * n / base ^ k * base ^ k := by field_simp
  have hbounds : (m : ℚ) ≤ 10 * (n : ℚ) / base ^ k + 503 / 1000 ∧ 10 * (n : ℚ) / base ^ k ≤ (m : ℚ) + 503 / 1000 := by
    clear e hbp
    generalize 10 * (n : ℚ) / base ^ k = q at h1 h2 hq0 hqk ⊢
    have e1 : q * (1 + 4 * (k : ℚ) / 2 ^ 53) = q + q * k * (4 / 9007199254740992) := by ring
    have e2 : q * (1 - 4 * (k : ℚ) / 2 ^ 53) = q - q * k * (4 / 9007199254740992) := by ring
    rw [e1] at h1
    rw [e2] at h2
    generalize q * (k : ℚ) = qk at hqk h1 h2
    constructor <;> linarith
  obtain ⟨b1, b2⟩ := hbounds
  constructor
  · have : (1000 : ℚ) * (m * base ^ k) ≤ 1000 * (10 * n) + 503 * base ^ k := by
      rw [e]
      generalize 10 * (n : ℚ) / base ^ k = q at *
      have := mul_le_mul_of_nonneg_right b1 hbp.le
      norm_num at this
      linarith
    exact_mod_cast this
  · have : (1000 : ℚ) * (10 * n) ≤ 1000 * (m * base ^ k) + 503 * base ^ k := by
      rw [e]
      generalize 10 * (n : ℚ) / base ^ k = q at *
      have := mul_le_mul_of_nonneg_right b2 hbp.le
      norm_num at this
      linarith
    exact_mod_cast this

/-- C68: a size with the modifier `h` is shown by a close number with a unit; exactly, without unit, if it is below the base. -/
theorem C68_close (base n : Nat) (hb : base = 1000 ∨ base = 1024) (hn : n < base ^ 8) : HumanSize base n (formatSize base n) := by
  by_cases h : n < base
  · unfold formatSize
    rw [if_pos h]
    exact .bytes h ⟨natStr_ne_nil n, natStr_digits n⟩ (natOfDigits_natStr n)
  · have hle : base ≤ n := by omega
    obtain ⟨h1, h8, hlt, hnear⟩ := unitTenths_spec hb hle hn
    obtain ⟨b1, b2⟩ := near_bounds hb h8 hlt hnear
    have h10 := hnear.1
    rw [formatSize_eq hb hle hn]
    generalize unitTenths base n = r at *
    have hu := unitText_mem hb h1 h8
    split
    · rename_i h100
      obtain ⟨da, ia⟩ := digitVal_char (by omega : r.2 / 10 < 10)
      obtain ⟨db, ib⟩ := digitVal_char (by omega : r.2 % 10 < 10)
      have em : 10 * (r.2 / 10) + r.2 % 10 = r.2 := by omega
      refine HumanSize.tenths (a := digitChar (r.2 / 10)) (b := digitChar (r.2 % 10)) ?_ ia ib h1 hu ?_ ?_
      · rw [da]; omega
      · rw [da, db, em]; omega
      · rw [da, db, em]; omega
    · rename_i h100
      have hd := natOfDigits_natStr (r.2 / 10)
      refine HumanSize.whole ⟨natStr_ne_nil _, natStr_digits _⟩ ?_ ?_ h1 hu ?_ ?_
      · rw [hd]; omega
      · rw [hd]; omega
      · rw [hd]
        have : 10 * (r.2 / 10) * base ^ r.1 ≤ r.2 * base ^ r.1 := Nat.mul_le_mul_right _ (by omega)
        rw [Nat.mul_assoc] at this
        omega
      · rw [hd]
        have : r.2 * base ^ r.1 ≤ (10 * (r.2 / 10) + 9) * base ^ r.1 := Nat.mul_le_mul_right _ (by omega)
        rw [Nat.add_mul, Nat.mul_assoc] at this
        rw [Nat.add_mul, Nat.one_mul]
        have : 0 < base ^ r.1 := Nat.pow_pos (by omega)
        omega

/-- C22: what is printed for a duration with the modifier `h` is a duration again, of as many seconds. -/
theorem C22_output (o : OutEnv) (n : Nat) : parseDuration (Ty.duration.output o (some 'h') (.int n)) = some (n : Int) := by
  have e : Ty.duration.output o (some 'h') (.int n) = formatDurationInt n := rfl
  rw [e, formatDurationInt, if_pos (by omega)]
  exact C22_roundtrip n

/-- C68: this is how attributes that are sizes are printed with the modifier `h`; `--si` selects the base 1000. -/
theorem C68_output (o : OutEnv) (n : Nat) (hn : n < 1000 ^ 8) : HumanSize (if o.si then 1000 else 1024) n (Ty.size.output o (some 'h') (.int n)) := by
  have e : Ty.size.output o (some 'h') (.int n) = formatSize (if o.si then 1000 else 1024) n := by
    have e1 : Ty.size.output o (some 'h') (.int n) = formatSizeInt o.si n := rfl
    rw [e1]
    unfold formatSizeInt
    rw [if_neg (by omega)]
    rfl
  rw [e]
  cases o.si
  · exact C68_close 1024 n (.inr rfl) (by omega)
  · exact C68_close 1000 n (.inl rfl) hn

/-- The size that is shown, in tenths of bytes. -/
def shown (base n : Nat) : Nat :=
  if n < base then 10 * n else if (unitTenths base n).2 < 100 then (unitTenths base n).2 * base ^ (unitTenths base n).1
    else 10 * ((unitTenths base n).2 / 10) * base ^ (unitTenths base n).1

theorem shown_text {base n : Nat} (hb : base = 1000 ∨ base = 1024) (hn : n < base ^ 8) : SizeText (formatSize base n) (shown base n) := by
  unfold shown
  by_cases h : n < base
  · rw [if_pos h]
    unfold formatSize
    rw [if_pos h]
    have := SizeText.bytes (d := natStr n) ⟨natStr_ne_nil n, natStr_digits n⟩
    rwa [natOfDigits_natStr] at this
  · rw [if_neg h]
    have hle : base ≤ n := by omega
    obtain ⟨h1, h8, hlt, hnear⟩ := unitTenths_spec hb hle hn
    rw [formatSize_eq hb hle hn]
    generalize unitTenths base n = r at *
    have hu := unitText_mem hb h1 h8
    split
    · rename_i h100
      obtain ⟨da, ia⟩ := digitVal_char (by omega : r.2 / 10 < 10)
      obtain ⟨db, ib⟩ := digitVal_char (by omega : r.2 % 10 < 10)
      have := SizeText.tenths (d := [digitChar (r.2 / 10)]) (b := digitChar (r.2 % 10)) ⟨by simp, by simpa using ia⟩ ib hu
      have e : 10 * natOfDigits [digitChar (r.2 / 10)] + digitVal (digitChar (r.2 % 10)) = r.2 := by
        have : natOfDigits [digitChar (r.2 / 10)] = r.2 / 10 := by simp [natOfDigits, da]
        rw [this, db]; omega
      rw [e] at this
      exact this
    · have := SizeText.whole (d := natStr (r.2 / 10)) ⟨natStr_ne_nil _, natStr_digits _⟩ hu
      rwa [natOfDigits_natStr] at this

theorem factor_nondigit (p : Str × Nat) (hp : p ∈ sizeFactors) : ∃ c cs, p.1 = c :: cs ∧ isDigit c = false ∧ c ≠ '.' := by
  have : ∀ p ∈ sizeFactors, p.1 ≠ [] ∧ isDigit (p.1.headD ' ') = false ∧ p.1.headD ' ' ≠ '.' := by decide
  obtain ⟨h0, h1, h2⟩ := this p hp
  cases h : p.1 with
  | nil => exact absurd h h0
  | cons c cs => rw [h] at h1 h2; exact ⟨c, cs, rfl, h1, h2⟩

theorem factor_fun : ∀ p ∈ sizeFactors, ∀ q ∈ sizeFactors, p.1 = q.1 → p.2 = q.2 := by decide

theorem digits_split {d d' r r' : Str} (hd : ∀ c ∈ d, isDigit c = true) (hd' : ∀ c ∈ d', isDigit c = true) (hr : ∀ c ∈ r.head?, isDigit c = false)
    (hr' : ∀ c ∈ r'.head?, isDigit c = false) (h : d ++ r = d' ++ r') : d = d' ∧ r = r' := by
  induction d generalizing d' with
  | nil =>
    cases d' with
    | nil => exact ⟨rfl, h⟩
    | cons c d' =>
      simp only [List.nil_append, List.cons_append] at h
      subst h
      have := hr c (by simp)
      rw [hd' c (by simp)] at this
      cases this
  | cons c d ih =>
    cases d' with
    | nil =>
      simp only [List.nil_append, List.cons_append] at h
      subst h
      have := hr' c (by simp)
      rw [hd c (by simp)] at this
      cases this
    | cons c' d' =>
      simp only [List.cons_append, List.cons.injEq] at h
      obtain ⟨rfl, h⟩ := h
      obtain ⟨h1, h2⟩ := ih (fun x hx => hd x (List.mem_cons_of_mem _ hx)) (fun x hx => hd' x (List.mem_cons_of_mem _ hx)) h
      exact ⟨by rw [h1], h2⟩

/-- The parts of a text that is read as a size. -/
theorem sizeText_parts {s : Str} {t : Nat} (h : SizeText s t) : ∃ d r, Digits d ∧ s = d ++ r ∧ (∀ c ∈ r.head?, isDigit c = false) ∧
    ((r = [] ∧ t = 10 * natOfDigits d) ∨ (∃ f, (r, f) ∈ sizeFactors ∧ t = 10 * natOfDigits d * f) ∨
      ∃ b u f, r = '.' :: b :: u ∧ (u, f) ∈ sizeFactors ∧ t = (10 * natOfDigits d + digitVal b) * f) := by
  cases h with
  | bytes hd => exact ⟨_, [], hd, by simp, by simp, .inl ⟨rfl, rfl⟩⟩
  | whole hd hu =>
    refine ⟨_, _, hd, rfl, ?_, .inr (.inl ⟨_, hu, rfl⟩)⟩
    obtain ⟨c, cs, hc, hn, _⟩ := factor_nondigit _ hu
    intro x hx
    simp only at hc
    rw [hc] at hx
    simp at hx
    rw [← hx]; exact hn
  | tenths hd hb hu =>
    refine ⟨_, _, hd, rfl, ?_, .inr (.inr ⟨_, _, _, rfl, hu, rfl⟩)⟩
    intro x hx
    simp at hx
    rw [← hx]; decide

theorem sizeText_fun {s : Str} {t t' : Nat} (h : SizeText s t) (h' : SizeText s t') : t = t' := by
  obtain ⟨d, r, hd, hs, hr, hc⟩ := sizeText_parts h
  obtain ⟨d', r', hd', hs', hr', hc'⟩ := sizeText_parts h'
  obtain ⟨rfl, rfl⟩ := digits_split hd.2 hd'.2 hr hr' (hs.symm.trans hs')
  rcases hc with ⟨rfl, rfl⟩ | ⟨f, hf, rfl⟩ | ⟨b, u, f, rfl, hf, rfl⟩
  · rcases hc' with ⟨_, rfl⟩ | ⟨f, hf, _⟩ | ⟨b, u, f, h, _⟩
    · rfl
    · obtain ⟨c, cs, hc, _⟩ := factor_nondigit _ hf
      cases hc
    · cases h
  · obtain ⟨c, cs, hc, _, hdot⟩ := factor_nondigit _ hf
    rcases hc' with ⟨h, _⟩ | ⟨f', hf', rfl⟩ | ⟨b, u, f, h, _⟩
    · simp only at hc; rw [hc] at h; cases h
    · have := factor_fun _ hf _ hf' rfl
      simp only at this
      rw [this]
    · simp only at hc
      rw [hc] at h
      simp only [List.cons.injEq] at h
      exact absurd h.1 hdot
  · rcases hc' with ⟨h, _⟩ | ⟨f', hf', _⟩ | ⟨b', u', f', h, hf', rfl⟩
    · cases h
    · obtain ⟨c, cs, hc, _, hdot⟩ := factor_nondigit _ hf'
      simp only [List.cons.injEq] at hc
      exact absurd hc.1.symm hdot
    · simp only [List.cons.injEq, true_and] at h
      obtain ⟨rfl, rfl⟩ := h
      have := factor_fun _ hf _ hf' rfl
      simp only at this
      rw [this]

theorem shown_mono {base n n' : Nat} (hb : base = 1000 ∨ base = 1024) (hn : n' < base ^ 8) (h : n ≤ n') : shown base n ≤ shown base n' := by
  have pos : ∀ k, 0 < base ^ k := fun k => Nat.pow_pos (by omega)
  have lower : ∀ n, base ≤ n → n < base ^ 8 → 10 * base ^ (unitTenths base n).1 ≤ shown base n := by
    intro n hle hn
    obtain ⟨h1, h8, hlt, hnear⟩ := unitTenths_spec hb hle hn
    have h10 := hnear.1
    unfold shown
    rw [if_neg (by omega)]
    split
    · exact Nat.mul_le_mul_right _ h10
    · exact Nat.mul_le_mul_right _ (by omega)
  have upper : ∀ n, base ≤ n → n < base ^ 8 → shown base n ≤ 10 * base ^ ((unitTenths base n).1 + 1) := by
    intro n hle hn
    obtain ⟨h1, h8, hlt, hnear⟩ := unitTenths_spec hb hle hn
    unfold shown
    rw [if_neg (by omega), Nat.pow_succ, Nat.mul_comm (base ^ _) base, ← Nat.mul_assoc]
    split
    · exact Nat.mul_le_mul_right _ (by omega)
    · exact Nat.mul_le_mul_right _ (by omega)
  by_cases hlt : n < base
  · by_cases hlt' : n' < base
    · unfold shown; rw [if_pos hlt, if_pos hlt']; omega
    · refine Nat.le_trans ?_ (lower n' (by omega) hn)
      obtain ⟨h1, _⟩ := unitTenths_spec hb (by omega : base ≤ n') hn
      unfold shown
      rw [if_pos hlt]
      have : base ^ 1 ≤ base ^ (unitTenths base n').1 := Nat.pow_le_pow_right (by omega) h1
      rw [Nat.pow_one] at this
      omega
  · have hle : base ≤ n := by omega
    rcases loopK_mono (base := base) (by omega) (by omega) 8 1 _ _ (firstT_mono (base := base) (by omega) hle h) with hk | ⟨hk, hm⟩
    · refine Nat.le_trans (upper n hle (by omega)) (Nat.le_trans ?_ (lower n' (by omega) hn))
      exact Nat.mul_le_mul_left _ (Nat.pow_le_pow_right (by omega) hk)
    · have hk' : (unitTenths base n).1 = (unitTenths base n').1 := hk
      have hm' : (unitTenths base n).2 ≤ (unitTenths base n').2 := hm
      unfold shown
      rw [if_neg hlt, if_neg (by omega : ¬ n' < base), hk']
      generalize unitTenths base n = r at *
      generalize unitTenths base n' = r' at *
      by_cases h1 : r.2 < 100
      · rw [if_pos h1]
        split
        · exact Nat.mul_le_mul_right _ hm'
        · exact Nat.mul_le_mul_right _ (by omega)
      · rw [if_neg h1, if_neg (by omega)]
        exact Nat.mul_le_mul_right _ (by omega)

/-- C68: a larger file is never shown with a smaller size. -/
theorem C68_monotone (base n n' t t' : Nat) (hb : base = 1000 ∨ base = 1024) (hn : n' < base ^ 8) (h : n ≤ n') (ht : SizeText (formatSize base n) t)
    (ht' : SizeText (formatSize base n') t') : t ≤ t' := by
  rw [sizeText_fun ht (shown_text hb (by omega)), sizeText_fun ht' (shown_text hb hn)]
  exact shown_mono hb hn h

theorem decimal_digits {d : Str} (hd : ∀ c ∈ d, isDigit c = true) : decimal d = (natOfDigits d, 1) := by
  unfold decimal
  have h1 : d.takeWhile isDigit = d := by
    induction d with
    | nil => rfl
    | cons c d ih => rw [List.takeWhile_cons, if_pos (hd c (by simp)), ih (fun x hx => hd x (List.mem_cons_of_mem _ hx))]
  have h2 : d.dropWhile isDigit = [] := by
    clear h1
    induction d with
    | nil => rfl
    | cons c d ih => rw [List.dropWhile_cons, if_pos (hd c (by simp)), ih (fun x hx => hd x (List.mem_cons_of_mem _ hx))]
  simp only [h1, h2]

theorem decimal_tenths {a b : Char} (ha : isDigit a = true) : decimal (a :: '.' :: [b]) = (10 * digitVal a + digitVal b, 10) := by
  unfold decimal
  have hdot : isDigit '.' = false := by decide
  simp [ha, hdot, natOfDigits, Nat.mul_comm]

theorem factor_upper : ∀ p ∈ sizeFactors, p.1.map upperChar = p.1 := by decide

/-- A text with a unit is read as a size that is wrong by at most one byte and one part in a million. -/
theorem floatMul_close {w : Str} {f p q : Nat} (h : decimal w = (p, q)) (hq : 0 < q) :
    q * floatMul w f * 1000000 ≤ p * f * 1000001 ∧ p * f * 999999 ≤ q * (floatMul w f + 1) * 1000000 := by
  have hpos : 0 < (decimal w).2 := by rw [h]; exact hq
  obtain ⟨h1, h2⟩ := C24_error_partial w f hpos
  rw [h] at h1 h2
  simp only at h1 h2
  generalize floatMul w f = v at *
  have e1 : v * q = q * v := Nat.mul_comm _ _
  have e2 : (v + 1) * q = q * (v + 1) := Nat.mul_comm _ _
  rw [e1] at h1
  rw [e2] at h2
  generalize q * v = x at *
  generalize q * (v + 1) = y at *
  generalize p * f = z at *
  rw [show 2 ^ 53 - 1 = 9007199254740991 by norm_num] at h2
  have h1' : (x : ℚ) * (2 ^ 53) ^ 3 ≤ z * (2 ^ 53 + 1) ^ 3 := by exact_mod_cast h1
  have h2' : (z : ℚ) * 9007199254740991 ^ 3 < y * (2 ^ 53) ^ 3 := by exact_mod_cast h2
  have hx : (0 : ℚ) ≤ z := by positivity
  clear h1 h2
  norm_num at h1' h2'
  constructor
  · have : (x : ℚ) * 1000000 ≤ z * 1000001 := by linarith
    exact_mod_cast this
  · have : (z : ℚ) * 999999 ≤ y * 1000000 := by linarith
    exact_mod_cast this

/-- C68: the text is accepted by tests on sizes, as a size that differs by less than a tenth. -/
theorem C68_parse (base n : Nat) (hb : base = 1000 ∨ base = 1024) (hn : n < base ^ 8) :
    ∃ v, parseSize (formatSize base n) = some v ∧ 9 * n ≤ 10 * v ∧ 10 * v ≤ 11 * n := by
  have key : ∀ {w u : Str} {k p q : Nat}, NumText w → 1 ≤ k → (u, base ^ k) ∈ sizeFactors → decimal w = (p, q) → (q = 1 ∨ q = 10) →
      100000 * (q * n) ≤ 110000 * (p * base ^ k) → 100000 * (p * base ^ k) ≤ 109000 * (q * n) → 1000 ≤ n →
      ∃ v, parseSize (w ++ u) = some v ∧ 9 * n ≤ 10 * v ∧ 10 * v ≤ 11 * n := by
    intro w u k p q hw hk hu hdec hq h1 h2 h3
    refine ⟨floatMul w (base ^ k), C24_unit w u _ hw (by rw [factor_upper _ hu]; exact hu), ?_⟩
    obtain ⟨c1, c2⟩ := floatMul_close (f := base ^ k) hdec (by omega)
    generalize floatMul w (base ^ k) = v at *
    generalize p * base ^ k = z at *
    rcases hq with rfl | rfl <;> omega
  have hpow : ∀ k, 1 ≤ k → 1000 ≤ base ^ k := by
    intro k hk
    have : base ^ 1 ≤ base ^ k := Nat.pow_le_pow_right (by omega) hk
    rw [Nat.pow_one] at this
    omega
  by_cases hlt : n < base
  · refine ⟨n, ?_, by omega, by omega⟩
    unfold formatSize
    rw [if_pos hlt]
    have := C24_bytes (natStr n) [] ⟨natStr_ne_nil n, natStr_digits n⟩ (.inl rfl)
    rwa [List.append_nil, natOfDigits_natStr] at this
  · have hsize := C68_close base n hb hn
    generalize formatSize base n = s at hsize
    cases hsize with
    | bytes h => exact absurd h hlt
    | @tenths a b u k ha ia ib hk hu h1 h2 =>
      have hw : NumText (a :: '.' :: [b]) := .inr ⟨[a], [b], rfl, ⟨by simp, by simpa using ia⟩, ⟨by simp, by simpa using ib⟩⟩
      refine key (w := a :: '.' :: [b]) hw hk hu (decimal_tenths ia) (.inr rfl) ?_ ?_ (by omega)
      · have : 10 * base ^ k ≤ (10 * digitVal a + digitVal b) * base ^ k := Nat.mul_le_mul_right _ (by omega)
        omega
      · have : 10 * base ^ k ≤ (10 * digitVal a + digitVal b) * base ^ k := Nat.mul_le_mul_right _ (by omega)
        omega
    | @whole d u k hd h10 hlt' hk hu h1 h2 =>
      have : 10 * base ^ k ≤ natOfDigits d * base ^ k := Nat.mul_le_mul_right _ h10
      rw [Nat.add_mul, Nat.one_mul] at h2
      exact key (.inl hd) hk hu (decimal_digits hd.2) (.inl rfl) (by omega) (by omega) (by omega)

/-- C68: beyond the largest unit the number is wrong: the unit is not larger, but the number is divided once more. -/
theorem C68_beyond : formatSize 1024 (1024 ^ 9) = "1.0Y".toList ∧ SizeText "1.0Y".toList (10 * 1024 ^ 8) := by
  refine ⟨by decide, ?_⟩
  exact SizeText.tenths (d := ['1']) (b := '0') (u := ['Y']) (f := 1024 ^ 8) ⟨by decide, by decide⟩ (by decide) (by decide)

example : formatSize 1024 1023 = "1023".toList ∧ formatSize 1024 1536 = "1.5K".toList ∧ formatSize 1000 1234567890 = "1.2GB".toList ∧
    formatSize 1024 (1024 ^ 2 - 1) = "1.0M".toList ∧ formatSize 1024 (20 * 1024 + 1023) = "21K".toList ∧ formatSize 1024 (20 * 1024 + 900) = "20K".toList := by decide
example : (1024 = 1000 ∨ 1024 = 1024) ∧ 1234567890 < 1024 ^ 8 ∧ parseSize (formatSize 1024 1234567890) = some 1181116006 := by decide

end FF
