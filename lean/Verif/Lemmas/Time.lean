import Verif.Model.Time
import Verif.Spec.Time
import Verif.Lemmas.Re
import Verif.Lemmas.PyInt
import Mathlib.Tactic.SplitIfs
/-! Lemmas about the calendar, local time and patterns. -/
namespace FF
open Spec

theorem leap_iff (y : Nat) : isLeap y = true ↔ Leap y := by
  unfold isLeap Leap
  simp only [Bool.and_eq_true, Bool.or_eq_true, decide_eq_true_eq]

theorem monthLens_sum (y : Nat) : (monthLens y).sum = if Leap y then 366 else 365 := by
  unfold monthLens
  by_cases h : Leap y <;> simp [h]

/-- The days of all years before. -/
theorem years_sum (n : Nat) : (((List.range n).map (fun i => (monthLens (i + 1)).sum)).sum : Nat) + n / 100 = n * 365 + n / 4 + n / 400 := by
  induction n with
  | zero => rfl
  | succ n ih =>
    rw [List.range_succ, List.map_append, List.sum_append]
    simp only [List.map_cons, List.map_nil, List.sum_cons, List.sum_nil, Nat.add_zero]
    rw [monthLens_sum]
    generalize (List.map (fun i => (monthLens (i + 1)).sum) (List.range n)).sum = a at *
    by_cases h : Leap (n + 1)
    · rw [if_pos h]; unfold Leap at h; omega
    · rw [if_neg h]; unfold Leap at h; omega

theorem daysBeforeMonth_eq {y m : Nat} (h1 : 1 ≤ m) (h2 : m ≤ 12) : daysBeforeMonth y m = ((monthLens y).take (m - 1)).sum := by
  have hl : isLeap y = true ↔ Leap y := leap_iff y
  unfold daysBeforeMonth monthLens
  have hm : m = 1 ∨ m = 2 ∨ m = 3 ∨ m = 4 ∨ m = 5 ∨ m = 6 ∨ m = 7 ∨ m = 8 ∨ m = 9 ∨ m = 10 ∨ m = 11 ∨ m = 12 := by omega
  by_cases h : Leap y
  · rw [hl.2 h]
    rcases hm with rfl | rfl | rfl | rfl | rfl | rfl | rfl | rfl | rfl | rfl | rfl | rfl <;> simp [h]
  · have : isLeap y = false := by simpa using mt hl.1 h
    rw [this]
    rcases hm with rfl | rfl | rfl | rfl | rfl | rfl | rfl | rfl | rfl | rfl | rfl | rfl <;> simp [h]

theorem ordinal_eq {y m : Nat} (d : Nat) (hy : 1 ≤ y) (h1 : 1 ≤ m) (h2 : m ≤ 12) : ordinal y m d = dayNumber y m d := by
  unfold ordinal dayNumber
  rw [daysBeforeMonth_eq h1 h2]
  have := years_sum (y - 1)
  generalize (List.map (fun i => (monthLens (i + 1)).sum) (List.range (y - 1))).sum = a at *
  generalize ((monthLens y).take (m - 1)).sum = b
  omega

theorem daysInMonth_eq {y m : Nat} (h1 : 1 ≤ m) (h2 : m ≤ 12) : daysInMonth y m = (monthLens y).getD (m - 1) 0 := by
  have hl : isLeap y = true ↔ Leap y := leap_iff y
  unfold daysInMonth monthLens
  have hm : m = 1 ∨ m = 2 ∨ m = 3 ∨ m = 4 ∨ m = 5 ∨ m = 6 ∨ m = 7 ∨ m = 8 ∨ m = 9 ∨ m = 10 ∨ m = 11 ∨ m = 12 := by omega
  by_cases h : Leap y
  · rw [hl.2 h]
    rcases hm with rfl | rfl | rfl | rfl | rfl | rfl | rfl | rfl | rfl | rfl | rfl | rfl <;> simp [h]
  · have : isLeap y = false := by simpa using mt hl.1 h
    rw [this]
    rcases hm with rfl | rfl | rfl | rfl | rfl | rfl | rfl | rfl | rfl | rfl | rfl | rfl <;> simp [h]

theorem valid_iff (t : DateTime) : t.valid = true ↔ RealDate t.year t.month t.day ∧ RealTime t.hour t.minute t.second := by
  unfold DateTime.valid RealDate RealTime
  simp only [Bool.and_eq_true, decide_eq_true_eq]
  constructor
  · rintro ⟨⟨⟨⟨⟨⟨⟨⟨h1, h2⟩, h3⟩, h4⟩, h5⟩, h6⟩, h7⟩, h8⟩, h9⟩
    rw [daysInMonth_eq h3 h4] at h6
    exact ⟨⟨h1, h2, h3, h4, h5, h6⟩, h7, h8, h9⟩
  · rintro ⟨⟨h1, h2, h3, h4, h5, h6⟩, h7, h8, h9⟩
    rw [← daysInMonth_eq h3 h4] at h6
    exact ⟨⟨⟨⟨⟨⟨⟨⟨h1, h2⟩, h3⟩, h4⟩, h5⟩, h6⟩, h7⟩, h8⟩, h9⟩

theorem epoch_number : dayNumber 1970 1 1 = 719163 := by
  have := ordinal_eq (y := 1970) (m := 1) 1 (by omega) (by omega) (by omega)
  have h : ordinal 1970 1 1 = 719163 := by decide
  omega

theorem seconds_eq (t : DateTime) (h : t.valid = true) : t.seconds = clock t.year t.month t.day t.hour t.minute t.second := by
  obtain ⟨⟨h1, _, h3, h4, _⟩, _⟩ := (valid_iff t).1 h
  unfold DateTime.seconds clock
  rw [ordinal_eq _ h1 h3 h4, epoch_number]
  rfl

set_option maxHeartbeats 2000000 in
theorem monthDay_spec (y n : Nat) (hn : n < if isLeap y then 366 else 365) :
    1 ≤ (monthDay y n).1 ∧ (monthDay y n).1 ≤ 12 ∧ 1 ≤ (monthDay y n).2 ∧ (monthDay y n).2 ≤ daysInMonth y (monthDay y n).1 ∧
    daysBeforeMonth y (monthDay y n).1 + (monthDay y n).2 = n + 1 := by
  unfold monthDay
  simp only
  generalize hm : (if n < daysBeforeMonth y 2 then 1 else _) = m
  cases h : isLeap y
  all_goals
    simp only [h, Bool.false_eq_true, if_false, if_true] at hn
    simp [daysBeforeMonth, h] at hm
    split_ifs at hm <;> subst hm <;> simp [daysBeforeMonth, daysInMonth, h] <;> omega

theorem fromOrdinal_spec (n : Nat) (hn : 1 ≤ n) : 1 ≤ (fromOrdinal n).1 ∧ 1 ≤ (fromOrdinal n).2.1 ∧ (fromOrdinal n).2.1 ≤ 12 ∧ 1 ≤ (fromOrdinal n).2.2 ∧
    (fromOrdinal n).2.2 ≤ daysInMonth (fromOrdinal n).1 (fromOrdinal n).2.1 ∧ ordinal (fromOrdinal n).1 (fromOrdinal n).2.1 (fromOrdinal n).2.2 = n := by
  unfold fromOrdinal
  simp only
  generalize ha : (n - 1) / 146097 = a
  generalize hb : (n - 1) % 146097 / 36524 = b
  generalize hc : (n - 1) % 146097 % 36524 / 1461 = c
  generalize hd : (n - 1) % 146097 % 36524 % 1461 / 365 = d
  generalize hr : (n - 1) % 146097 % 36524 % 1461 % 365 = r
  have e : n = 146097 * a + 36524 * b + 1461 * c + 365 * d + r + 1 := by omega
  have hb4 : b ≤ 4 := by omega
  have hc24 : c ≤ 24 := by omega
  have hd4 : d ≤ 4 := by omega
  have hr365 : r < 365 := by omega
  split
  · rename_i h
    have hy : isLeap (a * 400 + 1 + b * 100 + c * 4 + d - 1) = true := by
      rw [leap_iff]; unfold Leap
      rcases h with rfl | rfl <;> omega
    refine ⟨by simp only; omega, by simp, by simp, by simp, by simp [daysInMonth], ?_⟩
    have hdisj : (d = 4 ∧ r = 0 ∧ c ≤ 23 ∧ b ≤ 3) ∨ (b = 4 ∧ c = 0 ∧ d = 0 ∧ r = 0) := by omega
    unfold ordinal daysBeforeMonth
    simp only [hy]
    simp
    clear ha hb hc hd hr h hy
    rcases hdisj with ⟨rfl, rfl, h1, h2⟩ | ⟨rfl, rfl, rfl, rfl⟩
    · have q1 : (((a * 400 + 1 + b * 100 + c * 4 + 4 - 1 : Nat) : Int) - 1) / 4 = 100 * a + 25 * b + c := by omega
      have q2 : (((a * 400 + 1 + b * 100 + c * 4 + 4 - 1 : Nat) : Int) - 1) / 100 = 4 * a + b := by omega
      have q3 : (((a * 400 + 1 + b * 100 + c * 4 + 4 - 1 : Nat) : Int) - 1) / 400 = a := by omega
      rw [q1, q2, q3]
      omega
    · omega
  · rename_i h
    have hleap : isLeap (a * 400 + 1 + b * 100 + c * 4 + d) = true ↔ (d = 3 ∧ (c ≠ 24 ∨ b = 3)) := by
      rw [leap_iff]; unfold Leap
      omega
    have hlt : r < if isLeap (a * 400 + 1 + b * 100 + c * 4 + d) then 366 else 365 := by split <;> omega
    obtain ⟨h1, h2, h3, h4, h5⟩ := monthDay_spec _ r hlt
    refine ⟨by omega, h1, h2, h3, h4, ?_⟩
    simp only
    unfold ordinal
    clear ha hb hc hd hr hlt hleap
    have q1 : (((a * 400 + 1 + b * 100 + c * 4 + d : Nat) : Int) - 1) / 4 = 100 * a + 25 * b + c := by omega
    have q2 : (((a * 400 + 1 + b * 100 + c * 4 + d : Nat) : Int) - 1) / 100 = 4 * a + b := by omega
    have q3 : (((a * 400 + 1 + b * 100 + c * 4 + d : Nat) : Int) - 1) / 400 = a := by omega
    rw [q1, q2, q3]
    omega

theorem mktime_first {z : Zone} {t : Int} (h : OneChange z t) (he : ∃ u, u + z u = t) : FirstShown z t (mktime z t) := by
  obtain ⟨hb, c, x, y, hxy, hyx, hz⟩ := h
  obtain ⟨u, hu⟩ := he
  have key : ∀ u, u + z u = t → z u = if u < c then x else y := by
    intro u hu
    have := hb u
    exact hz u (by omega) (by omega)
  have hz' : ∀ u, t - 172800 ≤ u → u ≤ t + 86400 → (u < c ∧ z u = x) ∨ (c ≤ u ∧ z u = y) := by
    intro u h1 h2
    have := hz u h1 h2
    by_cases h : u < c
    · rw [if_pos h] at this; exact .inl ⟨h, this⟩
    · rw [if_neg h] at this; exact .inr ⟨by omega, this⟩
  have key' : ∀ u, u + z u = t → (u < c ∧ z u = x) ∨ (c ≤ u ∧ z u = y) := by
    intro u hu
    have := hb u
    exact hz' u (by omega) (by omega)
  have zt := hz' t (by omega) (by omega)
  have b0 := hb t
  have z1 := hz' (t - z t) (by omega) (by omega)
  have b1 := hb (t - z t - 86400)
  have b2 := hb (t - z t)
  have z2 := hz' (t - z t - 86400) (by omega) (by omega)
  have z3 := hz' (t - z (t - z t - 86400)) (by omega) (by omega)
  have z4 := hz' (t - z (t - z t)) (by omega) (by omega)
  have zu := key' u hu
  clear hz hz' hb
  unfold mktime
  simp only
  have e4 : t - (t - z t + z (t - z t) - (t - z t)) = t - z (t - z t) := by omega
  rw [e4]
  generalize z t = a at *
  generalize z (t - a) = a1 at *
  generalize z (t - a - 86400) = b at *
  generalize hc3 : z (t - b) = c3 at *
  generalize hc4 : z (t - a1) = c4 at *
  unfold FirstShown
  split
  · rename_i h1
    have : a1 = a := by omega
    subst this
    split
    · exact ⟨by omega, fun u' hu' => by have := key' u' hu'; omega⟩
    · split
      · exact ⟨by omega, fun u' hu' => by have := key' u' hu'; omega⟩
      · exact ⟨by omega, fun u' hu' => by have := key' u' hu'; omega⟩
  · split
    · exact ⟨by omega, fun u' hu' => by have := key' u' hu'; omega⟩
    · exfalso; omega

/-- Times that clocks skip. -/
theorem mktime_gap {z : Zone} {t : Int} (h : OneChange z t) (he : ¬∃ u, u + z u = t) : mktime z t + z (t - 172800) = t := by
  obtain ⟨hb, c, x, y, hxy, hyx, hz⟩ := h
  have hz' : ∀ u, t - 172800 ≤ u → u ≤ t + 86400 → (u < c ∧ z u = x) ∨ (c ≤ u ∧ z u = y) := by
    intro u h1 h2
    have := hz u h1 h2
    by_cases h : u < c
    · rw [if_pos h] at this; exact .inl ⟨h, this⟩
    · rw [if_neg h] at this; exact .inr ⟨by omega, this⟩
  have zt := hz' t (by omega) (by omega)
  have b0 := hb t
  have z0 := hz' (t - 172800) (by omega) (by omega)
  have bb := hb (t - 172800)
  have z1 := hz' (t - z t) (by omega) (by omega)
  have b2 := hb (t - z t)
  have z4 := hz' (t - z (t - z t)) (by omega) (by omega)
  have z5 := hz' (t - z (t - 172800)) (by omega) (by omega)
  have ne : ∀ u, u + z u ≠ t := fun u hu => he ⟨u, hu⟩
  have n1 := ne (t - z t)
  have n2 := ne (t - z (t - z t))
  have n3 := ne (t - z (t - 172800))
  clear hz hz' hb he
  unfold mktime
  simp only
  have e4 : t - (t - z t + z (t - z t) - (t - z t)) = t - z (t - z t) := by omega
  rw [e4, if_neg n1, if_neg n2]
  generalize z t = a at *
  generalize z (t - a) = a1 at *
  generalize z (t - a1) = a2 at *
  generalize z (t - 172800) = b at *
  generalize z (t - b) = b1 at *
  omega

theorem gmtime_tod (u : Int) : ((gmtime u).hour * 3600 + (gmtime u).minute * 60 + (gmtime u).second : Int) = u % 86400 := by
  unfold gmtime
  simp only
  omega

/-- The fields of moments from the year 1 on. -/
theorem gmtime_spec (u : Int) (hu : -62135596800 ≤ u) : 1 ≤ (gmtime u).year ∧ (1 ≤ (gmtime u).month ∧ (gmtime u).month ≤ 12) ∧
    (1 ≤ (gmtime u).day ∧ (gmtime u).day ≤ daysInMonth (gmtime u).year (gmtime u).month) ∧ RealTime (gmtime u).hour (gmtime u).minute (gmtime u).second ∧
    (gmtime u).seconds = u := by
  have h := fromOrdinal_spec (u / 86400 + 719163).toNat (by omega)
  obtain ⟨h1, h2, h3, h4, h5, h6⟩ := h
  refine ⟨h1, ⟨h2, h3⟩, ⟨h4, h5⟩, ?_, ?_⟩
  · unfold RealTime gmtime
    simp only
    omega
  · have ht := gmtime_tod u
    have e : (gmtime u).seconds = (ordinal (fromOrdinal (u / 86400 + 719163).toNat).1 (fromOrdinal (u / 86400 + 719163).toNat).2.1
        (fromOrdinal (u / 86400 + 719163).toNat).2.2 - 719163) * 86400 + (gmtime u).hour * 3600 + (gmtime u).minute * 60 + (gmtime u).second := rfl
    rw [e, h6]
    omega

end FF
