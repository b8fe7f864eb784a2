import Verif.Lemmas.TimePattern
import Verif.Lemmas.Double
import Verif.Model.Types
import Verif.Model.Field
/-! C69, C70: dates and times of day. -/
namespace FF
open Spec

/-! ### Which pattern -/

/-- Texts that start with digits followed by a dash or a colon and end in two digits. -/
def Canon (t : Str) : Prop :=
  ∃ a d x q n, t = (a :: d) ++ x :: (q ++ pad2 n) ∧ isDigit a = true ∧ (∀ c ∈ d, isDigit c = true) ∧ (x = '-' ∨ x = ':')

theorem canon_none {t : Str} (h : Canon t) : floatInt t = none ∧ parseDuration t = none ∧ 4 ≤ t.length := by
  obtain ⟨a, d, x, q, n, rfl, ha, hd, hx⟩ := h
  have e : (a :: d) ++ x :: (q ++ pad2 n) = a :: ((d ++ x :: (q ++ [digitChar (n / 10)])) ++ [digitChar (n % 10)]) := by simp [pad2]
  have hb := digitChar_isDigit (n % 10)
  have hx1 : isDigit x = false ∧ x ∉ ['.', 'e', 'E', '_'] ∧ x ≠ '_' := by rcases hx with rfl | rfl <;> decide
  refine ⟨?_, ?_, ?_⟩
  · rw [e]; exact floatInt_none e.symm ha hb hd hx1.1 hx1.2.1
  · have := pyInt_none e.symm ha hb hd hx1.1 hx1.2.2
    rw [e]
    rw [show a :: ((d ++ x :: (q ++ [digitChar (n / 10)])) ++ [digitChar (n % 10)]) = (a :: (d ++ x :: (q ++ [digitChar (n / 10)]))) ++ [digitChar (n % 10)] by simp] at this ⊢
    exact parseDuration_none this hb
  · simp [pad2]; omega

theorem parse_formats {z : Zone} {now : Int} {t : Str} (h : Canon t) : parseTime (localTimes z now) t = firstFormat (localTimes z now).formats t := by
  obtain ⟨h1, h2, h3⟩ := canon_none h
  unfold parseTime
  rw [show (localTimes z now).float t = none from h1]
  simp only [h2, h3, if_true, Option.map_none]
  cases firstFormat (localTimes z now).formats t <;> rfl

theorem first_some {g : Str → Option Int} {gs : List (Str → Option Int)} {s : Str} (h : firstFormat gs s = none) : firstFormat (g :: gs) s = g s := by
  simp only [firstFormat, h]
  cases g s <;> rfl

theorem first_none {g : Str → Option Int} {gs : List (Str → Option Int)} {s : Str} (h : g s = none) : firstFormat (g :: gs) s = firstFormat gs s := by
  simp only [firstFormat, h]

/-- Only the pattern with the same numbers of dashes and colons can match. -/
theorem first_count {z : Zone} {now : Int} {t : Str} {pre post : List (Bool × List FmtItem)} {k : Bool} {f : List FmtItem}
    (he : timeFormats = pre ++ (k, f) :: post) (hpre : ∀ g ∈ pre ++ post, t.count ':' ≠ g.2.count (.lit ':') ∨ t.count '-' ≠ g.2.count (.lit '-')) :
    firstFormat (localTimes z now).formats t = (strptime f t).map (timeOf z now k) := by
  have hn : ∀ g ∈ pre ++ post, (fun (g : Bool × List FmtItem) (s : Str) => (strptime g.2 s).map (timeOf z now g.1)) g t = none := by
    intro g hg
    have : strptime g.2 t = none := by
      rcases hpre g hg with h | h
      · exact strptime_count ':' (by decide) (by decide) h
      · exact strptime_count '-' (by decide) (by decide) h
    simp only [this, Option.map_none]
  have hl : ∀ l : List (Bool × List FmtItem), (∀ g ∈ l, (fun (g : Bool × List FmtItem) (s : Str) => (strptime g.2 s).map (timeOf z now g.1)) g t = none) →
      ∀ r, firstFormat (l.map (fun (g : Bool × List FmtItem) (s : Str) => (strptime g.2 s).map (timeOf z now g.1)) ++ r) t = firstFormat r t := by
    intro l
    induction l with
    | nil => intro _ r; rfl
    | cons g l ih =>
      intro h r
      rw [List.map_cons, List.cons_append, first_none (h g (by simp))]
      exact ih (fun g' hg' => h g' (by simp [hg'])) r
  have e : (localTimes z now).formats = timeFormats.map (fun (g : Bool × List FmtItem) (s : Str) => (strptime g.2 s).map (timeOf z now g.1)) := rfl
  rw [e, he, List.map_append, hl pre (fun g hg => hn g (by simp [hg])), List.map_cons, first_some]
  have := hl post (fun g hg => hn g (by simp [hg])) []
  rw [List.append_nil] at this
  exact this

theorem count_pad2 {ch : Char} (n : Nat) (h : isDigit ch = false) : (pad2 n).count ch = 0 := List.count_eq_zero.2 (pad2_not n h)
theorem count_pad4 {ch : Char} (n : Nat) (h : isDigit ch = false) : (pad4 n).count ch = 0 := List.count_eq_zero.2 (pad4_not n h)

theorem canon_date (y m d : Nat) : Canon (dateText y m d) :=
  ⟨digitChar (y / 1000), [digitChar (y / 100 % 10), digitChar (y / 10 % 10), digitChar (y % 10)], '-', pad2 m ++ ['-'], d, by simp [dateText, pad4],
    digitChar_isDigit _, by simp [digitChar_isDigit], .inl rfl⟩

theorem canon_minute (y m d h mi : Nat) : Canon (dateText y m d ++ ' ' :: minuteText h mi) :=
  ⟨digitChar (y / 1000), [digitChar (y / 100 % 10), digitChar (y / 10 % 10), digitChar (y % 10)], '-', pad2 m ++ '-' :: (pad2 d ++ ' ' :: (pad2 h ++ [':'])), mi,
    by simp [dateText, minuteText, pad4], digitChar_isDigit _, by simp [digitChar_isDigit], .inl rfl⟩

theorem canon_second (y m d h mi s : Nat) : Canon (dateText y m d ++ ' ' :: secondText h mi s) :=
  ⟨digitChar (y / 1000), [digitChar (y / 100 % 10), digitChar (y / 10 % 10), digitChar (y % 10)], '-',
    pad2 m ++ '-' :: (pad2 d ++ ' ' :: (pad2 h ++ ':' :: (pad2 mi ++ [':']))), s,
    by simp [dateText, secondText, pad4], digitChar_isDigit _, by simp [digitChar_isDigit], .inl rfl⟩

theorem canon_hm (h mi : Nat) : Canon (minuteText h mi) :=
  ⟨digitChar (h / 10), [digitChar (h % 10)], ':', [], mi, by simp [minuteText, pad2], digitChar_isDigit _, by simp [digitChar_isDigit], .inr rfl⟩

theorem canon_clock (h mi s : Nat) : Canon (secondText h mi s) :=
  ⟨digitChar (h / 10), [digitChar (h % 10)], ':', pad2 mi ++ [':'], s, by simp [secondText, pad2], digitChar_isDigit _, by simp [digitChar_isDigit], .inr rfl⟩

theorem parse_date (z : Zone) (now : Int) (y m d : Nat) : parseTime (localTimes z now) (dateText y m d) =
    (strptime [.field .Y, .lit '-', .field .m, .lit '-', .field .d] (dateText y m d)).map (timeOf z now false) := by
  have c1 : (dateText y m d).count ':' = 0 := by simp [dateText, count_pad2, count_pad4, List.count_append, List.count_cons, show isDigit ':' = false by decide]
  have c2 : (dateText y m d).count '-' = 2 := by simp [dateText, count_pad2, count_pad4, List.count_append, List.count_cons, show isDigit '-' = false by decide]
  rw [parse_formats (canon_date y m d)]
  refine first_count (pre := timeFormats.take 3) (post := timeFormats.drop 4) rfl ?_
  rw [c1, c2]
  decide

theorem parse_minute (z : Zone) (now : Int) (y m d h mi : Nat) : parseTime (localTimes z now) (dateText y m d ++ ' ' :: minuteText h mi) =
    (strptime [.field .Y, .lit '-', .field .m, .lit '-', .field .d, .space, .field .H, .lit ':', .field .M] (dateText y m d ++ ' ' :: minuteText h mi)).map
      (timeOf z now false) := by
  have c1 : (dateText y m d ++ ' ' :: minuteText h mi).count ':' = 1 := by
    simp [dateText, minuteText, count_pad2, count_pad4, List.count_append, List.count_cons, show isDigit ':' = false by decide]
  have c2 : (dateText y m d ++ ' ' :: minuteText h mi).count '-' = 2 := by
    simp [dateText, minuteText, count_pad2, count_pad4, List.count_append, List.count_cons, show isDigit '-' = false by decide]
  rw [parse_formats (canon_minute y m d h mi)]
  refine first_count (pre := timeFormats.take 1) (post := timeFormats.drop 2) rfl ?_
  rw [c1, c2]
  decide

theorem parse_second (z : Zone) (now : Int) (y m d h mi s : Nat) : parseTime (localTimes z now) (dateText y m d ++ ' ' :: secondText h mi s) =
    (strptime [.field .Y, .lit '-', .field .m, .lit '-', .field .d, .space, .field .H, .lit ':', .field .M, .lit ':', .field .S]
      (dateText y m d ++ ' ' :: secondText h mi s)).map (timeOf z now false) := by
  have c1 : (dateText y m d ++ ' ' :: secondText h mi s).count ':' = 2 := by
    simp [dateText, secondText, count_pad2, count_pad4, List.count_append, List.count_cons, show isDigit ':' = false by decide]
  have c2 : (dateText y m d ++ ' ' :: secondText h mi s).count '-' = 2 := by
    simp [dateText, secondText, count_pad2, count_pad4, List.count_append, List.count_cons, show isDigit '-' = false by decide]
  rw [parse_formats (canon_second y m d h mi s)]
  refine first_count (pre := []) (post := timeFormats.drop 1) rfl ?_
  rw [c1, c2]
  decide

theorem parse_clock (z : Zone) (now : Int) (h mi s : Nat) : parseTime (localTimes z now) (secondText h mi s) =
    (strptime [.field .H, .lit ':', .field .M, .lit ':', .field .S] (secondText h mi s)).map (timeOf z now true) := by
  have c1 : (secondText h mi s).count ':' = 2 := by
    simp [secondText, count_pad2, List.count_append, List.count_cons, show isDigit ':' = false by decide]
  have c2 : (secondText h mi s).count '-' = 0 := by
    simp [secondText, count_pad2, List.count_append, List.count_cons, show isDigit '-' = false by decide]
  rw [parse_formats (canon_clock h mi s)]
  refine first_count (pre := timeFormats.take 5) (post := timeFormats.drop 6) rfl ?_
  rw [c1, c2]
  decide

theorem parse_hm (z : Zone) (now : Int) (h mi : Nat) : parseTime (localTimes z now) (minuteText h mi) =
    (strptime [.field .H, .lit ':', .field .M] (minuteText h mi)).map (timeOf z now true) := by
  have c1 : (minuteText h mi).count ':' = 1 := by
    simp [minuteText, count_pad2, List.count_append, List.count_cons, show isDigit ':' = false by decide]
  have c2 : (minuteText h mi).count '-' = 0 := by
    simp [minuteText, count_pad2, List.count_append, List.count_cons, show isDigit '-' = false by decide]
  rw [parse_formats (canon_hm h mi)]
  refine first_count (pre := timeFormats.take 6) (post := timeFormats.drop 7) rfl ?_
  rw [c1, c2]
  decide

/-! ### Dates -/

/-- C69: a date is the first moment of this day in local time. -/
theorem C69_date (z : Zone) (now : Int) {y m d : Nat} (hd : RealDate y m d) (ho : OneChange z (clock y m d 0 0 0)) (he : ∃ u, u + z u = clock y m d 0 0 0) :
    ∃ u, parseTime (localTimes z now) (dateText y m d) = some u ∧ FirstShown z (clock y m d 0 0 0) u := by
  rw [parse_date, strptime_date hd]
  refine ⟨_, rfl, ?_⟩
  have := seconds_eq ⟨y, m, d, 0, 0, 0⟩ ((valid_iff _).2 ⟨hd, by simp [RealTime]⟩)
  simp only [timeOf, Bool.false_eq_true, if_false, this]
  exact mktime_first ho he

/-- C69: a date with hour and minute is the first moment at which local clocks show it. -/
theorem C69_minute (z : Zone) (now : Int) {y m d h mi : Nat} (hd : RealDate y m d) (ht : RealTime h mi 0) (ho : OneChange z (clock y m d h mi 0))
    (he : ∃ u, u + z u = clock y m d h mi 0) :
    ∃ u, parseTime (localTimes z now) (dateText y m d ++ ' ' :: minuteText h mi) = some u ∧ FirstShown z (clock y m d h mi 0) u := by
  rw [parse_minute, strptime_minute hd ht]
  refine ⟨_, rfl, ?_⟩
  have := seconds_eq ⟨y, m, d, h, mi, 0⟩ ((valid_iff _).2 ⟨hd, ht⟩)
  simp only [timeOf, Bool.false_eq_true, if_false, this]
  exact mktime_first ho he

/-- C69: a date with hour, minute and second is the first moment at which local clocks show it. -/
theorem C69_second (z : Zone) (now : Int) {y m d h mi s : Nat} (hd : RealDate y m d) (ht : RealTime h mi s) (ho : OneChange z (clock y m d h mi s))
    (he : ∃ u, u + z u = clock y m d h mi s) :
    ∃ u, parseTime (localTimes z now) (dateText y m d ++ ' ' :: secondText h mi s) = some u ∧ FirstShown z (clock y m d h mi s) u := by
  rw [parse_second, strptime_second hd ht]
  refine ⟨_, rfl, ?_⟩
  have := seconds_eq ⟨y, m, d, h, mi, s⟩ ((valid_iff _).2 ⟨hd, ht⟩)
  simp only [timeOf, Bool.false_eq_true, if_false, this]
  exact mktime_first ho he

/-- C69: a time that clocks skip is read as if they had not been changed. -/
theorem C69_skipped (z : Zone) (now : Int) {y m d h mi s : Nat} (hd : RealDate y m d) (ht : RealTime h mi s) (ho : OneChange z (clock y m d h mi s))
    (he : ¬∃ u, u + z u = clock y m d h mi s) :
    ∃ u, parseTime (localTimes z now) (dateText y m d ++ ' ' :: secondText h mi s) = some u ∧ u + z (clock y m d h mi s - 172800) = clock y m d h mi s := by
  rw [parse_second, strptime_second hd ht]
  refine ⟨_, rfl, ?_⟩
  have := seconds_eq ⟨y, m, d, h, mi, s⟩ ((valid_iff _).2 ⟨hd, ht⟩)
  simp only [timeOf, Bool.false_eq_true, if_false, this]
  exact mktime_gap ho he

/-! ### Times of day -/

/-- C69: a time of day is the last one that is not in the future. -/
theorem C69_time (z : Zone) (now : Int) {h mi s : Nat} (ht : RealTime h mi s) (hn : 0 ≤ now + z now) {t : Int} (h1 : t % 86400 = h * 3600 + mi * 60 + s)
    (h2 : t ≤ now + z now) (h3 : now + z now < t + 86400) (ho : OneChange z t) (he : ∃ u, u + z u = t) :
    ∃ u, parseTime (localTimes z now) (secondText h mi s) = some u ∧ (s = 0 → parseTime (localTimes z now) (minuteText h mi) = some u) ∧ FirstShown z t u := by
  have key : timeOf z now true ⟨1900, 1, 1, h, mi, s⟩ = mktime z t := by
    have hg := (gmtime_spec (now + z now) (by omega)).2.2.2.2
    obtain ⟨t1, t2, t3⟩ := ht
    have e := (gmtime_tod (now + z now))
    have e1 : (DateTime.mk (localtime z now).year (localtime z now).month (localtime z now).day h mi s).seconds =
        (localtime z now).seconds - (now + z now) % 86400 + (h * 3600 + mi * 60 + s) := by
      have e2 : localtime z now = gmtime (now + z now) := rfl
      rw [e2]
      unfold DateTime.seconds
      simp only
      omega
    have e3 : (localtime z now).seconds = now + z now := hg
    simp only [timeOf, if_true, e1, e3]
    split
    · congr 1; omega
    · congr 1; omega
  rw [parse_clock, strptime_clock ht]
  refine ⟨_, rfl, ?_, ?_⟩
  · rintro rfl
    rw [parse_hm, strptime_hm ht]
    rfl
  · rw [key]
    exact mktime_first ho he

/-! ### Refused -/

theorem caps_date {y m d : Nat} {c : Caps} (h : Fits [.field .Y, .lit '-', .field .m, .lit '-', .field .d] (dateText y m d) [] c) :
    c = [(3, pad2 d), (2, pad2 m), (1, pad4 y)] := by
  obtain ⟨w1, s1, e1, f1, _, _, k1⟩ := fits_field h
  obtain ⟨s2, rfl, k2⟩ := fits_lit k1
  obtain ⟨w2, s3, rfl, f2, _, _, k3⟩ := fits_field k2
  obtain ⟨s4, rfl, k4⟩ := fits_lit k3
  obtain ⟨w3, s5, rfl, f3, _, _, k5⟩ := fits_field k4
  obtain ⟨rfl, rfl⟩ := fits_nil k5
  unfold dateText at e1
  obtain ⟨rfl, e2⟩ := split_unique (pad4_not y (by decide)) (field_not f1 (by decide) (by decide)) e1
  obtain ⟨rfl, e3⟩ := split_unique (pad2_not m (by decide)) (field_not f2 (by decide) (by decide)) e2
  rw [List.append_nil] at e3
  rw [e3]; rfl

theorem caps_minute {y m d h mi : Nat} {c : Caps} (hf : Fits [.field .Y, .lit '-', .field .m, .lit '-', .field .d, .space, .field .H, .lit ':', .field .M]
    (dateText y m d ++ ' ' :: minuteText h mi) [] c) : c = [(5, pad2 mi), (4, pad2 h), (3, pad2 d), (2, pad2 m), (1, pad4 y)] := by
  obtain ⟨w1, s1, e1, f1, _, _, k1⟩ := fits_field hf
  obtain ⟨s2, rfl, k2⟩ := fits_lit k1
  obtain ⟨w2, s3, rfl, f2, _, _, k3⟩ := fits_field k2
  obtain ⟨s4, rfl, k4⟩ := fits_lit k3
  obtain ⟨w3, s5, rfl, f3, l3, l3', k5⟩ := fits_field k4
  obtain ⟨w4, s6, rfl, f4, l4, k6⟩ := fits_space k5
  obtain ⟨w5, s7, rfl, f5, _, l5, k7⟩ := fits_field k6
  obtain ⟨s8, rfl, k8⟩ := fits_lit k7
  obtain ⟨w6, s9, rfl, f6, _, _, k9⟩ := fits_field k8
  obtain ⟨rfl, rfl⟩ := fits_nil k9
  unfold dateText minuteText at e1
  rw [List.append_assoc, List.cons_append, List.append_assoc, List.cons_append] at e1
  obtain ⟨rfl, e2⟩ := split_unique (pad4_not y (by decide)) (field_not f1 (by decide) (by decide)) e1
  obtain ⟨rfl, e3⟩ := split_unique (pad2_not m (by decide)) (field_not f2 (by decide) (by decide)) e2
  obtain ⟨rfl, rfl, e4⟩ := day_hour l3' f4 l4 l5 l3 (field_not f5 (by decide) (by decide)) e3
  rw [List.append_nil] at e4
  rw [e4]; rfl

theorem caps_second {y m d h mi s : Nat} {c : Caps}
    (hf : Fits [.field .Y, .lit '-', .field .m, .lit '-', .field .d, .space, .field .H, .lit ':', .field .M, .lit ':', .field .S]
    (dateText y m d ++ ' ' :: secondText h mi s) [] c) : c = [(6, pad2 s), (5, pad2 mi), (4, pad2 h), (3, pad2 d), (2, pad2 m), (1, pad4 y)] := by
  obtain ⟨w1, s1, e1, f1, _, _, k1⟩ := fits_field hf
  obtain ⟨s2, rfl, k2⟩ := fits_lit k1
  obtain ⟨w2, s3, rfl, f2, _, _, k3⟩ := fits_field k2
  obtain ⟨s4, rfl, k4⟩ := fits_lit k3
  obtain ⟨w3, s5, rfl, f3, l3, l3', k5⟩ := fits_field k4
  obtain ⟨w4, s6, rfl, f4, l4, k6⟩ := fits_space k5
  obtain ⟨w5, s7, rfl, f5, _, l5, k7⟩ := fits_field k6
  obtain ⟨s8, rfl, k8⟩ := fits_lit k7
  obtain ⟨w6, s9, rfl, f6, _, _, k9⟩ := fits_field k8
  obtain ⟨s10, rfl, k10⟩ := fits_lit k9
  obtain ⟨w7, s11, rfl, f7, _, _, k11⟩ := fits_field k10
  obtain ⟨rfl, rfl⟩ := fits_nil k11
  unfold dateText secondText at e1
  rw [List.append_assoc, List.cons_append, List.append_assoc, List.cons_append] at e1
  obtain ⟨rfl, e2⟩ := split_unique (pad4_not y (by decide)) (field_not f1 (by decide) (by decide)) e1
  obtain ⟨rfl, e3⟩ := split_unique (pad2_not m (by decide)) (field_not f2 (by decide) (by decide)) e2
  obtain ⟨rfl, rfl, e4⟩ := day_hour l3' f4 l4 l5 l3 (field_not f5 (by decide) (by decide)) e3
  obtain ⟨rfl, e5⟩ := split_unique (pad2_not mi (by decide)) (field_not f6 (by decide) (by decide)) e4
  rw [List.append_nil] at e5
  rw [e5]; rfl

theorem caps_hm {h mi : Nat} {c : Caps} (hf : Fits [.field .H, .lit ':', .field .M] (minuteText h mi) [] c) : c = [(5, pad2 mi), (4, pad2 h)] := by
  obtain ⟨w1, s1, e1, f1, _, _, k1⟩ := fits_field hf
  obtain ⟨s2, rfl, k2⟩ := fits_lit k1
  obtain ⟨w2, s3, rfl, f2, _, _, k3⟩ := fits_field k2
  obtain ⟨rfl, rfl⟩ := fits_nil k3
  unfold minuteText at e1
  obtain ⟨rfl, e2⟩ := split_unique (pad2_not h (by decide)) (field_not f1 (by decide) (by decide)) e1
  rw [List.append_nil] at e2
  rw [e2]; rfl

theorem caps_clock {h mi s : Nat} {c : Caps} (hf : Fits [.field .H, .lit ':', .field .M, .lit ':', .field .S] (secondText h mi s) [] c) :
    c = [(6, pad2 s), (5, pad2 mi), (4, pad2 h)] := by
  obtain ⟨w1, s1, e1, f1, _, _, k1⟩ := fits_field hf
  obtain ⟨s2, rfl, k2⟩ := fits_lit k1
  obtain ⟨w2, s3, rfl, f2, _, _, k3⟩ := fits_field k2
  obtain ⟨s4, rfl, k4⟩ := fits_lit k3
  obtain ⟨w3, s5, rfl, f3, _, _, k5⟩ := fits_field k4
  obtain ⟨rfl, rfl⟩ := fits_nil k5
  unfold secondText at e1
  obtain ⟨rfl, e2⟩ := split_unique (pad2_not h (by decide)) (field_not f1 (by decide) (by decide)) e1
  obtain ⟨rfl, e3⟩ := split_unique (pad2_not mi (by decide)) (field_not f2 (by decide) (by decide)) e2
  rw [List.append_nil] at e3
  rw [e3]; rfl

/-- C69: dates that do not exist are refused. -/
theorem C69_no_date (z : Zone) (now : Int) {y m d : Nat} (hy : y ≤ 9999) (hm : m ≤ 99) (hd : d ≤ 99) (h : ¬RealDate y m d) :
    parseTime (localTimes z now) (dateText y m d) = none := by
  rw [parse_date]
  cases hs : strptime [.field .Y, .lit '-', .field .m, .lit '-', .field .d] (dateText y m d) with
  | none => rfl
  | some t =>
    obtain ⟨c, hf, rfl, hv⟩ := strptime_fits hs
    rw [caps_date hf] at hv
    have := ((valid_iff _).1 hv).1
    simp only [fieldOr, Caps.get, Directive.group, List.find?] at this
    simp [pad4_val hy, pad2_val hm, pad2_val hd] at this
    exact absurd this h

/-- C69: dates and times that do not exist are refused. -/
theorem C69_no_minute (z : Zone) (now : Int) {y m d h mi : Nat} (hy : y ≤ 9999) (hm : m ≤ 99) (hd : d ≤ 99) (hh : h ≤ 99) (hmi : mi ≤ 99)
    (hn : ¬(RealDate y m d ∧ RealTime h mi 0)) : parseTime (localTimes z now) (dateText y m d ++ ' ' :: minuteText h mi) = none := by
  rw [parse_minute]
  cases hs : strptime [.field .Y, .lit '-', .field .m, .lit '-', .field .d, .space, .field .H, .lit ':', .field .M] (dateText y m d ++ ' ' :: minuteText h mi) with
  | none => rfl
  | some t =>
    obtain ⟨c, hf, rfl, hv⟩ := strptime_fits hs
    rw [caps_minute hf] at hv
    have := (valid_iff _).1 hv
    simp only [fieldOr, Caps.get, Directive.group, List.find?] at this
    simp [pad4_val hy, pad2_val hm, pad2_val hd, pad2_val hh, pad2_val hmi] at this
    exact absurd this hn

/-- C69: dates and times that do not exist are refused. -/
theorem C69_no_second (z : Zone) (now : Int) {y m d h mi s : Nat} (hy : y ≤ 9999) (hm : m ≤ 99) (hd : d ≤ 99) (hh : h ≤ 99) (hmi : mi ≤ 99) (hs : s ≤ 99)
    (hn : ¬(RealDate y m d ∧ RealTime h mi s)) : parseTime (localTimes z now) (dateText y m d ++ ' ' :: secondText h mi s) = none := by
  rw [parse_second]
  cases hst : strptime [.field .Y, .lit '-', .field .m, .lit '-', .field .d, .space, .field .H, .lit ':', .field .M, .lit ':', .field .S]
      (dateText y m d ++ ' ' :: secondText h mi s) with
  | none => rfl
  | some t =>
    obtain ⟨c, hf, rfl, hv⟩ := strptime_fits hst
    rw [caps_second hf] at hv
    have := (valid_iff _).1 hv
    simp only [fieldOr, Caps.get, Directive.group, List.find?] at this
    simp [pad4_val hy, pad2_val hm, pad2_val hd, pad2_val hh, pad2_val hmi, pad2_val hs] at this
    exact absurd this hn

/-- C69: times of day that do not exist are refused. -/
theorem C69_no_time (z : Zone) (now : Int) {h mi s : Nat} (hh : h ≤ 99) (hmi : mi ≤ 99) (hs : s ≤ 99) (hn : ¬RealTime h mi s) :
    parseTime (localTimes z now) (secondText h mi s) = none ∧ (s = 0 → parseTime (localTimes z now) (minuteText h mi) = none) := by
  constructor
  · rw [parse_clock]
    cases hst : strptime [.field .H, .lit ':', .field .M, .lit ':', .field .S] (secondText h mi s) with
    | none => rfl
    | some t =>
      obtain ⟨c, hf, rfl, hv⟩ := strptime_fits hst
      rw [caps_clock hf] at hv
      have := ((valid_iff _).1 hv).2
      simp only [fieldOr, Caps.get, Directive.group, List.find?] at this
      simp [pad2_val hh, pad2_val hmi, pad2_val hs] at this
      exact absurd this hn
  · rintro rfl
    rw [parse_hm]
    cases hst : strptime [.field .H, .lit ':', .field .M] (minuteText h mi) with
    | none => rfl
    | some t =>
      obtain ⟨c, hf, rfl, hv⟩ := strptime_fits hst
      rw [caps_hm hf] at hv
      have := ((valid_iff _).1 hv).2
      simp only [fieldOr, Caps.get, Directive.group, List.find?] at this
      simp [pad2_val hh, pad2_val hmi] at this
      exact absurd this hn

/-! ### Output -/

theorem natStrAux_fuel : ∀ a b m, m < a → m < b → natStrAux a m = natStrAux b m := by
  intro a
  induction a with
  | zero => intro b m h; omega
  | succ a iha =>
    intro b m h1 h2
    cases b with
    | zero => omega
    | succ b =>
      rw [natStrAux, natStrAux]
      split
      · rfl
      · rw [iha b (m / 10) (by omega) (by omega)]

theorem natStr_step (n : Nat) : natStr n = if n < 10 then [digitChar n] else natStr (n / 10) ++ [digitChar (n % 10)] := by
  unfold natStr
  rw [natStrAux]
  split
  · rfl
  · rw [natStrAux_fuel n (n / 10 + 1) (n / 10) (by omega) (by omega)]

theorem natStr2_pad {n : Nat} (h : n ≤ 99) : natStr2 n = pad2 n := by
  unfold natStr2 pad2
  split
  · rename_i h
    rw [natStr_step, if_pos h, show n / 10 = 0 by omega, show n % 10 = n by omega]; rfl
  · rw [natStr_step, if_neg (by omega), natStr_step, if_pos (by omega)]; rfl

theorem natStr_pad4 {n : Nat} (h1 : 1000 ≤ n) (h2 : n ≤ 9999) : natStr n = pad4 n := by
  rw [natStr_step, if_neg (by omega), natStr_step, if_neg (by omega), natStr_step, if_neg (by omega), natStr_step, if_pos (by omega)]
  unfold pad4
  rw [show n / 10 / 10 / 10 = n / 1000 by omega, show n / 10 / 10 = n / 100 by omega]
  rfl

/-- C70: a time is printed as the date and time that local clocks show (in the years from 1000 to 9999). -/
theorem C70_shown (z : Zone) (u : Int) (h1 : -30610224000 ≤ u + z u) (h2 : u + z u < 253402300800) :
    ∃ y m d h mi s, RealDate y m d ∧ RealTime h mi s ∧ u + z u = clock y m d h mi s ∧ formatTime z u = dateText y m d ++ ' ' :: secondText h mi s := by
  obtain ⟨g1, ⟨g2, g3⟩, ⟨g4, g5⟩, g6, g7⟩ := gmtime_spec (u + z u) (by omega)
  have g6' := g6
  obtain ⟨t1, t2, t3⟩ := g6'
  have hb : daysBeforeMonth (gmtime (u + z u)).year (gmtime (u + z u)).month + (gmtime (u + z u)).day ≤ 366 ∧
      (isLeap (gmtime (u + z u)).year = false → daysBeforeMonth (gmtime (u + z u)).year (gmtime (u + z u)).month + (gmtime (u + z u)).day ≤ 365) := by
    generalize (gmtime (u + z u)).year = y at *
    generalize (gmtime (u + z u)).month = m at *
    generalize (gmtime (u + z u)).day = d at *
    have hm : m = 1 ∨ m = 2 ∨ m = 3 ∨ m = 4 ∨ m = 5 ∨ m = 6 ∨ m = 7 ∨ m = 8 ∨ m = 9 ∨ m = 10 ∨ m = 11 ∨ m = 12 := by omega
    unfold daysInMonth at g5
    unfold daysBeforeMonth
    generalize isLeap y = l at g5 ⊢
    cases l <;> rcases hm with rfl | rfl | rfl | rfl | rfl | rfl | rfl | rfl | rfl | rfl | rfl | rfl <;> simp at g5 ⊢ <;> omega
  have tod := gmtime_tod (u + z u)
  have e : ordinal (gmtime (u + z u)).year (gmtime (u + z u)).month (gmtime (u + z u)).day = (u + z u) / 86400 + 719163 := by
    have : (gmtime (u + z u)).seconds = (ordinal (gmtime (u + z u)).year (gmtime (u + z u)).month (gmtime (u + z u)).day - 719163) * 86400 +
      (gmtime (u + z u)).hour * 3600 + (gmtime (u + z u)).minute * 60 + (gmtime (u + z u)).second := rfl
    omega
  have hy : 1000 ≤ (gmtime (u + z u)).year ∧ (gmtime (u + z u)).year ≤ 9999 := by
    unfold ordinal at e
    constructor
    · by_cases h : (gmtime (u + z u)).year = 999
      · have := hb.2 (by rw [h]; decide)
        omega
      · omega
    · omega
  have hr : RealDate (gmtime (u + z u)).year (gmtime (u + z u)).month (gmtime (u + z u)).day :=
    ⟨g1, hy.2, g2, g3, g4, by rw [← daysInMonth_eq g2 g3]; exact g5⟩
  have h31 := monthLens_le (gmtime (u + z u)).year (gmtime (u + z u)).month
  have hd := hr.2.2.2.2.2
  refine ⟨_, _, _, _, _, _, hr, g6, ?_, ?_⟩
  · rw [← seconds_eq _ ((valid_iff _).2 ⟨hr, g6⟩), g7]
  · unfold formatTime localtime
    simp only
    rw [natStr_pad4 hy.1 hy.2, natStr2_pad (n := (gmtime (u + z u)).month) (by omega), natStr2_pad (n := (gmtime (u + z u)).day) (by omega),
      natStr2_pad (n := (gmtime (u + z u)).hour) (by omega), natStr2_pad (n := (gmtime (u + z u)).minute) (by omega),
      natStr2_pad (n := (gmtime (u + z u)).second) (by omega)]
    simp [dateText, secondText]

/-- C70, what is true: a printed time is read as the same time, unless clocks show it for the second time. -/
theorem C70_roundtrip_partial (o : OutEnv) (now u : Int) (h1 : -30610224000 ≤ u + o.zone u)
    (h2 : u + o.zone u < 253402300800) (hc : OneChange o.zone (u + o.zone u)) (hf : FirstShown o.zone (u + o.zone u) u) :
    parseTime (localTimes o.zone now) (Ty.time.output o (some 'h') (.int u)) = some u := by
  obtain ⟨y, m, d, h, mi, s, hd, ht, e, ef⟩ := C70_shown o.zone u h1 h2
  have eo : Ty.time.output o (some 'h') (.int u) = formatTime o.zone u := rfl
  rw [eo, ef]
  rw [e] at hc hf
  obtain ⟨u', hu', hf'⟩ := C69_second o.zone now hd ht hc ⟨u, e⟩
  rw [hu']
  have := hf.2 u' hf'.1
  have := hf'.2 u hf.1
  congr 1
  omega

/-- Clocks are put back by an hour at the epoch. -/
def putBack : Zone := fun u => if u < 0 then 3600 else 0

/-- Clocks are put forward by an hour at the epoch. -/
def putForward : Zone := fun u => if u < 0 then 0 else 3600

theorem putBack_one (t : Int) : OneChange putBack t :=
  ⟨fun u => by unfold putBack; split <;> omega, 0, 3600, 0, by omega, by omega, fun u _ _ => rfl⟩

theorem putForward_one (t : Int) : OneChange putForward t :=
  ⟨fun u => by unfold putForward; split <;> omega, 0, 0, 3600, by omega, by omega, fun u _ _ => rfl⟩

set_option maxRecDepth 20000 in
/-- C70 fails in the hour that clocks show twice: what is printed for the second one is read as the first one, also with a single change of clocks. -/
theorem C70_false : OneChange putBack (100 + putBack 100) ∧ formatTime putBack 100 = "1970-01-01 00:01:40".toList ∧
    parseTime (localTimes putBack 0) (formatTime putBack 100) = some (-3500) := by
  have e : formatTime putBack 100 = "1970-01-01 00:01:40".toList := by decide
  refine ⟨putBack_one _, e, ?_⟩
  rw [e]
  decide

example : RealDate 2024 2 29 ∧ ¬RealDate 2023 2 29 ∧ ¬RealDate 1900 2 29 ∧ RealTime 23 59 59 ∧ ¬RealTime 23 59 60 := by unfold RealDate RealTime; decide
example : clock 1970 1 2 0 0 1 = 86401 := by
  rw [← seconds_eq ⟨1970, 1, 2, 0, 0, 1⟩ (by decide)]
  decide
example : dateText 2020 5 12 ++ ' ' :: secondText 9 5 0 = "2020-05-12 09:05:00".toList := by decide
example : FirstShown putBack 100 (-3500) := by
  refine ⟨by decide, ?_⟩
  intro u hu
  unfold putBack at hu
  split at hu <;> omega
example : ¬∃ u, u + putForward u = 100 := by
  rintro ⟨u, hu⟩
  unfold putForward at hu
  split at hu <;> omega
set_option maxRecDepth 20000 in
example : parseTime (localTimes (fun _ => 7200) 1600000000) "2020-09-13 14:26:40".toList = some 1600000000 ∧
    parseTime (localTimes (fun _ => 7200) 1600000000) "14:26".toList = some (1600000000 - 40) ∧
    parseTime (localTimes (fun _ => 7200) 1600000000) "14:27".toList = some (1600000000 + 20 - 86400) ∧
    parseTime (localTimes (fun _ => 7200) 1600000000) "2020-02-30".toList = none := by decide
example : ∃ t : Int, t % 86400 = (14 : Nat) * 3600 + (26 : Nat) * 60 + (0 : Nat) ∧ t ≤ 1600000000 + 7200 ∧ 1600000000 + 7200 < t + 86400 :=
  ⟨1600007160, by decide⟩
example : (0 : Int) ≤ 1600000000 + (fun _ => 7200 : Zone) 1600000000 ∧ ∃ u, u + (fun _ => 7200 : Zone) u = 1600007160 := ⟨by decide, 1599999960, by decide⟩

set_option maxRecDepth 20000 in
/-- Texts beside the documented ones that are accepted: a date whose day is padded by a space, and a "time of day" with a unit, as a duration that counts the
last part only. -/
theorem lenient_times : (parseTime (localTimes (fun _ => 0) 1600000000) "202005 5".toList).isSome = true ∧
    parseTime (localTimes (fun _ => 0) 1600000000) "25:30s".toList = some (1600000000 - 30) := by decide

/-! ### Numbers -/

theorem underscoresOk_digits : ∀ (s : Str) p, (∀ c ∈ s, isDigit c = true) → underscoresOk p s = true
  | [], _, _ => rfl
  | c :: s, p, h => by
    have hc : c ≠ '_' := by
      rintro rfl
      exact absurd (h '_' (by simp)) (by decide)
    have := underscoresOk_digits s (some c) (fun x hx => h x (by simp [hx]))
    unfold underscoresOk
    split
    · rfl
    · rename_i he; cases he; exact absurd rfl hc
    · rename_i he; cases he; exact this

theorem floatInt_digits {s : Str} (h : Digits s) (hn : natOfDigits s < 2 ^ 53) : floatInt s = some ((natOfDigits s : Nat) : Int) := by
  obtain ⟨hne, hd⟩ := h
  unfold floatInt
  have hf : s.filter (· ≠ '_') = s := by
    rw [List.filter_eq_self]
    intro c hc
    have := hd c hc
    have : c ≠ '_' := by rintro rfl; exact absurd this (by decide)
    simpa using this
  rw [strip_of_not_space (fun c hc => digit_not_space (hd c hc))]
  simp only [underscoresOk_digits s none hd, hf, Bool.true_eq_false, if_false]
  have e1 : s.takeWhile isDigit = s := by
    have := List.takeWhile_append_dropWhile (p := isDigit) (l := s)
    have hdr : s.dropWhile isDigit = [] := by
      clear hn hne hf this
      induction s with
      | nil => rfl
      | cons c s ih => rw [List.dropWhile_cons, if_pos (hd c (by simp))]; exact ih (fun x hx => hd x (by simp [hx]))
    rw [hdr, List.append_nil] at this
    exact this
  have e2 : s.dropWhile isDigit = [] := by
    have := List.takeWhile_append_dropWhile (p := isDigit) (l := s)
    rw [e1] at this
    simpa using this
  have ha : floatAbs s = some (natOfDigits s) := by
    unfold floatAbs
    simp only [e1, e2, floatExp]
    rw [if_neg (by simp [hne])]
    have := roundDouble_exact (num := natOfDigits s) (den := 1) (m := natOfDigits s) (s := 0) (t := 0) (by omega) hn (by omega)
    simp only [List.append_nil, List.length_nil, Nat.pow_zero, Nat.mul_one, Int.toNat_zero, Int.neg_zero, Nat.mul_one]
    congr 1
    obtain ⟨p1, p2⟩ := this
    rw [Nat.mul_one] at p1
    rw [p1]
    exact Nat.mul_div_cancel _ p2
  cases s with
  | nil => exact absurd rfl hne
  | cons c s =>
    have hc := hd c (by simp)
    split
    · rename_i he; cases he; exact absurd hc (by decide)
    · rename_i he; cases he; exact absurd hc (by decide)
    · rw [ha]; rfl

/-- C25: a plain number is read as seconds since epoch, whether or not it looks like a date. -/
theorem C25_number_partial (z : Zone) (now : Int) {s : Str} (h : Digits s) (hn : natOfDigits s < 2 ^ 53) : parseTime (localTimes z now) s = some ((natOfDigits s : Nat) : Int) := by
  unfold parseTime
  rw [show (localTimes z now).float s = some ((natOfDigits s : Nat) : Int) from floatInt_digits h hn]

theorem strptime_compact {y m d : Nat} (hd : RealDate y m d) : strptime [.field .Y, .field .m, .field .d] (pad4 y ++ (pad2 m ++ pad2 d)) = some ⟨y, m, d, 0, 0, 0⟩ := by
  have hd0 := hd
  obtain ⟨h1, h2, h3, h4, h5, h6⟩ := hd
  have h31 := monthLens_le y m
  have hm : Re.match' (fmtRe [.field .Y, .field .m, .field .d]) (pad4 y ++ (pad2 m ++ pad2 d)) = some ([(3, pad2 d), (2, pad2 m), (1, pad4 y)], []) := by
    unfold Re.match'
    refine step_field (fun hk => run_Y.trans hk) (step_field (run_m h3 h4) ?_)
    rw [show pad2 d = pad2 d ++ [] by simp]
    exact step_field (run_d h5 (by omega)) rfl
  unfold strptime
  rw [hm]
  simp only
  have hv : (DateTime.mk y m d 0 0 0).valid = true := (valid_iff _).2 ⟨hd0, by simp [RealTime]⟩
  simp only [fieldOr, Caps.get, Directive.group, List.find?]
  simp [pad4_val h2, pad2_val (show m ≤ 99 by omega), pad2_val (show d ≤ 99 by omega), hv]

/-- C25 fails for every date in the documented form `YYYYMMDD`: it matches its pattern, and yet it is read as a moment in the first years after 1970. -/
theorem C25_compact_false (z : Zone) (now : Int) {y m d : Nat} (hd : RealDate y m d) :
    parseTime (localTimes z now) (pad4 y ++ (pad2 m ++ pad2 d)) = some ((y * 10000 + m * 100 + d : Nat) : Int) ∧
    strptime [.field .Y, .field .m, .field .d] (pad4 y ++ (pad2 m ++ pad2 d)) = some ⟨y, m, d, 0, 0, 0⟩ ∧
    y * 10000 + m * 100 + d < 366 * 86400 * 4 := by
  have h := strptime_compact hd
  obtain ⟨h1, h2, h3, h4, h5, h6⟩ := hd
  have h31 := monthLens_le y m
  have hdig : Digits (pad4 y ++ (pad2 m ++ pad2 d)) := by
    refine ⟨by simp [pad4], ?_⟩
    intro c hc
    simp only [pad4, pad2, List.mem_append, List.mem_cons, List.not_mem_nil, or_false] at hc
    rcases hc with (rfl | rfl | rfl | rfl) | (rfl | rfl) | (rfl | rfl) <;> exact digitChar_isDigit _
  have hv : natOfDigits (pad4 y ++ (pad2 m ++ pad2 d)) = y * 10000 + m * 100 + d := by
    have e1 := digitVal_digitChar (n := y / 1000) (by omega)
    have e2 := digitVal_digitChar (n := y / 100 % 10) (by omega)
    have e3 := digitVal_digitChar (n := y / 10 % 10) (by omega)
    have e4 := digitVal_digitChar (n := y % 10) (by omega)
    have e5 := digitVal_digitChar (n := m / 10) (by omega)
    have e6 := digitVal_digitChar (n := m % 10) (by omega)
    have e7 := digitVal_digitChar (n := d / 10) (by omega)
    have e8 := digitVal_digitChar (n := d % 10) (by omega)
    simp only [natOfDigits, pad4, pad2, List.cons_append, List.nil_append, List.foldl_cons, List.foldl_nil, e1, e2, e3, e4, e5, e6, e7, e8]
    omega
  refine ⟨?_, h, by omega⟩
  rw [C25_number_partial z now hdig (by rw [hv]; omega), hv]

example : pad4 2020 ++ (pad2 5 ++ pad2 12) = "20200512".toList ∧ Digits "20200512".toList ∧ natOfDigits "20200512".toList < 2 ^ 53 := ⟨by decide, ⟨by decide, by decide⟩, by decide⟩

end FF
