import Verif.Lemmas.Time
import Verif.Lemmas.Duration
import Mathlib.Tactic.IntervalCases
/-! Lemmas about patterns of dates and times, and about `float`. -/
namespace FF
open Spec
variable {β : Type}

/-- A regular expression without groups whose characters satisfy `q`. -/
def Re.Only (q : Char → Prop) : Re → Prop
  | .eps => True
  | .chr p => ∀ c, p c = true → q c
  | .seq a b => a.Only q ∧ b.Only q
  | .alt a b => a.Only q ∧ b.Only q
  | .star _ _ => False
  | .cap _ _ => False
  | .eol => True

/-- The number of characters that a regular expression without repetitions matches, at least and at most. -/
def Re.lens : Re → Nat × Nat
  | .eps => (0, 0)
  | .chr _ => (1, 1)
  | .seq a b => (a.lens.1 + b.lens.1, a.lens.2 + b.lens.2)
  | .alt a b => (min a.lens.1 b.lens.1, max a.lens.2 b.lens.2)
  | .star _ _ => (0, 0)
  | .cap _ _ => (0, 0)
  | .eol => (0, 0)

theorem Re.mat_only {q : Char → Prop} : ∀ {r : Re} {s : Str} {c : Caps} {s' : Str} {c' : Caps}, r.Only q → r.Mat s c s' c' →
    ∃ w, s = w ++ s' ∧ (∀ x ∈ w, q x) ∧ (r.lens.1 ≤ w.length ∧ w.length ≤ r.lens.2) ∧ c' = c := by
  intro r
  induction r with
  | eps => rintro s c s' c' _ ⟨rfl, rfl⟩; exact ⟨[], rfl, by simp, by simp [Re.lens], rfl⟩
  | chr p => rintro s c s' c' h ⟨x, rfl, hx, rfl⟩; exact ⟨[x], rfl, by simpa using h x hx, by simp [Re.lens], rfl⟩
  | seq a b iha ihb =>
    rintro s c s' c' ⟨h1, h2⟩ ⟨s1, c1, m1, m2⟩
    obtain ⟨w1, rfl, q1, l1, rfl⟩ := iha h1 m1
    obtain ⟨w2, rfl, q2, l2, rfl⟩ := ihb h2 m2
    refine ⟨w1 ++ w2, by simp, ?_, by simp only [Re.lens, List.length_append]; omega, rfl⟩
    intro x hx
    rcases List.mem_append.1 hx with hx | hx
    · exact q1 x hx
    · exact q2 x hx
  | alt a b iha ihb =>
    rintro s c s' c' ⟨h1, h2⟩ (m | m)
    · obtain ⟨w, e, qw, l, ec⟩ := iha h1 m
      exact ⟨w, e, qw, by simp only [Re.lens]; omega, ec⟩
    · obtain ⟨w, e, qw, l, ec⟩ := ihb h2 m
      exact ⟨w, e, qw, by simp only [Re.lens]; omega, ec⟩
  | star g p => intro s c s' c' h; exact h.elim
  | cap n a ih => intro s c s' c' h; exact h.elim
  | eol => rintro s c s' c' _ ⟨_, rfl, rfl⟩; exact ⟨[], rfl, by simp, by simp [Re.lens], rfl⟩

/-- The characters of fields. -/
def FieldChar (c : Char) : Prop := isDigit c = true ∨ c = ' '

theorem fieldChar_range {lo hi : Char} (hlo : isDigit lo = true) (hhi : isDigit hi = true) (c : Char) (h : (decide (lo ≤ c) && decide (c ≤ hi)) = true) : FieldChar c := by
  left
  simp only [Bool.and_eq_true, decide_eq_true_eq] at h
  unfold isDigit at hlo hhi ⊢
  simp only [Bool.and_eq_true, decide_eq_true_eq] at hlo hhi ⊢
  exact ⟨Char.le_trans hlo.1 h.1, Char.le_trans h.2 hhi.2⟩

theorem directive_only (x : Directive) : x.re.Only FieldChar := by
  have lit : ∀ d : Char, FieldChar d → (Re.lit d).Only FieldChar := by
    intro d hd c hc
    simp only [decide_eq_true_eq] at hc
    rw [hc]; exact hd
  have dig : ∀ c, isDigit c = true → FieldChar c := fun c h => .inl h
  have rng : ∀ lo hi, isDigit lo = true → isDigit hi = true → (Re.range lo hi).Only FieldChar := fun lo hi h1 h2 c hc => fieldChar_range h1 h2 c hc
  cases x
  · exact ⟨dig, dig, dig, dig⟩
  · exact ⟨⟨lit _ (.inl (by decide)), rng _ _ (by decide) (by decide)⟩, ⟨lit _ (.inl (by decide)), rng _ _ (by decide) (by decide)⟩,
      rng _ _ (by decide) (by decide)⟩
  · exact ⟨⟨lit _ (.inl (by decide)), rng _ _ (by decide) (by decide)⟩, ⟨rng _ _ (by decide) (by decide), dig⟩,
      ⟨lit _ (.inl (by decide)), rng _ _ (by decide) (by decide)⟩, rng _ _ (by decide) (by decide), ⟨lit _ (.inr rfl), rng _ _ (by decide) (by decide)⟩⟩
  · exact ⟨⟨lit _ (.inl (by decide)), rng _ _ (by decide) (by decide)⟩, ⟨rng _ _ (by decide) (by decide), dig⟩, dig⟩
  · exact ⟨⟨rng _ _ (by decide) (by decide), dig⟩, dig⟩
  · exact ⟨⟨lit _ (.inl (by decide)), rng _ _ (by decide) (by decide)⟩, ⟨rng _ _ (by decide) (by decide), dig⟩, dig⟩

/-- A text that has the shape of a pattern, and the groups. -/
inductive Fits : List FmtItem → Str → Caps → Caps → Prop
  | nil {c : Caps} : Fits [] [] c c
  | field {x : Directive} {w s : Str} {f : List FmtItem} {c c' : Caps} : (∀ ch ∈ w, FieldChar ch) → 1 ≤ w.length → w.length ≤ (if x = .Y then 4 else 2) →
      Fits f s ((x.group, w) :: c) c' → Fits (.field x :: f) (w ++ s) c c'
  | space {w s : Str} {f : List FmtItem} {c c' : Caps} : (∀ ch ∈ w, isSpace ch = true) → w ≠ [] → Fits f s c c' → Fits (.space :: f) (w ++ s) c c'
  | lit {x : Char} {s : Str} {f : List FmtItem} {c c' : Caps} : Fits f s c c' → Fits (.lit x :: f) (x :: s) c c'

theorem fits_of_mat : ∀ {f : List FmtItem} {s : Str} {c : Caps} {s' : Str} {c' : Caps}, (fmtRe f).Mat s c s' c' → ∃ u, s = u ++ s' ∧ Fits f u c c' := by
  intro f
  induction f with
  | nil => rintro s c s' c' ⟨rfl, rfl⟩; exact ⟨[], rfl, .nil⟩
  | cons i f ih =>
    intro s c s' c' h
    cases i with
    | field x =>
      obtain ⟨s1, c1, ⟨c0, hm, rfl⟩, h2⟩ := h
      obtain ⟨w, rfl, hw, ⟨l1, l2⟩, rfl⟩ := Re.mat_only (directive_only x) hm
      rw [take_sub_length] at h2
      obtain ⟨u, rfl, hu⟩ := ih h2
      exact ⟨w ++ u, by simp, .field hw (Nat.le_trans (by cases x <;> decide) l1) (Nat.le_trans l2 (by cases x <;> decide)) hu⟩
    | space =>
      obtain ⟨s1, c1, hm, h2⟩ := h
      obtain ⟨w, hne, rfl, hw, rfl⟩ := Re.mat_plus.1 hm
      obtain ⟨u, rfl, hu⟩ := ih h2
      exact ⟨w ++ u, by simp, .space hw hne hu⟩
    | lit x =>
      obtain ⟨s1, c1, hm, h2⟩ := h
      obtain ⟨rfl, rfl⟩ := Re.mat_lit.1 hm
      obtain ⟨u, rfl, hu⟩ := ih h2
      exact ⟨x :: u, by simp, .lit hu⟩

/-- What `strptime` accepts has the shape of the pattern, and is a real date and time. -/
theorem strptime_fits {f : List FmtItem} {s : Str} {t : DateTime} (h : strptime f s = some t) :
    ∃ c, Fits f s [] c ∧ t = ⟨fieldOr c .Y 1900, fieldOr c .m 1, fieldOr c .d 1, fieldOr c .H 0, fieldOr c .M 0, fieldOr c .S 0⟩ ∧ t.valid = true := by
  unfold strptime at h
  split at h
  · cases h
  · rename_i c rest hm
    split at h
    · cases h
    · rename_i hr
      simp only [ne_eq, Decidable.not_not] at hr
      subst hr
      simp only at h
      split at h
      · rename_i hv
        cases h
        obtain ⟨s', c', h1, h2⟩ := Re.run_eq_some hm
        cases h2
        obtain ⟨u, hu, hf⟩ := fits_of_mat h1
        rw [List.append_nil] at hu
        subst hu
        exact ⟨c, hf, rfl, hv⟩
      · cases h

theorem fits_count (ch : Char) (h1 : isDigit ch = false) (h2 : isSpace ch = false) : ∀ {f : List FmtItem} {s : Str} {c c' : Caps}, Fits f s c c' →
    s.count ch = f.count (.lit ch) := by
  have hw0 : ∀ w : Str, (∀ x ∈ w, FieldChar x) → w.count ch = 0 := by
    intro w hw
    rw [List.count_eq_zero]
    intro hmem
    rcases hw ch hmem with h | rfl
    · rw [h] at h1; cases h1
    · revert h2; decide
  have hs0 : ∀ w : Str, (∀ x ∈ w, isSpace x = true) → w.count ch = 0 := by
    intro w hw
    rw [List.count_eq_zero]
    intro hmem
    rw [hw ch hmem] at h2; cases h2
  intro f s c c' h
  induction h with
  | nil => rfl
  | field hw _ _ _ ih => rw [List.count_append, hw0 _ hw, ih, Nat.zero_add, List.count_cons]; simp
  | space hw _ _ ih => rw [List.count_append, hs0 _ hw, ih, Nat.zero_add, List.count_cons]; simp
  | @lit x s f c c' _ ih =>
    rw [List.count_cons, List.count_cons, ih]
    by_cases hx : x = ch
    · subst hx; simp
    · have : ¬ (FmtItem.lit x == FmtItem.lit ch) = true := by simp [hx]
      simp [hx]

/-! ### Running the patterns on fields of full width -/

theorem run_Y {y : Nat} {s : Str} {c : Caps} {k : Str → Caps → Option β} : Directive.Y.re.run (pad4 y ++ s) c k = k s c := by
  simp [Directive.re, Re.seqs, Re.run, pad4, digitChar_isDigit]

theorem run_m {n : Nat} (h1 : 1 ≤ n) (h2 : n ≤ 12) {s : Str} {c : Caps} {k : Str → Caps → Option β} {v : β} (hk : k s c = some v) :
    Directive.m.re.run (pad2 n ++ s) c k = some v := by
  interval_cases n <;> simp [Directive.re, Re.alts, Re.run, pad2, Re.lit, Re.range, digitChar, hk, isDigit]

theorem run_d {n : Nat} (h1 : 1 ≤ n) (h2 : n ≤ 31) {s : Str} {c : Caps} {k : Str → Caps → Option β} {v : β} (hk : k s c = some v) :
    Directive.d.re.run (pad2 n ++ s) c k = some v := by
  interval_cases n <;> simp [Directive.re, Re.alts, Re.run, pad2, Re.lit, Re.range, digitChar, hk, isDigit]

theorem run_H {n : Nat} (h2 : n ≤ 23) {s : Str} {c : Caps} {k : Str → Caps → Option β} {v : β} (hk : k s c = some v) :
    Directive.H.re.run (pad2 n ++ s) c k = some v := by
  interval_cases n <;> simp [Directive.re, Re.alts, Re.run, pad2, Re.lit, Re.range, digitChar, hk, isDigit]

theorem run_M {n : Nat} (h2 : n ≤ 59) {s : Str} {c : Caps} {k : Str → Caps → Option β} {v : β} (hk : k s c = some v) :
    Directive.M.re.run (pad2 n ++ s) c k = some v := by
  interval_cases n <;> simp [Directive.re, Re.alts, Re.run, pad2, Re.lit, Re.range, digitChar, hk, isDigit]

theorem run_S {n : Nat} (h2 : n ≤ 59) {s : Str} {c : Caps} {k : Str → Caps → Option β} {v : β} (hk : k s c = some v) :
    Directive.S.re.run (pad2 n ++ s) c k = some v := by
  interval_cases n <;> simp [Directive.re, Re.alts, Re.run, pad2, Re.lit, Re.range, digitChar, hk, isDigit]

theorem step_field {x : Directive} {w s : Str} {f : List FmtItem} {c : Caps} {k : Str → Caps → Option β} {v : β}
    (hrun : ∀ {k : Str → Caps → Option β}, k s c = some v → x.re.run (w ++ s) c k = some v) (h : (fmtRe f).run s ((x.group, w) :: c) k = some v) :
    (fmtRe (.field x :: f)).run (w ++ s) c k = some v := by
  simp only [fmtRe, Re.run]
  exact hrun (by rw [take_sub_length]; exact h)

theorem step_lit {x : Char} {s : Str} {f : List FmtItem} {c : Caps} {k : Str → Caps → Option β} {v : β} (h : (fmtRe f).run s c k = some v) :
    (fmtRe (.lit x :: f)).run (x :: s) c k = some v := by
  simp only [fmtRe, Re.run, Re.run_lit_cons, if_true]
  exact h

theorem step_space {s : Str} {f : List FmtItem} {c : Caps} {k : Str → Caps → Option β} {v : β} (hs : ∀ x xs, s = x :: xs → isSpace x = false)
    (h : (fmtRe f).run s c k = some v) : (fmtRe (.space :: f)).run (' ' :: s) c k = some v := by
  simp only [fmtRe, Re.plus, Re.run]
  rw [if_pos (by decide), starG_of_not hs]
  exact h

theorem pad2_val {n : Nat} (h : n ≤ 99) : natOfDigits ((pad2 n).filter isDigit) = n := by
  have h1 := digitVal_digitChar (n := n / 10) (by omega)
  have h2 := digitVal_digitChar (n := n % 10) (by omega)
  simp [pad2, List.filter, digitChar_isDigit, natOfDigits, h1, h2]
  omega

theorem pad4_val {n : Nat} (h : n ≤ 9999) : natOfDigits ((pad4 n).filter isDigit) = n := by
  have h1 := digitVal_digitChar (n := n / 1000) (by omega)
  have h2 := digitVal_digitChar (n := n / 100 % 10) (by omega)
  have h3 := digitVal_digitChar (n := n / 10 % 10) (by omega)
  have h4 := digitVal_digitChar (n := n % 10) (by omega)
  simp [pad4, List.filter, digitChar_isDigit, natOfDigits, h1, h2, h3, h4]
  omega

theorem monthLens_le (y m : Nat) : (monthLens y).getD (m - 1) 0 ≤ 31 := by
  unfold monthLens
  generalize m - 1 = i
  by_cases h : Leap y
  all_goals
    simp only [h, if_true, if_false]
    have hi : i = 0 ∨ i = 1 ∨ i = 2 ∨ i = 3 ∨ i = 4 ∨ i = 5 ∨ i = 6 ∨ i = 7 ∨ i = 8 ∨ i = 9 ∨ i = 10 ∨ i = 11 ∨ 12 ≤ i := by omega
    rcases hi with rfl | rfl | rfl | rfl | rfl | rfl | rfl | rfl | rfl | rfl | rfl | rfl | hi <;> first | decide | skip
    rw [List.getD_eq_getElem?_getD, List.getElem?_eq_none (by simpa using hi)]; simp

theorem pad2_head (n : Nat) (s : Str) : ∀ x xs, pad2 n ++ s = x :: xs → isSpace x = false := by
  intro x xs h
  simp only [pad2, List.cons_append, List.cons.injEq] at h
  rw [← h.1]
  exact digit_not_space (digitChar_isDigit _)

/-- `%Y-%m-%d %H:%M:%S` -/
theorem strptime_second {y m d h mi s : Nat} (hd : RealDate y m d) (ht : RealTime h mi s) :
    strptime [.field .Y, .lit '-', .field .m, .lit '-', .field .d, .space, .field .H, .lit ':', .field .M, .lit ':', .field .S]
      (dateText y m d ++ ' ' :: secondText h mi s) = some ⟨y, m, d, h, mi, s⟩ := by
  have hd0 := hd
  obtain ⟨h1, h2, h3, h4, h5, h6⟩ := hd
  have h31 := monthLens_le y m
  obtain ⟨t1, t2, t3⟩ := ht
  have hm : Re.match' (fmtRe [.field .Y, .lit '-', .field .m, .lit '-', .field .d, .space, .field .H, .lit ':', .field .M, .lit ':', .field .S])
      (dateText y m d ++ ' ' :: secondText h mi s) = some ([(6, pad2 s), (5, pad2 mi), (4, pad2 h), (3, pad2 d), (2, pad2 m), (1, pad4 y)], []) := by
    unfold Re.match' dateText secondText
    simp only [List.append_assoc, List.cons_append]
    refine step_field (fun hk => run_Y.trans hk) (step_lit (step_field (run_m h3 h4) (step_lit (step_field (run_d h5 (by omega)) (step_space (pad2_head _ _)
      (step_field (run_H t1) (step_lit (step_field (run_M t2) (step_lit ?_)))))))))
    rw [show pad2 s = pad2 s ++ [] by simp]
    exact step_field (run_S t3) rfl
  unfold strptime
  rw [hm]
  simp only
  have hv : (DateTime.mk y m d h mi s).valid = true := (valid_iff _).2 ⟨hd0, t1, t2, t3⟩
  simp only [fieldOr, Caps.get, Directive.group, List.find?]
  simp [pad4_val h2, pad2_val (show m ≤ 99 by omega), pad2_val (show d ≤ 99 by omega), pad2_val (show h ≤ 99 by omega), pad2_val (show mi ≤ 99 by omega),
    pad2_val (show s ≤ 99 by omega), hv]

/-- `%Y-%m-%d %H:%M` -/
theorem strptime_minute {y m d h mi : Nat} (hd : RealDate y m d) (ht : RealTime h mi 0) :
    strptime [.field .Y, .lit '-', .field .m, .lit '-', .field .d, .space, .field .H, .lit ':', .field .M] (dateText y m d ++ ' ' :: minuteText h mi) =
      some ⟨y, m, d, h, mi, 0⟩ := by
  have hd0 := hd
  obtain ⟨h1, h2, h3, h4, h5, h6⟩ := hd
  have h31 := monthLens_le y m
  obtain ⟨t1, t2, t3⟩ := ht
  have hm : Re.match' (fmtRe [.field .Y, .lit '-', .field .m, .lit '-', .field .d, .space, .field .H, .lit ':', .field .M])
      (dateText y m d ++ ' ' :: minuteText h mi) = some ([(5, pad2 mi), (4, pad2 h), (3, pad2 d), (2, pad2 m), (1, pad4 y)], []) := by
    unfold Re.match' dateText minuteText
    simp only [List.append_assoc, List.cons_append]
    refine step_field (fun hk => run_Y.trans hk) (step_lit (step_field (run_m h3 h4) (step_lit (step_field (run_d h5 (by omega)) (step_space (pad2_head _ _)
      (step_field (run_H t1) (step_lit ?_)))))))
    rw [show pad2 mi = pad2 mi ++ [] by simp]
    exact step_field (run_M t2) rfl
  unfold strptime
  rw [hm]
  simp only
  have hv : (DateTime.mk y m d h mi 0).valid = true := (valid_iff _).2 ⟨hd0, t1, t2, t3⟩
  simp only [fieldOr, Caps.get, Directive.group, List.find?]
  simp [pad4_val h2, pad2_val (show m ≤ 99 by omega), pad2_val (show d ≤ 99 by omega), pad2_val (show h ≤ 99 by omega), pad2_val (show mi ≤ 99 by omega), hv]

/-- `%Y-%m-%d` -/
theorem strptime_date {y m d : Nat} (hd : RealDate y m d) :
    strptime [.field .Y, .lit '-', .field .m, .lit '-', .field .d] (dateText y m d) = some ⟨y, m, d, 0, 0, 0⟩ := by
  have hd0 := hd
  obtain ⟨h1, h2, h3, h4, h5, h6⟩ := hd
  have h31 := monthLens_le y m
  have hm : Re.match' (fmtRe [.field .Y, .lit '-', .field .m, .lit '-', .field .d]) (dateText y m d) = some ([(3, pad2 d), (2, pad2 m), (1, pad4 y)], []) := by
    unfold Re.match' dateText
    refine step_field (fun hk => run_Y.trans hk) (step_lit (step_field (run_m h3 h4) (step_lit ?_)))
    rw [show pad2 d = pad2 d ++ [] by simp]
    exact step_field (run_d h5 (by omega)) rfl
  unfold strptime
  rw [hm]
  simp only
  have hv : (DateTime.mk y m d 0 0 0).valid = true := (valid_iff _).2 ⟨hd0, by simp [RealTime]⟩
  simp only [fieldOr, Caps.get, Directive.group, List.find?]
  simp [pad4_val h2, pad2_val (show m ≤ 99 by omega), pad2_val (show d ≤ 99 by omega), hv]

/-- `%H:%M:%S` -/
theorem strptime_clock {h mi s : Nat} (ht : RealTime h mi s) :
    strptime [.field .H, .lit ':', .field .M, .lit ':', .field .S] (secondText h mi s) = some ⟨1900, 1, 1, h, mi, s⟩ := by
  obtain ⟨t1, t2, t3⟩ := ht
  have hm : Re.match' (fmtRe [.field .H, .lit ':', .field .M, .lit ':', .field .S]) (secondText h mi s) = some ([(6, pad2 s), (5, pad2 mi), (4, pad2 h)], []) := by
    unfold Re.match' secondText
    refine step_field (run_H t1) (step_lit (step_field (run_M t2) (step_lit ?_)))
    rw [show pad2 s = pad2 s ++ [] by simp]
    exact step_field (run_S t3) rfl
  unfold strptime
  rw [hm]
  simp only
  have hv : (DateTime.mk 1900 1 1 h mi s).valid = true := (valid_iff _).2 ⟨by simp [RealDate, monthLens], t1, t2, t3⟩
  simp only [fieldOr, Caps.get, Directive.group, List.find?]
  simp [pad2_val (show h ≤ 99 by omega), pad2_val (show mi ≤ 99 by omega), pad2_val (show s ≤ 99 by omega), hv]

/-- `%H:%M` -/
theorem strptime_hm {h mi : Nat} (ht : RealTime h mi 0) : strptime [.field .H, .lit ':', .field .M] (minuteText h mi) = some ⟨1900, 1, 1, h, mi, 0⟩ := by
  obtain ⟨t1, t2, t3⟩ := ht
  have hm : Re.match' (fmtRe [.field .H, .lit ':', .field .M]) (minuteText h mi) = some ([(5, pad2 mi), (4, pad2 h)], []) := by
    unfold Re.match' minuteText
    refine step_field (run_H t1) (step_lit ?_)
    rw [show pad2 mi = pad2 mi ++ [] by simp]
    exact step_field (run_M t2) rfl
  unfold strptime
  rw [hm]
  simp only
  have hv : (DateTime.mk 1900 1 1 h mi 0).valid = true := (valid_iff _).2 ⟨by simp [RealDate, monthLens], t1, t2, t3⟩
  simp only [fieldOr, Caps.get, Directive.group, List.find?]
  simp [pad2_val (show h ≤ 99 by omega), pad2_val (show mi ≤ 99 by omega), hv]

/-! ### Other patterns and `float` refuse them -/

theorem strptime_count {f : List FmtItem} {s : Str} (ch : Char) (h1 : isDigit ch = false) (h2 : isSpace ch = false) (hne : s.count ch ≠ f.count (.lit ch)) :
    strptime f s = none := by
  cases h : strptime f s with
  | none => rfl
  | some t =>
    obtain ⟨c, hf, _⟩ := strptime_fits h
    exact absurd (fits_count ch h1 h2 hf) hne

theorem strip_ends {a b : Char} {s : Str} (ha : isSpace a = false) (hb : isSpace b = false) : strip (a :: (s ++ [b])) = a :: (s ++ [b]) := by
  unfold strip
  rw [List.dropWhile_cons, if_neg (by simp [ha])]
  rw [show (a :: (s ++ [b])).reverse = b :: (a :: s).reverse by simp]
  rw [List.dropWhile_cons, if_neg (by simp [hb])]
  simp

theorem takeWhile_append_stop {p : Char → Bool} {d : Str} {x : Char} {r : Str} (hd : ∀ c ∈ d, p c = true) (hx : p x = false) :
    (d ++ x :: r).takeWhile p = d ∧ (d ++ x :: r).dropWhile p = x :: r := by
  induction d with
  | nil => simp [hx]
  | cons c d ih =>
    have := ih (fun y hy => hd y (List.mem_cons_of_mem _ hy))
    simp [hd c (by simp), this.1, this.2]

/-- `float` refuses digits followed by anything but a point, an exponent or an underscore. -/
theorem floatInt_none {a b x : Char} {d r s : Str} (hs : a :: (s ++ [b]) = (a :: d) ++ x :: r) (ha : isDigit a = true) (hb : isDigit b = true)
    (hd : ∀ c ∈ d, isDigit c = true) (hx : isDigit x = false) (hx' : x ∉ ['.', 'e', 'E', '_']) : floatInt (a :: (s ++ [b])) = none := by
  unfold floatInt
  rw [strip_ends (digit_not_space ha) (digit_not_space hb), hs]
  simp only
  split
  · rfl
  · have hfil : ((a :: d) ++ x :: r).filter (· ≠ '_') = a :: (d ++ x :: r.filter (· ≠ '_')) := by
      have hdig : ∀ c, isDigit c = true → c ≠ '_' := by rintro c hc rfl; revert hc; decide
      have h1 : (a :: d).filter (· ≠ '_') = a :: d := by
        rw [List.filter_eq_self]
        intro c hc
        have : isDigit c = true := by
          rcases List.mem_cons.1 hc with rfl | hc
          · exact ha
          · exact hd c hc
        simpa using hdig c this
      rw [List.filter_append, h1, List.filter_cons]
      simp only [List.mem_cons, List.not_mem_nil, or_false, not_or] at hx'
      simp [hx'.2.2.2]
    rw [hfil]
    have habs : floatAbs (a :: (d ++ x :: r.filter (· ≠ '_'))) = none := by
      have hall : ∀ c ∈ a :: d, isDigit c = true := by
        intro c hc
        rcases List.mem_cons.1 hc with rfl | hc
        · exact ha
        · exact hd c hc
      obtain ⟨e1, e2⟩ := takeWhile_append_stop (p := isDigit) (d := a :: d) (x := x) (r := r.filter (· ≠ '_')) hall hx
      rw [List.cons_append] at e1 e2
      simp only [List.mem_cons, List.not_mem_nil, or_false, not_or] at hx'
      have e3 : floatExp (x :: r.filter (· ≠ '_')) = none := by
        unfold floatExp
        simp only
        rw [if_neg (by simp [hx'.2.1, hx'.2.2.1])]
      unfold floatAbs
      simp only [e1, e2]
      split
      · rename_i h'
        cases h'
        exact absurd rfl hx'.1
      · simp only [e3]; split <;> rfl
    split
    · rename_i h; cases h; exact absurd ha (by decide)
    · rename_i h; cases h; exact absurd ha (by decide)
    · rw [habs]; rfl

/-! ### Shapes of texts -/

theorem fits_field {x : Directive} {f : List FmtItem} {s : Str} {c c' : Caps} (h : Fits (.field x :: f) s c c') :
    ∃ w s', s = w ++ s' ∧ (∀ ch ∈ w, FieldChar ch) ∧ 1 ≤ w.length ∧ w.length ≤ (if x = .Y then 4 else 2) ∧ Fits f s' ((x.group, w) :: c) c' := by
  cases h with
  | field h1 h2 h3 h4 => exact ⟨_, _, rfl, h1, h2, h3, h4⟩

theorem fits_lit {x : Char} {f : List FmtItem} {s : Str} {c c' : Caps} (h : Fits (.lit x :: f) s c c') : ∃ s', s = x :: s' ∧ Fits f s' c c' := by
  cases h with
  | lit h => exact ⟨_, rfl, h⟩

theorem fits_space {f : List FmtItem} {s : Str} {c c' : Caps} (h : Fits (.space :: f) s c c') :
    ∃ w s', s = w ++ s' ∧ (∀ ch ∈ w, isSpace ch = true) ∧ w ≠ [] ∧ Fits f s' c c' := by
  cases h with
  | space h1 h2 h3 => exact ⟨_, _, rfl, h1, h2, h3⟩

theorem fits_nil {s : Str} {c c' : Caps} (h : Fits [] s c c') : s = [] ∧ c' = c := by
  cases h; exact ⟨rfl, rfl⟩

theorem split_unique {x : Char} : ∀ {w w' s s' : Str}, x ∉ w → x ∉ w' → w ++ x :: s = w' ++ x :: s' → w = w' ∧ s = s'
  | [], [], s, s', _, _, h => by simpa using h
  | [], y :: w', s, s', _, h2, h => by
    simp only [List.nil_append, List.cons_append, List.cons.injEq] at h
    exact absurd (by rw [h.1]; simp) h2
  | y :: w, [], s, s', h1, _, h => by
    simp only [List.nil_append, List.cons_append, List.cons.injEq] at h
    exact absurd (by rw [h.1]; simp) h1
  | y :: w, y' :: w', s, s', h1, h2, h => by
    simp only [List.cons_append, List.cons.injEq] at h
    obtain ⟨e1, e2⟩ := split_unique (fun hm => h1 (List.mem_cons_of_mem _ hm)) (fun hm => h2 (List.mem_cons_of_mem _ hm)) h.2
    exact ⟨by rw [h.1, e1], e2⟩

theorem field_not {x : Char} {w : Str} (hw : ∀ ch ∈ w, FieldChar ch) (h1 : isDigit x = false) (h2 : x ≠ ' ') : x ∉ w := by
  intro h
  rcases hw x h with h | h
  · rw [h] at h1; cases h1
  · exact h2 h

theorem pad2_not {x : Char} (n : Nat) (h1 : isDigit x = false) : x ∉ pad2 n := by
  intro h
  simp only [pad2, List.mem_cons, List.not_mem_nil, or_false] at h
  rcases h with rfl | rfl <;> rw [digitChar_isDigit] at h1 <;> cases h1

theorem pad4_not {x : Char} (n : Nat) (h1 : isDigit x = false) : x ∉ pad4 n := by
  intro h
  simp only [pad4, List.mem_cons, List.not_mem_nil, or_false] at h
  rcases h with rfl | rfl | rfl | rfl <;> rw [digitChar_isDigit] at h1 <;> cases h1

/-- The day and the hour are separated by the space. -/
theorem day_hour {d h : Nat} {w u v r s : Str} (hd : w.length ≤ 2) (hu : ∀ ch ∈ u, isSpace ch = true) (hu0 : u ≠ []) (hv : v.length ≤ 2)
    (hv1 : 1 ≤ w.length) (hvn : ':' ∉ v) (e : pad2 d ++ ' ' :: (pad2 h ++ ':' :: r) = w ++ (u ++ (v ++ ':' :: s))) : w = pad2 d ∧ v = pad2 h ∧ r = s := by
  have hdig : ∀ n c, c ∈ pad2 n → isSpace c = false := by
    intro n c hc
    simp only [pad2, List.mem_cons, List.not_mem_nil, or_false] at hc
    rcases hc with rfl | rfl <;> exact digit_not_space (digitChar_isDigit _)
  obtain ⟨x, u', rfl⟩ : ∃ x u', u = x :: u' := by
    cases u with
    | nil => exact absurd rfl hu0
    | cons x u' => exact ⟨x, u', rfl⟩
  have hx := hu x (by simp)
  match w, hd, hv1 with
  | [a], _, _ =>
    simp only [pad2, List.cons_append, List.nil_append, List.cons.injEq] at e
    have := digit_not_space (digitChar_isDigit (d % 10))
    rw [e.2.1, hx] at this; cases this
  | [a, b], _, _ =>
    simp only [pad2, List.cons_append, List.nil_append, List.cons.injEq] at e
    obtain ⟨ea, eb, _, e⟩ := e
    refine ⟨by simp [pad2, ea, eb], ?_⟩
    cases u' with
    | nil =>
      obtain ⟨e1, e2⟩ := split_unique (w := pad2 h) (w' := v) (pad2_not h (by decide)) hvn (by simpa [pad2] using e)
      exact ⟨e1.symm, e2⟩
    | cons y u' =>
      simp only [List.cons_append, List.cons.injEq] at e
      have := digit_not_space (digitChar_isDigit (h / 10))
      rw [e.1, hu y (by simp)] at this; cases this

theorem pyInt_none {a b x : Char} {d r s : Str} (hs : a :: (s ++ [b]) = (a :: d) ++ x :: r) (ha : isDigit a = true) (hb : isDigit b = true)
    (hd : ∀ c ∈ d, isDigit c = true) (hx : isDigit x = false) (hx' : x ≠ '_') : pyInt (a :: (s ++ [b])) = none := by
  have key : ∀ (d : Str) p acc, (∀ c ∈ d, isDigit c = true) → intDigits p acc (d ++ x :: r) = none := by
    intro d
    induction d with
    | nil => intro p acc _; simp [intDigits, hx, hx']
    | cons c d ih =>
      intro p acc h
      rw [List.cons_append, intDigits, if_pos (h c (by simp))]
      exact ih _ _ (fun y hy => h y (List.mem_cons_of_mem _ hy))
  unfold pyInt
  rw [strip_ends (digit_not_space ha) (digit_not_space hb), hs]
  have := key (a :: d) false 0 (by
    intro c hc
    rcases List.mem_cons.1 hc with rfl | hc
    · exact ha
    · exact hd c hc)
  split
  · rename_i h; cases h; exact absurd ha (by decide)
  · rename_i h; cases h; exact absurd ha (by decide)
  · rw [this]; rfl

theorem durationText_last : ∀ (ps : List (Str × Char)) c, (∀ p ∈ ps, Digits p.1 ∧ isDigit p.2 = false) → (durationText ps).getLast? = some c → isDigit c = false := by
  intro ps
  induction ps with
  | nil => intro c _ hc; simp [durationText] at hc
  | cons p ps ih =>
    intro c hp hc
    have ht : durationText (p :: ps) = p.1 ++ p.2 :: durationText ps := by simp [durationText]
    rw [ht] at hc
    cases hps : durationText ps with
    | nil => rw [hps] at hc; simp at hc; rw [← hc]; exact (hp p (by simp)).2
    | cons y ys =>
      apply ih c (fun q hq => hp q (by simp [hq]))
      rw [hps] at hc ⊢
      rw [show p.1 ++ p.2 :: y :: ys = (p.1 ++ [p.2]) ++ y :: ys by simp, List.getLast?_append] at hc
      cases hg : (y :: ys).getLast? with
      | none => simp at hg
      | some z => rw [hg] at hc; simpa using hc

theorem parseDuration_none {s : Str} {b : Char} (h : pyInt (s ++ [b]) = none) (hb : isDigit b = true) : parseDuration (s ++ [b]) = none := by
  cases hp : parseDuration (s ++ [b]) with
  | none => rfl
  | some v =>
    rcases (parseDuration_iff _ v).1 hp with ⟨n, hn, _⟩ | ⟨_, ps, h1, h2, _⟩
    · rw [h] at hn; cases hn
    · have := durationText_last ps b h1 (by rw [← h2, List.getLast?_concat])
      rw [hb] at this; cases this

end FF
