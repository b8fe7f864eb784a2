import Verif.Spec.Patterns
import Verif.Model.Manual
import Verif.Props.Time
import Verif.Lemmas.Arguments
/-! C113: values that are written like the patterns for times in the manual. -/
namespace FF
open Spec

/-- The patterns of the manual, as they are shown. -/
theorem timePatterns_eq : timePatterns = (["YY-mm-dd HH:MM:SS", "YY-mm-dd HH:MM", "YYmmddHHMM", "YY-mm-dd", "YYmmdd", "HH:MM:SS", "HH:MM", "HHMM"] : List String).flatMap
    fun p => ["    ``".toList ++ p.toList ++ "``".toList, []] := by decide +kernel

theorem digitChar_val {c : Char} (h : isDigit c = true) : digitChar (digitVal c) = c ∧ digitVal c < 10 := by
  have := (mem_digits (c := c) (d := digitVal c)).2 ⟨h, rfl⟩
  simp only [digits, List.mem_cons, List.not_mem_nil, or_false, Prod.mk.injEq] at this
  rcases this with ⟨rfl, e⟩ | ⟨rfl, e⟩ | ⟨rfl, e⟩ | ⟨rfl, e⟩ | ⟨rfl, e⟩ | ⟨rfl, e⟩ | ⟨rfl, e⟩ | ⟨rfl, e⟩ | ⟨rfl, e⟩ | ⟨rfl, e⟩ <;> decide

theorem two_digits {a b : Char} (ha : isDigit a = true) (hb : isDigit b = true) : ∃ n ≤ 99, pad2 n = [a, b] := by
  obtain ⟨h1, h2⟩ := digitChar_val ha
  obtain ⟨h3, h4⟩ := digitChar_val hb
  refine ⟨digitVal a * 10 + digitVal b, by omega, ?_⟩
  unfold pad2
  rw [show (digitVal a * 10 + digitVal b) / 10 = digitVal a by omega, show (digitVal a * 10 + digitVal b) % 10 = digitVal b by omega, h1, h3]

/-- The parts of a value. -/
theorem written_letter {p : Char} {ps v : Str} (hp : p.isAlpha = true) (h : WrittenLike (p :: ps) v) : ∃ c cs, v = c :: cs ∧ isDigit c = true ∧ WrittenLike ps cs := by
  cases v with
  | nil => exact h.elim
  | cons c cs =>
    unfold WrittenLike at h
    rw [if_pos hp] at h
    exact ⟨c, cs, rfl, h.1, h.2⟩

theorem written_other {p : Char} {ps v : Str} (hp : p.isAlpha = false) (h : WrittenLike (p :: ps) v) : ∃ cs, v = p :: cs ∧ WrittenLike ps cs := by
  cases v with
  | nil => exact h.elim
  | cons c cs =>
    unfold WrittenLike at h
    rw [if_neg (by rw [hp]; decide)] at h
    exact ⟨cs, by rw [h.1], h.2⟩

theorem written_nil {v : Str} (h : WrittenLike [] v) : v = [] := by
  cases v with
  | nil => rfl
  | cons => exact h.elim

theorem written_pair {p q : Char} {ps v : Str} (hp : p.isAlpha = true) (hq : q.isAlpha = true) (h : WrittenLike (p :: q :: ps) v) : ∃ n ≤ 99, ∃ cs, v = pad2 n ++ cs ∧ WrittenLike ps cs := by
  obtain ⟨a, v, rfl, ha, w1⟩ := written_letter hp h
  obtain ⟨b, v, rfl, hb, w2⟩ := written_letter hq w1
  obtain ⟨n, hn, e⟩ := two_digits ha hb
  exact ⟨n, hn, v, by rw [e]; rfl, w2⟩

theorem written_date {ps v : Str} (h : WrittenLike ('Y' :: 'Y' :: '-' :: 'm' :: 'm' :: '-' :: 'd' :: 'd' :: ps) v) : ∃ y ≤ 99, ∃ m ≤ 99, ∃ d ≤ 99, ∃ cs, v = pad2 y ++ '-' :: (pad2 m ++ '-' :: (pad2 d ++ cs)) ∧ WrittenLike ps cs := by
  obtain ⟨y, hy, v, rfl, w1⟩ := written_pair (by decide) (by decide) h
  obtain ⟨v, rfl, w2⟩ := written_other (by decide) w1
  obtain ⟨m, hm, v, rfl, w3⟩ := written_pair (by decide) (by decide) w2
  obtain ⟨v, rfl, w4⟩ := written_other (by decide) w3
  obtain ⟨d, hd, v, rfl, w5⟩ := written_pair (by decide) (by decide) w4
  exact ⟨y, hy, m, hm, d, hd, v, rfl, w5⟩

theorem written_minute {v : Str} (h : WrittenLike ['H', 'H', ':', 'M', 'M'] v) : ∃ h ≤ 99, ∃ mi ≤ 99, v = minuteText h mi := by
  obtain ⟨y, hy, v, rfl, w1⟩ := written_pair (by decide) (by decide) h
  obtain ⟨v, rfl, w2⟩ := written_other (by decide) w1
  obtain ⟨m, hm, v, rfl, w3⟩ := written_pair (by decide) (by decide) w2
  rw [written_nil w3]
  exact ⟨y, hy, m, hm, by simp [minuteText]⟩

theorem written_second {v : Str} (h : WrittenLike ['H', 'H', ':', 'M', 'M', ':', 'S', 'S'] v) : ∃ h ≤ 99, ∃ mi ≤ 99, ∃ s ≤ 99, v = secondText h mi s := by
  obtain ⟨y, hy, v, rfl, w1⟩ := written_pair (by decide) (by decide) h
  obtain ⟨v, rfl, w2⟩ := written_other (by decide) w1
  obtain ⟨m, hm, v, rfl, w3⟩ := written_pair (by decide) (by decide) w2
  obtain ⟨v, rfl, w4⟩ := written_other (by decide) w3
  obtain ⟨d, hd, v, rfl, w5⟩ := written_pair (by decide) (by decide) w4
  rw [written_nil w5]
  exact ⟨y, hy, m, hm, d, hd, by simp [secondText]⟩

/-- A year needs four digits. -/
theorem strptime_year {f : List FmtItem} {y : Nat} {r : Str} : strptime (.field .Y :: f) (pad2 y ++ '-' :: r) = none := by
  have hd : isDigit '-' = false := by decide
  have : Re.match' (fmtRe (.field .Y :: f)) (pad2 y ++ '-' :: r) = none := by
    simp [Re.match', fmtRe, Directive.re, Re.seqs, Re.run, pad2, digitChar_isDigit, hd]
  unfold strptime
  rw [this]

theorem short_year (z : Zone) (now : Int) {y m d : Nat} {cs : Str} (hc : Canon (pad2 y ++ '-' :: (pad2 m ++ '-' :: (pad2 d ++ cs))))
    {pre post : List (Bool × List FmtItem)} {k : Bool} {f : List FmtItem} (he : timeFormats = pre ++ (k, .field .Y :: f) :: post)
    (hpre : ∀ g ∈ pre ++ post, cs.count ':' ≠ g.2.count (.lit ':') ∨ 2 + cs.count '-' ≠ g.2.count (.lit '-')) :
    parseTime (localTimes z now) (pad2 y ++ '-' :: (pad2 m ++ '-' :: (pad2 d ++ cs))) = none := by
  rw [parse_formats hc, first_count he, strptime_year, Option.map_none]
  intro g hg
  have c1 : (pad2 y ++ '-' :: (pad2 m ++ '-' :: (pad2 d ++ cs))).count ':' = cs.count ':' := by
    simp [count_pad2, List.count_append, List.count_cons, show isDigit ':' = false by decide]
  have c2 : (pad2 y ++ '-' :: (pad2 m ++ '-' :: (pad2 d ++ cs))).count '-' = 2 + cs.count '-' := by
    simp [count_pad2, List.count_append, List.count_cons, show isDigit '-' = false by decide]
    omega
  rw [c1, c2]
  exact hpre g hg

theorem canon_short (y m d : Nat) (q : Str) (n : Nat) : Canon (pad2 y ++ '-' :: (pad2 m ++ '-' :: (pad2 d ++ (q ++ pad2 n)))) :=
  ⟨digitChar (y / 10), [digitChar (y % 10)], '-', pad2 m ++ '-' :: (pad2 d ++ q), n, by simp [pad2], digitChar_isDigit _, by simp [digitChar_isDigit], .inl rfl⟩

/-- C113, negated: three of the patterns of the manual start with `YY-mm-dd`. Every value that is written like one of these is refused, as years need four digits. -/
theorem C113_false (z : Zone) (now : Int) {p : String} (hp : p ∈ ["YY-mm-dd", "YY-mm-dd HH:MM", "YY-mm-dd HH:MM:SS"]) :
    "    ``".toList ++ p.toList ++ "``".toList ∈ timePatterns ∧ ∀ v, WrittenLike p.toList v → parseTime (localTimes z now) v = none := by
  refine ⟨?_, fun v hv => ?_⟩
  · rw [timePatterns_eq]
    refine List.mem_flatMap.2 ⟨p, ?_, by simp⟩
    simp only [List.mem_cons, List.not_mem_nil, or_false] at hp ⊢
    rcases hp with rfl | rfl | rfl <;> simp
  · simp only [List.mem_cons, List.not_mem_nil, or_false] at hp
    rcases hp with rfl | rfl | rfl
    · obtain ⟨y, -, m, -, d, -, cs, rfl, h⟩ := written_date (ps := []) hv
      rw [written_nil h]
      refine short_year z now (cs := []) ?_ (pre := timeFormats.take 3) (post := timeFormats.drop 4) rfl ?_
      · exact ⟨digitChar (y / 10), [digitChar (y % 10)], '-', pad2 m ++ ['-'], d, by simp [pad2], digitChar_isDigit _, by simp [digitChar_isDigit], .inl rfl⟩
      · decide
    · obtain ⟨y, -, m, -, d, -, cs, rfl, h⟩ := written_date (ps := [' ', 'H', 'H', ':', 'M', 'M']) hv
      obtain ⟨cs, rfl, w1⟩ := written_other (by decide) h
      obtain ⟨a, -, b, -, rfl⟩ := written_minute w1
      refine short_year z now ?_ (pre := timeFormats.take 1) (post := timeFormats.drop 2) rfl ?_
      · have := canon_short y m d (' ' :: (pad2 a ++ [':'])) b
        simpa [minuteText] using this
      · have c1 : (' ' :: minuteText a b).count ':' = 1 := by
          simp [minuteText, count_pad2, List.count_append, List.count_cons, show isDigit ':' = false by decide]
        have c2 : (' ' :: minuteText a b).count '-' = 0 := by
          simp [minuteText, count_pad2, List.count_append, List.count_cons, show isDigit '-' = false by decide]
        rw [c1, c2]
        decide
    · obtain ⟨y, -, m, -, d, -, cs, rfl, h⟩ := written_date (ps := [' ', 'H', 'H', ':', 'M', 'M', ':', 'S', 'S']) hv
      obtain ⟨cs, rfl, w2⟩ := written_other (by decide) h
      obtain ⟨a, -, b, -, s, -, rfl⟩ := written_second w2
      refine short_year z now ?_ (pre := []) (post := timeFormats.drop 1) rfl ?_
      · have := canon_short y m d (' ' :: (pad2 a ++ ':' :: (pad2 b ++ [':']))) s
        simpa [secondText] using this
      · have c1 : (' ' :: secondText a b s).count ':' = 2 := by
          simp [secondText, count_pad2, List.count_append, List.count_cons, show isDigit ':' = false by decide]
        have c2 : (' ' :: secondText a b s).count '-' = 0 := by
          simp [secondText, count_pad2, List.count_append, List.count_cons, show isDigit '-' = false by decide]
        rw [c1, c2]
        decide

theorem written_digits {p v : Str} (hp : ∀ c ∈ p, c.isAlpha = true) (h : WrittenLike p v) : v.length = p.length ∧ ∀ c ∈ v, isDigit c = true := by
  induction p generalizing v with
  | nil => rw [written_nil h]; simp
  | cons x p ih =>
    obtain ⟨c, cs, rfl, hc, w1⟩ := written_letter (hp x (by simp)) h
    obtain ⟨h1, h2⟩ := ih (fun c hc => hp c (List.mem_cons_of_mem _ hc)) w1
    exact ⟨by simp [h1], by simpa using ⟨hc, h2⟩⟩

theorem natOfDigits_bound (v : Str) (h : ∀ c ∈ v, isDigit c = true) : natOfDigits v < 10 ^ v.length := by
  have : ∀ (v : Str) (n : Nat), (∀ c ∈ v, isDigit c = true) → v.foldl (fun n c => n * 10 + digitVal c) n < (n + 1) * 10 ^ v.length := by
    intro v
    induction v with
    | nil => intro n _; simp
    | cons c v ih =>
      intro n h
      have h1 := ih (n * 10 + digitVal c) fun x hx => h x (List.mem_cons_of_mem _ hx)
      have h2 := (digitChar_val (h c (by simp))).2
      rw [List.foldl_cons]
      refine Nat.lt_of_lt_of_le h1 ?_
      rw [List.length_cons, Nat.pow_succ, Nat.mul_comm (10 ^ v.length) 10, ← Nat.mul_assoc]
      exact Nat.mul_le_mul_right _ (by omega)
  simpa [natOfDigits] using this v 0 h

/-- C113, negated: three more patterns consist of letters only. Every value that is written like one of these is taken for seconds. -/
theorem C113_number_false (z : Zone) (now : Int) {p : String} (hp : p ∈ ["YYmmddHHMM", "YYmmdd", "HHMM"]) :
    "    ``".toList ++ p.toList ++ "``".toList ∈ timePatterns ∧ ∀ v, WrittenLike p.toList v → parseTime (localTimes z now) v = some (natOfDigits v : Nat) := by
  refine ⟨?_, fun v hv => ?_⟩
  · rw [timePatterns_eq]
    refine List.mem_flatMap.2 ⟨p, ?_, by simp⟩
    simp only [List.mem_cons, List.not_mem_nil, or_false] at hp ⊢
    rcases hp with rfl | rfl | rfl <;> simp
  · have ha : (∀ c ∈ p.toList, c.isAlpha = true) ∧ p.toList.length ≤ 10 ∧ p.toList ≠ [] := by
      simp only [List.mem_cons, List.not_mem_nil, or_false] at hp
      rcases hp with rfl | rfl | rfl <;> decide
    obtain ⟨h1, h2⟩ := written_digits ha.1 hv
    refine C25_number_partial z now ⟨?_, h2⟩ ?_
    · intro e
      rw [e] at h1
      exact ha.2.2 (List.length_eq_zero_iff.1 h1.symm)
    · have := natOfDigits_bound v h2
      have h10 : 10 ^ v.length ≤ 10 ^ 10 := Nat.pow_le_pow_right (by omega) (by omega)
      have : (10 : Nat) ^ 10 < 2 ^ 53 := by decide
      omega

/-- C113 (partial: only the two patterns for times of day with colons; values that denote no time are refused by C69): a value that is written like one of them is the last such
time that is not in the future. -/
theorem C113_times_partial (z : Zone) (now : Int) (hn : 0 ≤ now + z now) {p : String} (hp : p ∈ ["HH:MM", "HH:MM:SS"]) :
    "    ``".toList ++ p.toList ++ "``".toList ∈ timePatterns ∧ ∀ v, WrittenLike p.toList v → ∃ h mi s, (v = secondText h mi s ∨ s = 0 ∧ v = minuteText h mi) ∧
      (RealTime h mi s → ∀ t : Int, t % 86400 = h * 3600 + mi * 60 + s → t ≤ now + z now → now + z now < t + 86400 → OneChange z t → (∃ u, u + z u = t) →
        ∃ u, parseTime (localTimes z now) v = some u ∧ FirstShown z t u) := by
  refine ⟨?_, fun v hv => ?_⟩
  · rw [timePatterns_eq]
    refine List.mem_flatMap.2 ⟨p, ?_, by simp⟩
    simp only [List.mem_cons, List.not_mem_nil, or_false] at hp ⊢
    rcases hp with rfl | rfl <;> simp
  · simp only [List.mem_cons, List.not_mem_nil, or_false] at hp
    rcases hp with rfl | rfl
    · obtain ⟨h, -, mi, -, rfl⟩ := written_minute hv
      refine ⟨h, mi, 0, .inr ⟨rfl, rfl⟩, fun hr t h1 h2 h3 h4 h5 => ?_⟩
      obtain ⟨u, -, h6, h7⟩ := C69_time z now hr hn h1 h2 h3 h4 h5
      exact ⟨u, h6 rfl, h7⟩
    · obtain ⟨h, -, mi, -, s, -, rfl⟩ := written_second hv
      refine ⟨h, mi, s, .inl rfl, fun hr t h1 h2 h3 h4 h5 => ?_⟩
      obtain ⟨u, h6, -, h7⟩ := C69_time z now hr hn h1 h2 h3 h4 h5
      exact ⟨u, h6, h7⟩

/-- Such values: a date with two digits for the year, and one for the year 2024 without separators. -/
example : WrittenLike ['Y', 'Y', '-', 'm', 'm', '-', 'd', 'd'] ['2', '4', '-', '0', '3', '-', '2', '3'] := by simp [WrittenLike]; decide
example : WrittenLike ['Y', 'Y', 'm', 'm', 'd', 'd'] ['2', '4', '0', '3', '2', '3'] ∧ parseTime (localTimes (fun _ => 0) 0) ['2', '4', '0', '3', '2', '3'] = some 240323 := by
  refine ⟨?_, by decide +kernel⟩
  simp [WrittenLike]; decide
example : WrittenLike ['H', 'H', ':', 'M', 'M'] ['1', '4', ':', '2', '6'] ∧ OneChange (fun _ => 7200) (1600000000 + 7200 - 40) := by
  refine ⟨by simp [WrittenLike]; decide, ?_⟩
  unfold OneChange
  simp
  exact ⟨0, 7200, 7200, by omega, by omega, fun u _ _ => by simp⟩

end FF
