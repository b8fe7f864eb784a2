import Verif.Lemmas.Size
import Verif.Lemmas.Double
/-! C22–C25: durations, sizes and times. -/
namespace FF
open Spec

/-! ### Durations -/

/-- Number of seconds denoted by counts with documented units. -/
def durationTotal (ps : List (Str × Char × Nat)) : Nat := (ps.map (fun p => natOfDigits p.1 * p.2.2)).sum

theorem unitFactor_spec : ∀ x ∈ durationUnits, unitFactor x.1 = x.2 ∧ isUnit x.1 = true := by decide

/-- C22: a non-empty sequence of counts with documented units is parsed to the sum of its parts. -/
theorem C22_sum (ps : List (Str × Char × Nat)) (hne : ps ≠ []) (h : ∀ p ∈ ps, Digits p.1 ∧ p.2 ∈ durationUnits) :
    parseDuration (durationText (ps.map (fun p => (p.1, p.2.1)))) = some ((durationTotal ps : Nat) : Int) := by
  have hpieces : Pieces (ps.map (fun p => (p.1, p.2.1))) := by
    intro q hq
    obtain ⟨p, hp, rfl⟩ := List.mem_map.1 hq
    exact ⟨(h p hp).1, unit_not_digit (unitFactor_spec _ (h p hp).2).2⟩
  have hsum : ∀ l : List (Str × Char × Nat), (∀ p ∈ l, Digits p.1 ∧ p.2 ∈ durationUnits) →
      durSum (l.map (fun p => (p.1, p.2.1))) = durationTotal l := by
    intro l
    induction l with
    | nil => intro _; rfl
    | cons p l ih =>
      intro hl
      have := (unitFactor_spec _ (hl p (by simp)).2).1
      simp only [List.map_cons, durSum, durationTotal, List.sum_cons, this]
      rw [ih (fun q hq => hl q (by simp [hq]))]; rfl
  rw [parseDuration_iff]
  right
  refine ⟨?_, _, hpieces, rfl, by rw [hsum ps h]⟩
  cases hi : pyInt (durationText (ps.map (fun p => (p.1, p.2.1)))) with
  | none => rfl
  | some n =>
    exfalso
    cases ps with
    | nil => exact hne rfl
    | cons p ps =>
      have hu := (h p (by simp)).2
      have := pyInt_chars hi p.2.1 (by simp [durationText])
      revert this hu
      generalize p.2 = q
      revert q
      simp only [durationUnits, List.mem_cons, List.not_mem_nil, or_false]
      rintro q (rfl | rfl | rfl | rfl | rfl | rfl | rfl) <;> decide

/-- C22: parsing the human-readable rendering gives the number back, for every number of seconds. -/
theorem C22_roundtrip (n : Nat) : parseDuration (formatDuration n) = some (n : Int) := by
  have d2 : ∀ k, Digits (natStr2 k) := fun k => ⟨(natStr2_spec k).2.2, (natStr2_spec k).2.1⟩
  have d1 : ∀ k, Digits (natStr k) := fun k => ⟨natStr_ne_nil k, natStr_digits k⟩
  unfold formatDuration
  simp only
  split
  · have := C22_sum [(natStr (n / 3600), 'h', 60 * 60), (natStr2 (n % 3600 / 60), 'm', 60), (natStr2 (n % 60), 's', 1)] (by simp) (by
      intro p hp
      simp only [List.mem_cons, List.not_mem_nil, or_false] at hp
      rcases hp with rfl | rfl | rfl
      · exact ⟨d1 _, by simp [durationUnits]⟩
      · exact ⟨d2 _, by simp [durationUnits]⟩
      · exact ⟨d2 _, by simp [durationUnits]⟩)
    simp only [durationText, durationTotal, List.map_cons, List.map_nil, List.flatMap_cons, List.flatMap_nil, List.sum_cons, List.sum_nil,
      natOfDigits_natStr, (natStr2_spec _).1] at this
    rw [show natStr (n / 3600) ++ ['h'] ++ natStr2 (n % 3600 / 60) ++ ['m'] ++ natStr2 (n % 60) ++ ['s'] =
      natStr (n / 3600) ++ ['h'] ++ (natStr2 (n % 3600 / 60) ++ ['m'] ++ (natStr2 (n % 60) ++ ['s'] ++ [])) by simp, this]
    congr 2; omega
  · rename_i h0
    have := C22_sum [(natStr (n % 3600 / 60), 'm', 60), (natStr2 (n % 60), 's', 1)] (by simp) (by
      intro p hp
      simp only [List.mem_cons, List.not_mem_nil, or_false] at hp
      rcases hp with rfl | rfl
      · exact ⟨d1 _, by simp [durationUnits]⟩
      · exact ⟨d2 _, by simp [durationUnits]⟩)
    simp only [durationText, durationTotal, List.map_cons, List.map_nil, List.flatMap_cons, List.flatMap_nil, List.sum_cons, List.sum_nil,
      natOfDigits_natStr, (natStr2_spec _).1] at this
    rw [show natStr (n % 3600 / 60) ++ ['m'] ++ natStr2 (n % 60) ++ ['s'] =
      natStr (n % 3600 / 60) ++ ['m'] ++ (natStr2 (n % 60) ++ ['s'] ++ []) by simp, this]
    congr 2; omega

/-- C22: a count without unit is in minutes. -/
theorem C22_minutes (d : Str) (h : Digits d) : parseDuration d = some ((60 * natOfDigits d : Nat) : Int) := by
  rw [parseDuration_iff]
  left
  exact ⟨_, pyInt_digits h.2 h.1, by omega⟩

example : Digits (natStr2 7) := ⟨by decide, by decide⟩
example : formatDuration 5425 = "1h30m25s".toList ∧ formatDuration 5 = "0m05s".toList := by decide
example : parseDuration "2w3d07s".toList = some (2 * 604800 + 3 * 86400 + 7) := by decide

/-- C23, what is true: apart from integers only alternating counts and single characters are accepted (of which those that are no
documented unit count nothing). Missing: the characters need not be units. -/
theorem C23_accept_iff_partial (s : Str) : (parseDuration s).isSome = true ↔
    (pyInt s).isSome = true ∨ ∃ ps : List (Str × Char), (∀ p ∈ ps, Digits p.1 ∧ isDigit p.2 = false) ∧ s = durationText ps := by
  constructor
  · intro h
    obtain ⟨v, hv⟩ := Option.isSome_iff_exists.1 h
    rcases (parseDuration_iff s v).1 hv with ⟨n, hn, _⟩ | ⟨_, ps, h1, h2, _⟩
    · exact .inl (by simp [hn])
    · exact .inr ⟨ps, h1, h2⟩
  · intro h
    cases hp : pyInt s with
    | some n => exact Option.isSome_iff_exists.2 ⟨_, (parseDuration_iff s _).2 (.inl ⟨n, hp, rfl⟩)⟩
    | none =>
      rw [hp] at h
      rcases h with h | ⟨ps, h1, h2⟩
      · cases h
      · exact Option.isSome_iff_exists.2 ⟨_, (parseDuration_iff s _).2 (.inr ⟨hp, ps, h1, h2, rfl⟩)⟩

/-- C23: a duration ending in a count without unit, after another part, is rejected. -/
theorem C23_missing_unit_partial (a : Str) (u : Char) (d : Str) (hu : isUnit u = true) (hd : Digits d) : parseDuration (a ++ u :: d) = none := by
  cases h : parseDuration (a ++ u :: d) with
  | none => rfl
  | some v =>
    exfalso
    rcases (parseDuration_iff _ v).1 h with ⟨n, hn, _⟩ | ⟨_, ps, h1, h2, _⟩
    · have := pyInt_chars hn u (by simp)
      simp only [isUnit, List.mem_cons, List.not_mem_nil, or_false, decide_eq_true_eq] at hu
      rcases hu with rfl | rfl | rfl | rfl | rfl | rfl | rfl <;> revert this <;> decide
    · have hlast : ∀ (ps : List (Str × Char)) c, (∀ p ∈ ps, Digits p.1 ∧ isDigit p.2 = false) → (durationText ps).getLast? = some c → isDigit c = false := by
        intro ps
        induction ps with
        | nil => intro c _ hc; simp [durationText] at hc
        | cons p ps ih =>
          intro c hp hc
          have ht : durationText (p :: ps) = p.1 ++ p.2 :: durationText ps := by simp [durationText]
          rw [ht] at hc
          cases hps : durationText ps with
          | nil => rw [hps] at hc; simp at hc; rw [← hc]; exact (hp p (by simp)).2
          | cons y ys =>
            apply ih c (fun q hq => hp q (by simp [hq]))
            rw [hps] at hc ⊢
            rw [show p.1 ++ p.2 :: y :: ys = (p.1 ++ [p.2]) ++ y :: ys by simp, List.getLast?_append] at hc
            cases hg : (y :: ys).getLast? with
            | none => simp at hg
            | some z => rw [hg] at hc; simpa using hc
      obtain ⟨d', x, rfl⟩ : ∃ d' x, d = d' ++ [x] := by
        rcases List.eq_nil_or_concat d with rfl | ⟨l, b, rfl⟩
        · exact absurd rfl hd.1
        · exact ⟨l, b, by simp⟩
      have := hlast ps x h1 (by rw [← h2, show a ++ u :: (d' ++ [x]) = (a ++ u :: d') ++ [x] by simp, List.getLast?_concat])
      rw [hd.2 x (by simp)] at this
      cases this

/-- C23 fails: `5x` and `5x3s` are accepted as durations of 0 and 3 seconds though `x` is no unit. -/
theorem C23_false : parseDuration "5x".toList = some 0 ∧ parseDuration "5x3s".toList = some 3 ∧ ('x' : Char) ∉ durationUnits.map Prod.fst := by decide

example : parseDuration "x5s".toList = none ∧ parseDuration "5xxs".toList = none ∧ parseDuration "1h30".toList = none := by decide

/-! ### Sizes -/

theorem numChar_split {w w' r r' : Str} (h : w ++ r = w' ++ r') (hw : ∀ c ∈ w, numChar c = true) (hw' : ∀ c ∈ w', numChar c = true)
    (hr : ∀ x xs, r = x :: xs → numChar x = false) (hr' : ∀ x xs, r' = x :: xs → numChar x = false) : w = w' ∧ r = r' := by
  rcases List.append_eq_append_iff.1 h with ⟨a, rfl, rfl⟩ | ⟨c, rfl, rfl⟩
  · cases a with
    | nil => simp
    | cons x xs => have := hr x _ rfl; rw [hw' x (by simp)] at this; cases this
  · cases c with
    | nil => simp
    | cons x xs => have := hr' x _ rfl; rw [hw x (by simp)] at this; cases this

theorem factor_head : ∀ U ∈ sizeFactors.map Prod.fst, ∃ x xs, U = x :: xs ∧ numChar x = false ∧ x ≠ 'B' ∧ x ≠ '\n' := by
  have : ∀ U ∈ sizeFactors.map Prod.fst, ¬ (numChar (U.headD '.') = true) ∧ U.headD 'B' ≠ 'B' ∧ U.headD '\n' ≠ '\n' := by decide
  intro U hU
  obtain ⟨h1, h2, h3⟩ := this U hU
  cases U with
  | nil => simp at h2
  | cons x xs => exact ⟨x, xs, rfl, by simpa using h1, h2, h3⟩

theorem factor_no_newline : ∀ U ∈ sizeFactors.map Prod.fst, '\n' ∉ U := by decide

/-- C24: digits, with an optional `b` or `B`, denote that number of bytes. -/
theorem C24_bytes (d b : Str) (hd : Digits d) (hb : b = [] ∨ b = ['b'] ∨ b = ['B']) : parseSize (d ++ b) = some (natOfDigits d) := by
  have hdn : ∀ c ∈ d, numChar c = true := fun c hc => by simp [numChar, hd.2 c hc]
  have hup : (d ++ b).map upperChar = d ++ b.map upperChar := by rw [List.map_append, map_upper_num hdn]
  have hbu : b.map upperChar = [] ∨ b.map upperChar = ['B'] := by rcases hb with rfl | rfl | rfl <;> decide
  have hsome : (sizeRe.match' ((d ++ b).map upperChar)).isSome = true := by
    rw [Re.match', Re.run_isSome_iff]
    refine ⟨[], [(1, d)], sizeRe_mat.2 ⟨.inl rfl, .inl ⟨d, b.map upperChar, hd, ?_, by simpa using hup, rfl⟩⟩, rfl⟩
    rcases hbu with h | h
    · exact .inl h
    · exact .inr ⟨'B', h, by decide⟩
  obtain ⟨⟨c, r⟩, hc⟩ := Option.isSome_iff_exists.1 hsome
  -- the first alternative is tried first
  have hfirst : sizeRe.match' ((d ++ b).map upperChar) = some ([(1, d)], []) := by
    rw [hup]
    have h1 : (Re.seq (.cap 1 (.plus true isDigit)) (.seq (.opt (.litI 'b')) .eol)).run (d ++ b.map upperChar) []
        (fun s' c => some (c, s')) = some ([(1, d)], []) := by
      obtain ⟨x, xs, rfl⟩ : ∃ x xs, d = x :: xs := by cases d with
        | nil => exact absurd rfl hd.1
        | cons x xs => exact ⟨x, xs, rfl⟩
      simp only [Re.run, Re.plus, List.cons_append, hd.2 x (by simp), if_true]
      apply starG_some (fun y hy => hd.2 y (by simp [hy]))
      · intro y ys hy
        rcases hbu with h | h
        · rw [h] at hy; cases hy
        · rw [h] at hy; cases hy; decide
      · rcases hbu with h | h
        · rw [h]; simp [Re.opt, Re.run, Re.litI]
        · rw [h]; simp [Re.opt, Re.run, Re.litI, show upperChar 'B' = upperChar 'b' by decide]
    show Re.run (.alt _ _) _ _ _ = _
    rw [Re.run, h1]
  unfold parseSize
  simp only
  rw [hfirst]
  simp [Caps.get]

/-- C24: a number with a unit, in any case, denotes the number times the unit's factor (as computed by `floatMul` in double precision). -/
theorem C24_unit (w u : Str) (f : Nat) (hw : NumText w) (hu : (u.map upperChar, f) ∈ sizeFactors) : parseSize (w ++ u) = some (floatMul w f) := by
  have hwc := (numText_chars hw).2
  have hU : u.map upperChar ∈ sizeFactors.map Prod.fst := List.mem_map.2 ⟨_, hu, rfl⟩
  have hUU : (u.map upperChar).map upperChar ∈ sizeFactors.map Prod.fst := by
    rw [List.map_map, show upperChar ∘ upperChar = upperChar from funext upperChar_idem]; exact hU
  have hup : (w ++ u).map upperChar = w ++ u.map upperChar := by rw [List.map_append, map_upper_num hwc]
  obtain ⟨x, xs, hx, hxn, hxB, hxnl⟩ := factor_head _ hU
  have hsome : (sizeRe.match' ((w ++ u).map upperChar)).isSome = true := by
    rw [Re.match', Re.run_isSome_iff]
    exact ⟨[], [(3, u.map upperChar), (2, w)], sizeRe_mat.2 ⟨.inl rfl, .inr (.inr ⟨w, _, hw, hUU, by simpa using hup, rfl⟩)⟩, rfl⟩
  obtain ⟨⟨c, r⟩, hc⟩ := Option.isSome_iff_exists.1 hsome
  have hcaps : c = [(3, u.map upperChar), (2, w)] := by
    have hc' := hc
    rw [Re.match'] at hc'
    obtain ⟨s', c', hm, hk⟩ := Re.run_eq_some hc'
    simp only [Option.some.injEq, Prod.mk.injEq] at hk
    obtain ⟨rfl, rfl⟩ := hk
    obtain ⟨hend, h⟩ := sizeRe_mat.1 hm
    rw [hup] at h
    have hxm : x ∈ w ++ u.map upperChar := by rw [hx]; simp
    rcases h with ⟨d, b, hd, hb, hs, rfl⟩ | ⟨w', hw', hs, rfl⟩ | ⟨w', U', hw', hU', hs, rfl⟩
    · exfalso
      rw [hs] at hxm
      simp only [List.mem_append] at hxm
      rcases hxm with hxm | hxm | hxm
      · have := hd.2 x hxm; simp [numChar, this] at hxn
      · rcases hb with rfl | ⟨y, rfl, hy⟩
        · cases hxm
        · have : x = y := by simpa using hxm
          subst this
          -- the string is in upper case already
          have : upperChar x = x := by
            have h1 : x ∈ u.map upperChar := by rw [hx]; simp
            obtain ⟨z, _, rfl⟩ := List.mem_map.1 h1
            exact upperChar_idem z
          rw [this] at hy; exact hxB hy
      · rcases hend with rfl | rfl
        · cases hxm
        · exact hxnl (by simpa using hxm)
    · exfalso
      rw [hs] at hxm
      rcases List.mem_append.1 hxm with hxm | hxm
      · have := (numText_chars hw').2 x hxm; rw [hxn] at this; cases this
      · rcases hend with rfl | rfl
        · cases hxm
        · exact hxnl (by simpa using hxm)
    · have hsplit := numChar_split hs hwc (numText_chars hw').2
        (by intro y ys hy; rw [hx] at hy; cases hy; exact hxn) (by
          intro y ys hy
          obtain ⟨z, zs, hz, hzn, _, _⟩ := factor_head _ hU'
          cases U' with
          | nil => cases hz
          | cons y' ys' =>
            simp only [List.map_cons, List.cons.injEq] at hz
            rw [List.cons_append] at hy; cases hy
            cases hny : numChar y with
            | false => rfl
            | true =>
              have : upperChar y = y := by
                have := map_upper_num (w := [y]) (by simpa using hny)
                simpa using this
              rw [← hz.1, this, hny] at hzn; cases hzn)
      obtain ⟨rfl, h2⟩ := hsplit
      rcases hend with rfl | rfl
      · simp at h2; rw [h2]
      · exfalso
        have := factor_no_newline _ hU
        rw [h2] at this
        simp at this
  unfold parseSize
  simp only
  rw [hc, hcaps]
  simp [Caps.get]
  have := unit_factor_unique _ hu
  simp at this
  rw [this]

/-- C24: nothing else is accepted (`$` allows a final newline). In particular a fraction without unit is rejected. -/
theorem C24_sound (s : Str) (n : Nat) (h : parseSize s = some n) : ∃ e, (e = [] ∨ e = ['\n']) ∧
    ((∃ d b, Digits d ∧ (b = [] ∨ b = ['b'] ∨ b = ['B']) ∧ s = d ++ b ++ e ∧ n = natOfDigits d) ∨
     (∃ w u f, NumText w ∧ (u.map upperChar, f) ∈ sizeFactors ∧ s = w ++ u ++ e ∧ n = floatMul w f)) := by
  unfold parseSize at h
  simp only at h
  split at h
  · cases h
  · rename_i c r hc
    rw [Re.match'] at hc
    obtain ⟨s', c', hm, hk⟩ := Re.run_eq_some hc
    simp only [Option.some.injEq, Prod.mk.injEq] at hk
    obtain ⟨rfl, rfl⟩ := hk
    obtain ⟨hend, hh⟩ := sizeRe_mat.1 hm
    refine ⟨s', hend, ?_⟩
    have hse : ∀ t : Str, t.map upperChar = s' → t = s' := by
      intro t ht
      rcases hend with rfl | rfl
      · simpa using ht
      · obtain ⟨y, l, rfl, hy, hl⟩ := List.map_eq_cons_iff.1 ht
        have : l = [] := by simpa using hl
        subst this
        rw [upperChar_eq_of hy (by decide)]
    rcases hh with ⟨d, b, hd, hb, hs, rfl⟩ | ⟨w, hw, hs, rfl⟩ | ⟨w, U, hw, hU, hs, rfl⟩
    · left
      obtain ⟨d0, r0, rfl, hd0, hr0⟩ := List.map_eq_append_iff.1 hs
      obtain ⟨b0, e0, rfl, hb0, he0⟩ := List.map_eq_append_iff.1 hr0
      have e1 := unmap_upper_num hd0 (fun c hc => by simp [numChar, hd.2 c hc])
      have e2 := hse e0 he0
      subst e1 e2
      refine ⟨d0, b0, hd, ?_, by simp, ?_⟩
      · rcases hb with rfl | ⟨x, rfl, hx⟩
        · left; simpa using hb0
        · right
          obtain ⟨y, l, rfl, hy, hl⟩ := List.map_eq_cons_iff.1 hb0
          have : l = [] := by simpa using hl
          subst this
          rw [← hy, upperChar_idem] at hx
          rcases upperChar_cases y with h1 | ⟨h1, h2, h3⟩
          · right; rw [← h1, hx]
          · left
            rw [hx] at h3
            have h66 : ('B' : Char).toNat = 66 := by decide
            have : y.toNat = ('b' : Char).toNat := by
              have : ('b' : Char).toNat = 98 := by decide
              omega
            rw [Char.toNat_inj.1 this]
      · simp [Caps.get] at h; exact h.symm
    · simp [Caps.get] at h
    · right
      obtain ⟨w0, r0, rfl, hw0, hr0⟩ := List.map_eq_append_iff.1 hs
      obtain ⟨u0, e0, rfl, hu0, he0⟩ := List.map_eq_append_iff.1 hr0
      have e1 := unmap_upper_num hw0 (numText_chars hw).2
      have e2 := hse e0 he0
      subst e1 e2
      have hUU : u0.map upperChar = U := hu0
      have hid : U.map upperChar = U := by
        rw [← hUU, List.map_map, show upperChar ∘ upperChar = upperChar from funext upperChar_idem]
      rw [hid] at hU
      refine ⟨w0, u0, (if U.drop 1 = ['B'] then 1000 else 1024) ^ unitExp (U.headD ' '), hw, ?_, by simp, ?_⟩
      · rw [hUU]; exact unit_factor hU
      · simp [Caps.get] at h
        simp [← h]

/-- C24: the product is exact if the number is representable (`p/q = m/2^s` with `m < 2^53`, which covers all integers below `2^53`
and fractions such as .5 and .25) and the factor is a power of 1024; with factors of 1000 if the product is below `2^53`, too. -/
theorem C24_exact_partial (w : Str) (f m s : Nat) (hm : m < 2 ^ 53) (hrep : (decimal w).1 * 2 ^ s = m * (decimal w).2) (hpos : 0 < (decimal w).2)
    (hf : (∃ k, f = 2 ^ k) ∨ (m * f < 2 ^ 53 ∧ f < 2 ^ 53)) : floatMul w f = (decimal w).1 * f / (decimal w).2 := by
  unfold floatMul
  simp only
  obtain ⟨h1, h1p⟩ := roundDouble_exact (num := (decimal w).1) (den := (decimal w).2) (m := m) (s := s) (t := 0) hpos hm (by simpa using hrep)
  have hf' : ∃ m2 t2, m2 < 2 ^ 53 ∧ f * 2 ^ 0 = m2 * 2 ^ t2 * 1 := by
    rcases hf with ⟨k, rfl⟩ | ⟨_, hlt⟩
    · exact ⟨1, k, by decide, by simp⟩
    · exact ⟨f, 0, hlt, by simp⟩
  obtain ⟨m2, t2, hm2, hrep2⟩ := hf'
  obtain ⟨h2, h2p⟩ := roundDouble_exact (num := f) (den := 1) (by omega) hm2 hrep2
  have e : roundDouble (decimal w) = roundDouble ((decimal w).1, (decimal w).2) := rfl
  rw [e]
  generalize roundDouble ((decimal w).1, (decimal w).2) = a at *
  generalize roundDouble (f, 1) = b at *
  generalize (decimal w).1 = p at *
  generalize (decimal w).2 = q at *
  simp only [Nat.mul_one] at h2
  -- the exact product is representable
  have hprod : ∃ m3 s3 t3, m3 < 2 ^ 53 ∧ (a.1 * b.1) * 2 ^ s3 = m3 * 2 ^ t3 * (a.2 * b.2) := by
    have base : (a.1 * b.1) * 2 ^ s = m * f * (a.2 * b.2) := by
      apply Nat.eq_of_mul_eq_mul_right hpos
      calc a.1 * b.1 * 2 ^ s * q = a.1 * q * b.1 * 2 ^ s := by ac_rfl
        _ = p * a.2 * (f * b.2) * 2 ^ s := by rw [h1, h2]
        _ = p * 2 ^ s * (f * (a.2 * b.2)) := by ac_rfl
        _ = m * q * (f * (a.2 * b.2)) := by rw [hrep]
        _ = m * f * (a.2 * b.2) * q := by ac_rfl
    rcases hf with ⟨k, rfl⟩ | ⟨hlt, _⟩
    · exact ⟨m, s, k, hm, base⟩
    · exact ⟨m * f, s, 0, hlt, by simpa using base⟩
  obtain ⟨m3, s3, t3, hm3, hrep3⟩ := hprod
  obtain ⟨h3, h3p⟩ := roundDouble_exact (Nat.mul_pos h1p h2p) hm3 hrep3
  generalize roundDouble (a.1 * b.1, a.2 * b.2) = r at *
  -- equal fractions have equal quotients
  have key : r.1 * q = p * f * r.2 := by
    apply Nat.eq_of_mul_eq_mul_right (Nat.mul_pos h1p h2p)
    calc r.1 * q * (a.2 * b.2) = r.1 * (a.2 * b.2) * q := by ac_rfl
      _ = a.1 * b.1 * r.2 * q := by rw [h3]
      _ = a.1 * q * b.1 * r.2 := by ac_rfl
      _ = p * a.2 * (f * b.2) * r.2 := by rw [h1, h2]
      _ = p * f * r.2 * (a.2 * b.2) := by ac_rfl
  rw [← Nat.mul_div_mul_right r.1 r.2 hpos, key, Nat.mul_comm r.2 q, Nat.mul_div_mul_right _ _ h3p]

/-- C24, how far off a size can be: the result is the exact product, with a relative error of at most 2^-53 for each of the three roundings (the number, the
factor and their product), and rounded down to an integer. -/
theorem C24_error_partial (w : Str) (f : Nat) (hpos : 0 < (decimal w).2) :
    floatMul w f * (decimal w).2 * (2 ^ 53) ^ 3 ≤ (decimal w).1 * f * (2 ^ 53 + 1) ^ 3 ∧
    (decimal w).1 * f * (2 ^ 53 - 1) ^ 3 < (floatMul w f + 1) * (decimal w).2 * (2 ^ 53) ^ 3 := by
  unfold floatMul
  simp only
  obtain ⟨p1, u1, l1⟩ := roundDouble_near (num := (decimal w).1) (den := (decimal w).2) hpos
  obtain ⟨p2, u2, l2⟩ := roundDouble_near (num := f) (den := 1) (by omega)
  have e : roundDouble (decimal w) = roundDouble ((decimal w).1, (decimal w).2) := rfl
  rw [e]
  generalize roundDouble ((decimal w).1, (decimal w).2) = a at *
  generalize roundDouble (f, 1) = b at *
  generalize (decimal w).1 = p at *
  generalize (decimal w).2 = q at *
  obtain ⟨p3, u3, l3⟩ := roundDouble_near (num := a.1 * b.1) (den := a.2 * b.2) (Nat.mul_pos p1 p2)
  generalize roundDouble (a.1 * b.1, a.2 * b.2) = r at *
  have hE : 0 < 2 ^ 53 := by decide
  generalize 2 ^ 53 + 1 = U at *
  generalize 2 ^ 53 - 1 = L at *
  generalize 2 ^ 53 = E at *
  obtain ⟨a1, b1⟩ := a
  obtain ⟨a2, b2⟩ := b
  obtain ⟨a3, b3⟩ := r
  simp only at *
  simp only [Nat.mul_one] at u2 l2
  have hn1 := Nat.div_mul_le_self a3 b3
  have hn2 : a3 < (a3 / b3 + 1) * b3 := by
    have h1 := Nat.div_add_mod a3 b3
    have h2 := Nat.mod_lt a3 p3
    rw [Nat.add_mul, Nat.one_mul, Nat.mul_comm]; omega
  generalize a3 / b3 = n at *
  have hb : 0 < b1 * b2 * b3 := Nat.mul_pos (Nat.mul_pos p1 p2) p3
  constructor
  · refine Nat.le_of_mul_le_mul_right ?_ hb
    calc n * q * E ^ 3 * (b1 * b2 * b3) = n * b3 * (q * E ^ 3 * (b1 * b2)) := by ac_rfl
      _ ≤ a3 * (q * E ^ 3 * (b1 * b2)) := Nat.mul_le_mul_right _ hn1
      _ = a3 * (b1 * b2) * E * (q * E ^ 2) := by rw [Nat.pow_succ E 2]; ac_rfl
      _ ≤ a1 * a2 * b3 * U * (q * E ^ 2) := Nat.mul_le_mul_right _ u3
      _ = (a1 * q * E) * (a2 * E) * (b3 * U) := by rw [Nat.pow_two]; ac_rfl
      _ ≤ (p * b1 * U) * (f * b2 * U) * (b3 * U) := Nat.mul_le_mul_right _ (Nat.mul_le_mul u1 u2)
      _ = p * f * U ^ 3 * (b1 * b2 * b3) := by rw [Nat.pow_succ U 2, Nat.pow_two]; ac_rfl
  · refine Nat.lt_of_mul_lt_mul_right (a := b1 * b2 * b3) ?_
    calc p * f * L ^ 3 * (b1 * b2 * b3) = (p * b1 * L) * (f * b2 * L) * (b3 * L) := by rw [Nat.pow_succ L 2, Nat.pow_two]; ac_rfl
      _ ≤ (a1 * q * E) * (a2 * E) * (b3 * L) := Nat.mul_le_mul_right _ (Nat.mul_le_mul l1 l2)
      _ = a1 * a2 * b3 * L * (q * E ^ 2) := by rw [Nat.pow_two]; ac_rfl
      _ ≤ a3 * (b1 * b2) * E * (q * E ^ 2) := Nat.mul_le_mul_right _ l3
      _ = a3 * (q * E ^ 3 * (b1 * b2)) := by rw [Nat.pow_succ E 2]; ac_rfl
      _ < (n + 1) * b3 * (q * E ^ 3 * (b1 * b2)) :=
        Nat.mul_lt_mul_of_pos_right hn2 (Nat.mul_pos (Nat.mul_pos hpos (Nat.pow_pos hE)) (Nat.mul_pos p1 p2))
      _ = (n + 1) * q * E ^ 3 * (b1 * b2 * b3) := by ac_rfl

example : 0 < (decimal "1.005".toList).2 ∧ floatMul "1.005".toList 1000 = 1004 := by decide

/-- C24 is not exact in general: sizes go through floating point numbers. 1.005KB is 1005 bytes but read as 1004, and
9007199254740993K loses a kilobyte. -/
theorem C24_false : parseSize "1.005KB".toList = some 1004 ∧ parseSize "9007199254740993K".toList ≠ some (9007199254740993 * 1024) := by decide

/-- C24: the manual says that KiB, MiB etc. use base 1000; they use 1024. -/
theorem C24_manual_false : parseSize "1KiB".toList = some 1024 := by decide

example : NumText "1.5".toList ∧ (("gib".toList).map upperChar, 1024 ^ 3) ∈ sizeFactors ∧ (decimal "1.5".toList).1 * 2 ^ 1 = 3 * (decimal "1.5".toList).2 :=
  ⟨.inr ⟨['1'], ['5'], rfl, ⟨by decide, by decide⟩, ⟨by decide, by decide⟩⟩, by decide, by decide⟩
example : parseSize "1.5gib".toList = some (3 * 1024 ^ 3 / 2) ∧ parseSize "1.5".toList = none ∧ parseSize "1 K".toList = none := by decide

/-! ### Times -/

/-- C25, what is true: values that are no numbers are read by the first matching pattern; a value of at least four characters
matching no pattern is a duration before now, or else rejected. Missing: precedence over plain numbers. -/
theorem C25_patterns_partial (env : TimeEnv) (s : Str) (hf : env.float s = none) (hl : 4 ≤ s.length) :
    (∀ pre f post t, env.formats = pre ++ f :: post → (∀ g ∈ pre, g s = none) → f s = some t → parseTime env s = some t) ∧
    ((∀ g ∈ env.formats, g s = none) → parseTime env s = (parseDuration s).map (fun d : Int => env.now - d)) := by
  have pref : ∀ (pre : List (Str → Option Int)) (l : List (Str → Option Int)), (∀ g ∈ pre, g s = none) → firstFormat (pre ++ l) s = firstFormat l s := by
    intro pre l h
    induction pre with
    | nil => rfl
    | cons g gs ih => simp only [List.cons_append, firstFormat, h g (by simp)]; exact ih (fun x hx => h x (by simp [hx]))
  constructor
  · intro pre f post t he hpre hft
    simp only [parseTime, hf, hl, if_true, he, pref pre _ hpre, firstFormat, hft]
  · intro h
    have := pref env.formats [] h
    simp only [List.append_nil, firstFormat] at this
    simp only [parseTime, hf, hl, if_true, this]

/-- C25 fails: with any clock, patterns and `float`, a string of digits that `float` reads as its value (all do) is epoch seconds,
whatever date pattern it matches. The documented patterns YYYYMMDD, YYYYMMDDhhmm and hhmm consist of digits only. -/
theorem C25_false (env : TimeEnv) (s : Str) (_hd : Digits s) (hf : env.float s = some (natOfDigits s : Nat)) (f : Str → Option Int) (t : Int)
    (_hfmt : f ∈ env.formats) (_hm : f s = some t) (hne : t ≠ (natOfDigits s : Nat)) : parseTime env s ≠ some t := by
  simp only [parseTime, hf]
  intro h
  exact hne (Option.some.inj h).symm

/-- Such an environment: midnight of 2020-05-12 UTC under the pattern `%Y%m%d`. -/
def sampleTimeEnv : TimeEnv where
  float s := if s = "20200512".toList then some 20200512 else none
  now := 1600000000
  formats := [fun s => if s = "20200512".toList then some 1589241600 else none]

example : parseTime sampleTimeEnv "20200512".toList = some 20200512 := by decide
example : Digits "20200512".toList ∧ sampleTimeEnv.float "20200512".toList = some (natOfDigits "20200512".toList : Nat) := ⟨⟨by decide, by decide⟩, by decide⟩
example : parseTime sampleTimeEnv "1d12h".toList = some (1600000000 - 129600) := by decide

example : parseSize "1.005KB".toList = some 1004 := by decide
example : parseSize "1.5k".toList = some 1536 := by decide
example : parseSize "3mib".toList = some (3*1024*1024) := by decide
example : parseSize "10B".toList = some 10 := by decide
example : parseDuration "1h30m25s".toList = some 5425 := by decide
example : parseDuration "5x3s".toList = some 3 := by decide

end FF
