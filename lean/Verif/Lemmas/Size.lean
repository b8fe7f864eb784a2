import Verif.Lemmas.Re
import Verif.Lemmas.Duration
namespace FF
open Spec

theorem upperChar_cases (x : Char) : (upperChar x = x) ∨ (97 ≤ x.toNat ∧ x.toNat ≤ 122 ∧ (upperChar x).toNat = x.toNat - 32) := by
  unfold upperChar Char.toUpper
  split
  · rename_i h
    right
    have h1 : 97 ≤ x.toNat := UInt32.le_iff_toNat_le.1 h.1
    have h2 : x.toNat ≤ 122 := UInt32.le_iff_toNat_le.1 h.2
    refine ⟨h1, h2, ?_⟩
    simp only [Char.toNat, UInt32.toNat_add]
    have : x.val.toNat = x.toNat := rfl
    rw [this]
    have e : ((('A'.val - 'a'.val : UInt32)).toNat) = 4294967264 := by decide
    omega
  · exact .inl rfl

theorem upperChar_idem (x : Char) : upperChar (upperChar x) = upperChar x := by
  rcases upperChar_cases (upperChar x) with h | ⟨h1, h2, h3⟩
  · exact h
  · rcases upperChar_cases x with h | ⟨h4, h5, h6⟩
    · rw [h, h]
    · omega

/-- Characters outside A–Z are the upper case of themselves only. -/
theorem upperChar_eq_of {x y : Char} (h : upperChar x = y) (hy : ¬ (65 ≤ y.toNat ∧ y.toNat ≤ 90)) : x = y := by
  rcases upperChar_cases x with h1 | ⟨h1, h2, h3⟩
  · rw [← h, h1]
  · rw [h] at h3; omega

theorem upperChar_digit {x : Char} (h : isDigit x = true) : upperChar x = x := by
  rw [isDigit_iff] at h
  rcases upperChar_cases x with h1 | ⟨h1, _, _⟩
  · exact h1
  · omega

theorem digit_of_upper {x : Char} (h : isDigit (upperChar x) = true) : upperChar x = x := by
  rw [isDigit_iff] at h
  rcases upperChar_cases x with h1 | ⟨h1, h2, h3⟩
  · exact h1
  · omega

/-- Characters of numbers. -/
def numChar (c : Char) : Bool := isDigit c || c = '.'

theorem numText_chars {w : Str} (h : NumText w) : w ≠ [] ∧ ∀ c ∈ w, numChar c = true := by
  rcases h with ⟨h1, h2⟩ | ⟨a, b, rfl, ha, hb⟩
  · exact ⟨h1, fun c hc => by simp [numChar, h2 c hc]⟩
  · refine ⟨by simp, fun c hc => ?_⟩
    simp only [List.mem_append, List.mem_cons] at hc
    rcases hc with hc | rfl | hc
    · simp [numChar, ha.2 c hc]
    · decide
    · simp [numChar, hb.2 c hc]

theorem map_upper_num {w : Str} (h : ∀ c ∈ w, numChar c = true) : w.map upperChar = w := by
  induction w with
  | nil => rfl
  | cons x xs ih =>
    rw [List.map_cons, ih (fun c hc => h c (by simp [hc]))]
    have := h x (by simp)
    simp only [numChar, Bool.or_eq_true, decide_eq_true_eq] at this
    rcases this with hd | rfl
    · rw [upperChar_digit hd]
    · rfl

theorem unmap_upper_num {w w' : Str} (h : w'.map upperChar = w) (hw : ∀ c ∈ w, numChar c = true) : w' = w := by
  have : ∀ (w' : Str), (∀ c ∈ w'.map upperChar, numChar c = true) → w'.map upperChar = w' := by
    intro w'
    induction w' with
    | nil => intro _; rfl
    | cons x xs ih =>
      intro hc
      rw [List.map_cons, ih (fun c hx => hc c (by simp only [List.map_cons, List.mem_cons]; exact .inr hx))]
      have := hc (upperChar x) (by simp)
      simp only [numChar, Bool.or_eq_true, decide_eq_true_eq] at this
      rcases this with hd | hd
      · rw [digit_of_upper hd]
      · rw [upperChar_eq_of hd (by decide)]; rfl
  rw [← h]; symm; apply this; rw [h]; exact hw

/-- Unit part of the regular expression. -/
def unitRe : Re := .alts (sizeUnits.map Re.litI ++ sizeUnits.map (fun u => .seq (.litI u) (.litI 'B')) ++
        sizeUnits.map (fun u => .seq (.litI u) (.seq (.litI 'i') (.litI 'B'))))

theorem mat_litI {x : Char} {s s' : Str} {c c' : Caps} : (Re.litI x).Mat s c s' c' ↔ ∃ y, upperChar y = upperChar x ∧ s = y :: s' ∧ c' = c := by
  simp only [Re.litI, Re.Mat, decide_eq_true_eq]
  constructor
  · rintro ⟨y, h1, h2, h3⟩; exact ⟨y, h2, h1, h3⟩
  · rintro ⟨y, h1, h2, h3⟩; exact ⟨y, h2, h1, h3⟩

theorem mat_alts {l : List Re} {s s' : Str} {c c' : Caps} : (Re.alts l).Mat s c s' c' ↔ ∃ r ∈ l, r.Mat s c s' c' := by
  induction l with
  | nil => simp [Re.alts, Re.Mat]
  | cons a as ih =>
    cases as with
    | nil => simp [Re.alts]
    | cons b bs =>
      show Re.Mat a s c s' c' ∨ (Re.alts (b :: bs)).Mat s c s' c' ↔ _
      rw [ih]; simp

theorem unitRe_mat {s s' : Str} {c c' : Caps} :
    unitRe.Mat s c s' c' ↔ ∃ U, U.map upperChar ∈ sizeFactors.map Prod.fst ∧ s = U ++ s' ∧ c' = c := by
  unfold unitRe
  rw [mat_alts]
  constructor
  · rintro ⟨r, hr, hm⟩
    simp only [List.mem_append, List.mem_map] at hr
    rcases hr with (⟨u, hu, rfl⟩ | ⟨u, hu, rfl⟩) | ⟨u, hu, rfl⟩
    · obtain ⟨y, g1, rfl, rfl⟩ := mat_litI.1 hm
      refine ⟨[y], ?_, rfl, rfl⟩
      simp only [List.map_cons, List.map_nil, g1]
      simp only [sizeUnits, List.mem_cons, List.not_mem_nil, or_false] at hu
      rcases hu with rfl | rfl | rfl | rfl | rfl | rfl | rfl | rfl <;> decide
    · obtain ⟨s1, c1, h1, h2⟩ := hm
      obtain ⟨y, g1, rfl, rfl⟩ := mat_litI.1 h1
      obtain ⟨z, g2, rfl, rfl⟩ := mat_litI.1 h2
      refine ⟨[y, z], ?_, rfl, rfl⟩
      simp only [List.map_cons, List.map_nil, g1, g2]
      simp only [sizeUnits, List.mem_cons, List.not_mem_nil, or_false] at hu
      rcases hu with rfl | rfl | rfl | rfl | rfl | rfl | rfl | rfl <;> decide
    · obtain ⟨s1, c1, h1, s2, c2, h2, h3⟩ := hm
      obtain ⟨y, g1, rfl, rfl⟩ := mat_litI.1 h1
      obtain ⟨z, g2, rfl, rfl⟩ := mat_litI.1 h2
      obtain ⟨x, g3, rfl, rfl⟩ := mat_litI.1 h3
      refine ⟨[y, z, x], ?_, rfl, rfl⟩
      simp only [List.map_cons, List.map_nil, g1, g2, g3]
      simp only [sizeUnits, List.mem_cons, List.not_mem_nil, or_false] at hu
      rcases hu with rfl | rfl | rfl | rfl | rfl | rfl | rfl | rfl <;> decide
  · rintro ⟨U, hU, rfl, rfl⟩
    have key : ∀ V ∈ sizeFactors.map Prod.fst, (∃ u ∈ sizeUnits, V = [u]) ∨ (∃ u ∈ sizeUnits, V = [u, 'B']) ∨ (∃ u ∈ sizeUnits, V = [u, 'I', 'B']) := by decide
    have up : ∀ u ∈ sizeUnits, upperChar u = u := by decide
    rcases key _ hU with ⟨u, hu, hV⟩ | ⟨u, hu, hV⟩ | ⟨u, hu, hV⟩
    · obtain ⟨y, l, rfl, hy, hl⟩ := List.map_eq_cons_iff.1 hV
      have : l = [] := by simpa using hl
      subst this
      refine ⟨Re.litI u, ?_, mat_litI.2 ⟨y, by rw [hy, up u hu], rfl, rfl⟩⟩
      simp only [List.mem_append, List.mem_map]
      exact .inl (.inl ⟨u, hu, rfl⟩)
    · obtain ⟨y, l, rfl, hy, hl⟩ := List.map_eq_cons_iff.1 hV
      obtain ⟨z, l, rfl, hz, hl⟩ := List.map_eq_cons_iff.1 hl
      have : l = [] := by simpa using hl
      subst this
      refine ⟨.seq (.litI u) (.litI 'B'), ?_, _, _, mat_litI.2 ⟨y, by rw [hy, up u hu], rfl, rfl⟩, mat_litI.2 ⟨z, hz, rfl, rfl⟩⟩
      simp only [List.mem_append, List.mem_map]
      exact .inl (.inr ⟨u, hu, rfl⟩)
    · obtain ⟨y, l, rfl, hy, hl⟩ := List.map_eq_cons_iff.1 hV
      obtain ⟨z, l, rfl, hz, hl⟩ := List.map_eq_cons_iff.1 hl
      obtain ⟨x, l, rfl, hx, hl⟩ := List.map_eq_cons_iff.1 hl
      have : l = [] := by simpa using hl
      subst this
      refine ⟨.seq (.litI u) (.seq (.litI 'i') (.litI 'B')), ?_, _, _, mat_litI.2 ⟨y, by rw [hy, up u hu], rfl, rfl⟩, _, _,
        mat_litI.2 ⟨z, by rw [hz]; rfl, rfl, rfl⟩, mat_litI.2 ⟨x, hx, rfl, rfl⟩⟩
      simp only [List.mem_append, List.mem_map]
      exact .inr ⟨u, hu, rfl⟩

/-- Number part. -/
def numRe : Re := .seq (.plus true isDigit) (.opt (.seq (.lit '.') (.plus true isDigit)))

theorem numRe_mat {s s' : Str} {c c' : Caps} : numRe.Mat s c s' c' ↔ ∃ w, NumText w ∧ s = w ++ s' ∧ c' = c := by
  unfold numRe
  constructor
  · rintro ⟨s1, c1, h1, h2⟩
    obtain ⟨a, ha, rfl, had, rfl⟩ := Re.mat_plus.1 h1
    rcases Re.mat_opt.1 h2 with ⟨s2, c2, h3, h4⟩ | ⟨rfl, rfl⟩
    · obtain ⟨rfl, rfl⟩ := Re.mat_lit.1 h3
      obtain ⟨b, hb, rfl, hbd, rfl⟩ := Re.mat_plus.1 h4
      exact ⟨a ++ '.' :: b, .inr ⟨a, b, rfl, ⟨ha, had⟩, ⟨hb, hbd⟩⟩, by simp, rfl⟩
    · exact ⟨a, .inl ⟨ha, had⟩, rfl, rfl⟩
  · rintro ⟨w, (⟨h1, h2⟩ | ⟨a, b, rfl, ha, hb⟩), rfl, rfl⟩
    · exact ⟨_, _, Re.mat_plus.2 ⟨w, h1, rfl, h2, rfl⟩, Re.mat_opt.2 (.inr ⟨rfl, rfl⟩)⟩
    · refine ⟨'.' :: (b ++ s'), c', Re.mat_plus.2 ⟨a, ha.1, by simp, ha.2, rfl⟩, Re.mat_opt.2 (.inl ⟨_, _, Re.mat_lit.2 ⟨rfl, rfl⟩,
        Re.mat_plus.2 ⟨b, hb.1, rfl, hb.2, rfl⟩⟩)⟩

/-- The end of the string, possibly before a newline. -/
def EndNl (e : Str) : Prop := e = [] ∨ e = ['\n']

theorem sizeRe_mat {s s' : Str} {c' : Caps} : sizeRe.Mat s [] s' c' ↔ EndNl s' ∧
    ((∃ d b, Digits d ∧ (b = [] ∨ ∃ x, b = [x] ∧ upperChar x = 'B') ∧ s = d ++ (b ++ s') ∧ c' = [(1, d)]) ∨
     (∃ w, NumText w ∧ s = w ++ s' ∧ c' = [(2, w)]) ∨
     (∃ w U, NumText w ∧ U.map upperChar ∈ sizeFactors.map Prod.fst ∧ s = w ++ (U ++ s') ∧ c' = [(3, U), (2, w)])) := by
  have e : sizeRe = .alt (.seq (.cap 1 (.plus true isDigit)) (.seq (.opt (.litI 'b')) .eol))
    (.seq (.cap 2 numRe) (.seq (.opt (.cap 3 unitRe)) .eol)) := rfl
  rw [e]
  constructor
  · rintro (⟨s1, c1, ⟨c2, h1, rfl⟩, s2, c3, h2, h3, rfl, rfl⟩ | ⟨s1, c1, ⟨c2, h1, rfl⟩, s2, c3, h2, h3, rfl, rfl⟩)
    · obtain ⟨d, hd, rfl, hdd, rfl⟩ := Re.mat_plus.1 h1
      rcases Re.mat_opt.1 h2 with h2 | ⟨rfl, rfl⟩
      · obtain ⟨y, hy, rfl, rfl⟩ := mat_litI.1 h2
        exact ⟨h3, .inl ⟨d, [y], ⟨hd, hdd⟩, .inr ⟨y, rfl, hy⟩, rfl, by rw [take_sub_length]⟩⟩
      · exact ⟨h3, .inl ⟨d, [], ⟨hd, hdd⟩, .inl rfl, rfl, by rw [take_sub_length]⟩⟩
    · obtain ⟨w, hw, rfl, rfl⟩ := numRe_mat.1 h1
      rcases Re.mat_opt.1 h2 with ⟨c4, g2, rfl⟩ | ⟨rfl, rfl⟩
      · obtain ⟨U, hU, rfl, rfl⟩ := unitRe_mat.1 g2
        exact ⟨h3, .inr (.inr ⟨w, U, hw, hU, rfl, by rw [take_sub_length, take_sub_length]⟩)⟩
      · exact ⟨h3, .inr (.inl ⟨w, hw, rfl, by rw [take_sub_length]⟩)⟩
  · rintro ⟨hend, h | h | h⟩
    · obtain ⟨d, b, hd, hb, rfl, rfl⟩ := h
      left
      refine ⟨b ++ s', [(1, d)], ⟨[], Re.mat_plus.2 ⟨d, hd.1, rfl, hd.2, rfl⟩, by rw [take_sub_length]⟩, s', _, ?_, hend, rfl, rfl⟩
      rcases hb with rfl | ⟨x, rfl, hx⟩
      · exact Re.mat_opt.2 (.inr ⟨rfl, rfl⟩)
      · exact Re.mat_opt.2 (.inl (mat_litI.2 ⟨x, hx, rfl, rfl⟩))
    · obtain ⟨w, hw, rfl, rfl⟩ := h
      right
      exact ⟨s', [(2, w)], ⟨[], numRe_mat.2 ⟨w, hw, rfl, rfl⟩, by rw [take_sub_length]⟩, s', _, Re.mat_opt.2 (.inr ⟨rfl, rfl⟩), hend, rfl, rfl⟩
    · obtain ⟨w, U, hw, hU, rfl, rfl⟩ := h
      right
      exact ⟨U ++ s', [(2, w)], ⟨[], numRe_mat.2 ⟨w, hw, rfl, rfl⟩, by rw [take_sub_length]⟩, s', _,
        Re.mat_opt.2 (.inl ⟨_, unitRe_mat.2 ⟨U, hU, rfl, rfl⟩, by rw [take_sub_length]⟩), hend, rfl, rfl⟩

theorem unit_factor {U : Str} (h : U ∈ sizeFactors.map Prod.fst) :
    (U, (if U.drop 1 = ['B'] then 1000 else 1024) ^ unitExp (U.headD ' ')) ∈ sizeFactors := by
  revert h; revert U; decide

theorem unit_factor_unique : ∀ x ∈ sizeFactors, (if x.1.drop 1 = ['B'] then 1000 else 1024) ^ unitExp (x.1.headD ' ') = x.2 := by
  decide

end FF
