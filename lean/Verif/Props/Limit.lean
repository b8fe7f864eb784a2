import Verif.Model.Processing
import Verif.Spec.Processing
import Verif.Props.Arguments
/-! C34: `--limit`. -/
namespace FF
open Spec

theorem atPositions_congr {α : Type} {p q : Int → Prop} [DecidablePred p] [DecidablePred q] (k : Int) (l : List α)
    (h : ∀ i : Int, k ≤ i → i < k + l.length → (p i ↔ q i)) : atPositions p k l = atPositions q k l := by
  induction l generalizing k with
  | nil => rfl
  | cons x xs ih =>
    have h0 := h k (Int.le_refl _) (by simp; omega)
    have h1 := ih (k + 1) (fun i h1 h2 => h i (by omega) (by simp at h2 ⊢; omega))
    simp only [atPositions, h1]
    by_cases hp : p k
    · rw [if_pos hp, if_pos (h0.1 hp)]
    · rw [if_neg hp, if_neg (fun hq => hp (h0.2 hq))]

theorem atPositions_interval {α : Type} (a b k : Int) (l : List α) :
    atPositions (fun i => a ≤ i ∧ i < b) k l = (l.take (b - k).toNat).drop (a - k).toNat := by
  induction l generalizing k with
  | nil => simp [atPositions]
  | cons x xs ih =>
    rw [atPositions, ih]
    by_cases hb : k < b
    · have e1 : (b - k).toNat = (b - (k + 1)).toNat + 1 := by omega
      rw [e1, List.take_succ_cons]
      by_cases ha : a ≤ k
      · rw [if_pos ⟨ha, hb⟩]
        have e2 : (a - k).toNat = 0 := by omega
        have e3 : (a - (k + 1)).toNat = 0 := by omega
        rw [e2, e3, List.drop_zero, List.drop_zero]
      · rw [if_neg (fun h => ha h.1)]
        have e2 : (a - k).toNat = (a - (k + 1)).toNat + 1 := by omega
        rw [e2, List.drop_succ_cons]
    · rw [if_neg (fun h => hb h.2)]
      have e1 : (b - k).toNat = 0 := by omega
      have e2 : (b - (k + 1)).toNat = 0 := by omega
      simp [e1, e2]

theorem entriesRange_eq {α : Type} (start : Int) (stop : Option Int) (entries : List α) :
    entriesRange (some (start, stop)) entries =
      atPositions (fun k => position entries.length start ≤ k ∧ ∀ j, stop = some j → k < position entries.length j) 0 entries := by
  cases stop with
  | none =>
    rw [atPositions_congr (q := fun i => position entries.length start ≤ i ∧ i < entries.length) 0 entries
      (fun i h1 h2 => by simp; omega), atPositions_interval]
    simp only [entriesRange, pySlice, Int.sub_zero, Int.toNat_natCast]
    unfold sliceIndex position
    by_cases h : start < 0
    · have : ¬ 0 ≤ start := by omega
      simp only [h, this, if_true, if_false]; rw [Int.add_comm]
    · have h' : 0 ≤ start := by omega
      simp only [h, h', if_true, if_false, List.take_length]
      by_cases hl : start.toNat ≤ entries.length
      · rw [Nat.min_eq_left hl]
      · rw [Nat.min_eq_right (by omega), List.drop_eq_nil_of_le (Nat.le_refl _), List.drop_eq_nil_of_le (by omega)]
  | some j =>
    have : atPositions (fun k => position entries.length start ≤ k ∧ ∀ j', some j = some j' → k < position entries.length j') 0 entries =
        atPositions (fun i => position entries.length start ≤ i ∧ i < position entries.length j) 0 entries :=
      atPositions_congr 0 entries (fun i _ _ => by simp)
    rw [this, atPositions_interval]
    simp only [entriesRange, pySlice, Int.sub_zero]
    have e1 : entries.take (sliceIndex entries.length j) = entries.take (position entries.length j).toNat := by
      unfold sliceIndex position
      by_cases h : j < 0
      · have : ¬ 0 ≤ j := by omega
        simp only [h, this, if_true, if_false]; rw [Int.add_comm]
      · have h' : 0 ≤ j := by omega
        simp only [h, h', if_true, if_false]
        by_cases hl : j.toNat ≤ entries.length
        · rw [Nat.min_eq_left hl]
        · rw [Nat.min_eq_right (by omega), List.take_length, List.take_of_length_le (by omega)]
    rw [e1]
    unfold sliceIndex
    by_cases h : start < 0
    · have : ¬ 0 ≤ start := by omega
      simp only [position, h, this, if_true, if_false]
      rw [Int.add_comm]
    · have h' : 0 ≤ start := by omega
      have hp : position entries.length start = start := by simp [position, h']
      rw [hp, if_neg h]
      by_cases hl : start.toNat ≤ entries.length
      · rw [Nat.min_eq_left hl]
      · rw [Nat.min_eq_right (by omega), List.drop_eq_nil_of_le (by simp; omega), List.drop_eq_nil_of_le (by simp; omega)]

/-- The value of `--limit` as it is written selects exactly the results at the documented positions, in order. -/
theorem C34_slice {s : Str} {r : Int × Option Int} (h : SliceText s r) {α : Type} (results : List α) :
    ∃ limit, typeSlice s = .ok limit ∧ entriesRange (some limit) results =
      atPositions (fun k => position results.length r.1 ≤ k ∧ ∀ stop, r.2 = some stop → k < position results.length stop) 0 results :=
  ⟨r, (C58_slice s r).2 (Or.inl h), entriesRange_eq r.1 r.2 results⟩

theorem pages_prefix {α : Type} (m : Nat) (results : List α) : ∀ k : Nat,
    ((List.range k).flatMap (fun p => entriesRange (some (((m * p : Nat) : Int), some ((m * (p + 1) : Nat) : Int))) results)) = results.take (m * k) := by
  intro k
  induction k with
  | zero => simp
  | succ k ih =>
    rw [List.range_succ, List.flatMap_append, ih]
    simp only [List.flatMap_cons, List.flatMap_nil, List.append_nil, entriesRange, pySlice, sliceIndex]
    rw [if_neg (by omega), if_neg (by omega), Int.toNat_natCast, Int.toNat_natCast]
    have hle : m * k ≤ m * (k + 1) := Nat.mul_le_mul_left m (by omega)
    by_cases h1 : m * (k + 1) ≤ results.length
    · rw [Nat.min_eq_left h1, Nat.min_eq_left (by omega)]
      have := List.take_append_drop (m * k) (results.take (m * (k + 1)))
      rwa [List.take_take, Nat.min_eq_left hle] at this
    · rw [Nat.min_eq_right (b := results.length) (a := m * (k + 1)) (by omega), List.take_length]
      by_cases h2 : m * k ≤ results.length
      · rw [Nat.min_eq_left h2, List.take_append_drop, List.take_of_length_le (by omega)]
      · rw [Nat.min_eq_right (by omega), List.drop_eq_nil_of_le (Nat.le_refl _), List.append_nil, List.take_of_length_le (by omega),
          List.take_of_length_le (by omega)]

/-- The pages `m,0`, `m,1`, ... up to one that reaches the end together give every result exactly once, in order. -/
theorem C34_pages {α : Type} (results : List α) (m k : Nat) (hk : results.length ≤ m * k) :
    ∃ pages : List (Int × Option Int),
      All2 (fun p limit => typeSlice (natStr m ++ ',' :: natStr p) = .ok limit) (List.range k) pages ∧
      pages.flatMap (fun limit => entriesRange (some limit) results) = results := by
  refine ⟨(List.range k).map (fun p => (((m * p : Nat) : Int), some ((m * (p + 1) : Nat) : Int))), ?_, ?_⟩
  · generalize List.range k = l
    induction l with
    | nil => exact .nil
    | cons p l ih =>
      refine .cons ?_ ih
      exact (C58_slice _ _).2 (Or.inl (.page (numeral_iff.2 ⟨natStr_ne_nil m, natStr_digits m, natOfDigits_natStr m⟩)
        (numeral_iff.2 ⟨natStr_ne_nil p, natStr_digits p, natOfDigits_natStr p⟩)))
  · rw [List.flatMap_map]
    rw [pages_prefix, List.take_of_length_le hk]

/-- Without `--limit` all results are processed. -/
theorem C34_all {α : Type} (results : List α) : entriesRange none results = results := rfl

example : SliceText "-3:-1".toList (-3, some (-1)) ∧ entriesRange (some (-3, some (-1))) [10, 20, 30, 40] = [20, 30] ∧
    entriesRange (some (1, none)) [10, 20, 30, 40] = [20, 30, 40] ∧ [10, 20, 30, 40, 50].length ≤ 2 * 3 ∧
    entriesRange (some (4, some 6)) [10, 20, 30, 40, 50] = [50] := by
  refine ⟨((C58_slice _ _).1 (by decide : typeSlice "-3:-1".toList = .ok (-3, some (-1)))).elim id ?_, by decide⟩
  rintro ⟨t, h, -⟩
  exact absurd (congrArg List.getLast? h) (by simp)

end FF
