import Verif.Model.Convert
import Verif.Lemmas.PyInt
import Verif.Spec.Convert
namespace FF
open Spec

/-- Pieces: digits followed by one character that is no digit. -/
def Pieces (ps : List (Str × Char)) : Prop := ∀ p ∈ ps, Digits p.1 ∧ isDigit p.2 = false

/-- Sum of the pieces as the code computes it: characters that are no unit count nothing. -/
def durSum : List (Str × Char) → Nat
  | [] => 0
  | p :: ps => natOfDigits p.1 * unitFactor p.2 + durSum ps

theorem takeWhile_digits {d : Str} (hd : ∀ c ∈ d, isDigit c = true) {u : Char} (hu : isDigit u = false) (r : Str) :
    (d ++ u :: r).takeWhile isDigit = d ∧ (d ++ u :: r).dropWhile isDigit = u :: r := by
  induction d with
  | nil => simp [hu]
  | cons x xs ih =>
    have := ih (fun c hc => hd c (by simp [hc]))
    simp [hd x (by simp), this]

theorem unitFactor_not {u : Char} (h : isUnit u = false) : unitFactor u = 0 := by
  unfold unitFactor
  split <;> first | rfl | (revert h; decide)

theorem unit_not_digit {u : Char} (h : isUnit u = true) : isDigit u = false := by
  simp only [isUnit, List.mem_cons, List.not_mem_nil, or_false, decide_eq_true_eq] at h
  rcases h with rfl | rfl | rfl | rfl | rfl | rfl | rfl <;> decide

theorem durScan_pieces : ∀ (ps : List (Str × Char)) (f pos d : Nat), Pieces ps → (durationText ps).length < f →
    durScan f pos pos d (durationText ps) = some (d + durSum ps, pos + (durationText ps).length) := by
  intro ps
  induction ps with
  | nil => intro f pos d _ hf; cases f with
    | zero => simp [durationText] at hf
    | succ f => simp [durationText, durScan, durSum]
  | cons p ps ih =>
    intro f pos d hp hf
    obtain ⟨w, u⟩ := p
    have hpu := hp (w, u) (by simp)
    obtain ⟨⟨hne, hw⟩, hu⟩ := hpu
    simp only at hne hw hu
    have hps : Pieces ps := fun q hq => hp q (by simp [hq])
    have ht : durationText ((w, u) :: ps) = w ++ u :: durationText ps := by simp [durationText]
    rw [ht] at hf ⊢
    obtain ⟨htw, hdw⟩ := takeWhile_digits hw hu (durationText ps)
    cases w with
    | nil => exact absurd rfl hne
    | cons x xs =>
      cases f with
      | zero => omega
      | succ f =>
        rw [List.cons_append] at htw hdw hf ⊢
        simp only [durScan, hw x (by simp), if_true, htw, hdw]
        simp only [List.length_cons, List.length_append] at hf ⊢
        rw [if_neg (by simp)]
        split
        · rw [ih f _ _ hps (by omega)]
          simp only [durSum]
          congr 2 <;> omega
        · rename_i hun
          cases f with
          | zero => omega
          | succ f =>
            simp only [durScan, hu]
            rw [if_neg (by simp), Nat.add_assoc, Nat.add_assoc, ih f _ _ hps (by omega)]
            simp only [durSum, unitFactor_not (by simpa using hun), Nat.mul_zero, Nat.zero_add]
            congr 2; omega

theorem durScan_behind : ∀ (f pos e d : Nat) (s : Str), e < pos → durScan f pos e d s = none ∨ durScan f pos e d s = some (d, e) := by
  intro f
  induction f with
  | zero => intro pos e d s h; exact .inr rfl
  | succ f ih =>
    intro pos e d s h
    cases s with
    | nil => exact .inr rfl
    | cons c cs =>
      simp only [durScan]
      split
      · rw [if_pos (by omega)]; exact .inl rfl
      · exact ih _ _ _ _ (by omega)

theorem mem_takeWhile_imp {p : Char → Bool} {s : Str} : ∀ c ∈ s.takeWhile p, p c = true := by
  intro c hc
  induction s with
  | nil => simp at hc
  | cons x xs ih =>
    rw [List.takeWhile_cons] at hc
    split at hc
    · rename_i hx
      rcases List.mem_cons.1 hc with rfl | hc
      · exact hx
      · exact ih hc
    · cases hc

theorem dropWhile_head {p : Char → Bool} {s : Str} {x : Char} {xs : Str} (h : s.dropWhile p = x :: xs) : p x = false := by
  induction s with
  | nil => simp at h
  | cons y ys ih =>
    rw [List.dropWhile_cons] at h
    split at h
    · exact ih h
    · rename_i hy; cases h; simpa using hy

theorem durScan_inv : ∀ (f pos d : Nat) (s : Str) (d' : Nat), s.length < f → durScan f pos pos d s = some (d', pos + s.length) →
    ∃ ps, Pieces ps ∧ s = durationText ps ∧ d' = d + durSum ps := by
  intro f
  induction f using Nat.strongRecOn with
  | _ f ih =>
    intro pos d s d' hf h
    cases f with
    | zero => omega
    | succ f =>
      cases s with
      | nil => simp [durScan] at h; exact ⟨[], (by intro p hp; cases hp), rfl, by simp [durSum, h]⟩
      | cons c cs =>
        simp only [durScan] at h
        split at h
        · rename_i hc
          rw [if_neg (by simp)] at h
          have hsplit := List.takeWhile_append_dropWhile (p := isDigit) (l := c :: cs)
          have hlen := congrArg List.length hsplit
          simp only [List.length_append] at hlen
          have hdig : Digits ((c :: cs).takeWhile isDigit) := ⟨by simp [hc], mem_takeWhile_imp⟩
          generalize htw : (c :: cs).takeWhile isDigit = w at *
          generalize hdw : (c :: cs).dropWhile isDigit = r at *
          cases r with
          | nil => simp at h hlen; omega
          | cons u r =>
            have hu := dropWhile_head hdw
            have hwl : 0 < w.length := List.length_pos_iff.2 hdig.1
            simp only [List.length_cons] at hlen hf h
            split at h
            · obtain ⟨ps, h1, h2, h3⟩ := ih f (by omega) (pos + w.length + 1) _ r d' (by omega)
                (by rw [h]; congr 2; omega)
              refine ⟨(w, u) :: ps, ?_, ?_, ?_⟩
              · intro p hp
                rcases List.mem_cons.1 hp with rfl | hp
                · exact ⟨hdig, hu⟩
                · exact h1 p hp
              · rw [← hsplit, h2]; simp [durationText]
              · rw [h3]; simp [durSum]; omega
            · rename_i hun
              cases f with
              | zero => omega
              | succ f =>
                simp only [durScan, hu] at h
                rw [if_neg (by simp)] at h
                obtain ⟨ps, h1, h2, h3⟩ := ih f (by omega) (pos + w.length + 1) _ r d' (by omega)
                  (by rw [h]; congr 2; omega)
                refine ⟨(w, u) :: ps, ?_, ?_, ?_⟩
                · intro p hp
                  rcases List.mem_cons.1 hp with rfl | hp
                  · exact ⟨hdig, hu⟩
                  · exact h1 p hp
                · rw [← hsplit, h2]; simp [durationText]
                · rw [h3]; simp [durSum, unitFactor_not (by simpa using hun)]
        · rcases durScan_behind f (pos + 1) pos d cs (by omega) with h0 | h0
          · rw [h0] at h; cases h
          · rw [h0] at h; simp at h

/-- `end` never falls short of the position it started from, and only pieces reach the end of the string. -/
theorem parseDuration_iff (s : Str) (v : Int) : parseDuration s = some v ↔
    (∃ n, pyInt s = some n ∧ v = n * 60) ∨ (pyInt s = none ∧ ∃ ps, Pieces ps ∧ s = durationText ps ∧ v = (durSum ps : Nat)) := by
  unfold parseDuration
  cases hp : pyInt s with
  | some n => simp [eq_comm]
  | none =>
    simp only [reduceCtorEq, false_and, exists_false, true_and, false_or]
    constructor
    · intro h
      cases hs : durScan (s.length + 1) 0 0 0 s with
      | none => rw [hs] at h; cases h
      | some r =>
        obtain ⟨d, e⟩ := r
        rw [hs] at h
        simp only at h
        split at h
        · cases h
        · rename_i he
          simp at he
          subst he
          obtain ⟨ps, h1, h2, h3⟩ := durScan_inv (s.length + 1) 0 0 s d (by omega) (by simpa using hs)
          refine ⟨ps, h1, h2, ?_⟩
          simp at h h3
          rw [← h, h3]
    · rintro ⟨ps, h1, rfl, rfl⟩
      rw [durScan_pieces ps _ 0 0 h1 (by omega)]
      simp

end FF
