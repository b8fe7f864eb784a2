import Verif.Spec.Hash
/-! C105: the sums of files. -/
namespace FF
open Spec

theorem hashLoop_ok (A : HashAlg) (fails : Option Nat) (n calls : Nat) (content : Bytes) (h : A.State) (hn : content.length < n)
    (hf : ∀ k, fails = some k → k < calls ∨ content.length + 8192 * (calls + 1) ≤ 8192 * k) :
    ∃ pieces : List Bytes, pieces.flatten = content ∧ hashLoop A fails n calls content h = .ok (pieces.foldl A.update h) := by
  induction n generalizing calls content h with
  | zero => omega
  | succ n ih =>
    have hne : ¬ fails = some calls := fun he => by have := hf calls he; omega
    cases content with
    | nil => exact ⟨[], rfl, by simp [hashLoop, hne]⟩
    | cons b bs =>
      simp only [hashLoop, hne, if_false]
      obtain ⟨p, hp, he⟩ := ih (calls + 1) ((b :: bs).drop 8192) (A.update h ((b :: bs).take 8192)) (by
          simp only [List.length_drop, List.length_cons] at hn ⊢; omega) (by
          intro k hk
          have := hf k hk
          simp only [List.length_drop, List.length_cons] at this ⊢
          omega)
      refine ⟨(b :: bs).take 8192 :: p, by rw [List.flatten_cons, hp, List.take_append_drop], ?_⟩
      rw [← show hashLoop A fails n (calls + 1) ((b :: bs).drop 8192) (A.update h ((b :: bs).take 8192)) = .ok (((b :: bs).take 8192 :: p).foldl A.update h) from he]
      rfl

theorem hash_arith (N k calls m : Nat) (hf : N * k < m + N * (calls + 1)) : N * k < m - N + N * (calls + 1 + 1) := by
  rw [Nat.mul_succ] at hf
  rw [Nat.mul_succ, Nat.mul_succ]
  generalize N * k = x at *
  generalize N * calls = y at *
  omega

theorem hashLoop_error (A : HashAlg) (k n calls : Nat) (content : Bytes) (h : A.State) (hn : content.length < n) (hc : calls ≤ k)
    (hf : 8192 * k < content.length + 8192 * (calls + 1)) : hashLoop A (some k) n calls content h = .error .osError := by
  induction n generalizing calls content h with
  | zero => omega
  | succ n ih =>
    simp only [hashLoop]
    split
    · rfl
    · next hne =>
      have hlt : calls < k := by
        rcases Nat.lt_or_ge calls k with hlt | hge
        · exact hlt
        · exact absurd (congrArg some (Nat.le_antisymm hge hc)) hne
      cases content with
      | nil => simp only [List.length_nil] at hf; omega
      | cons b bs =>
        have := ih (calls + 1) ((b :: bs).drop 8192) (A.update h ((b :: bs).take 8192)) (by
          simp only [List.length_drop, List.length_cons] at hn ⊢; omega) hlt (by
          rw [List.length_drop]
          exact hash_arith 8192 k calls _ hf)
        split
        · next h0 =>
          have := congrArg List.length h0
          simp only [List.length_take, List.length_cons, List.length_nil] at this
          omega
        · exact this

/-- **C105**. The sum of a file that can be read to its end is the sum of its whole content, however long it is; nothing else about the file matters. -/
theorem C105_content (A : HashAlg) (digest : Bytes → Option Str) (hA : Computes A digest) (f : HashFile) (hf : ¬ FailsEarly f) (sum : Str) (hs : digest f.content = some sum) :
    hashCache A (some f) = .ok sum := by
  obtain ⟨p, hp, he⟩ := hashLoop_ok A f.failsAfter (f.content.length + 1) 0 f.content A.start (by omega) (by
    intro k hk
    right
    rcases Nat.lt_or_ge (8192 * k) (f.content.length + 8192) with h | h
    · exact absurd ⟨k, hk, h⟩ hf
    · omega)
  have hd : A.hexdigest (p.foldl A.update A.start) = some sum := by rw [hA, hp, hs]
  simp only [hashCache, he, hd]
  rfl

/-- **C105**. A file that cannot be opened, or cannot be read to its end, has no sum: never that of a part of it. -/
theorem C105_unreadable (A : HashAlg) (f : Option HashFile) (hf : ∀ g, f = some g → FailsEarly g) : hashCache A f = .error .noData := by
  cases f with
  | none => rfl
  | some g =>
    obtain ⟨k, hk, hl⟩ := hf g rfl
    simp only [hashCache, hk, hashLoop_error A k _ 0 g.content A.start (Nat.lt_succ_self _) (Nat.zero_le _) (by omega)]
    rfl

/-- An algorithm for the examples: the sum of the bytes, as so many `x`. -/
def sumAlg : HashAlg := { State := Nat, start := 0, update := fun h b => h + b.sum, hexdigest := fun h => some (List.replicate h 'x') }

theorem sumAlg_computes : Computes sumAlg fun b => some (List.replicate b.sum 'x') := by
  intro pieces
  have h : ∀ (n : Nat) (l : List Bytes), l.foldl (fun h b => h + b.sum) n = n + l.flatten.sum := by
    intro n l
    induction l generalizing n with
    | nil => simp
    | cons b l ih => rw [List.foldl_cons, ih, List.flatten_cons, List.sum_append, Nat.add_assoc]
  show some (List.replicate (pieces.foldl (fun h b => h + b.sum) 0) 'x') = _
  rw [h, Nat.zero_add]

example : hashCache sumAlg (some ⟨[1, 2], none⟩) = .ok ['x', 'x', 'x'] := by
  refine C105_content _ _ sumAlg_computes _ ?_ _ rfl
  rintro ⟨k, hk, _⟩
  exact absurd hk (by simp)

example : FailsEarly ⟨[1, 2], some 1⟩ := ⟨1, rfl, by decide⟩

/-- **C105** (false). An algorithm whose sums may have any length (shake_128 and shake_256, which ff offers as plugins) has no sum, for any file: the plugin fails, which
ends the search. -/
theorem C105_shake_false (A : HashAlg) (hA : Computes A fun _ => none) (f : HashFile) (hf : ¬ FailsEarly f) : hashCache A (some f) = .error .typeError := by
  obtain ⟨p, hp, he⟩ := hashLoop_ok A f.failsAfter (f.content.length + 1) 0 f.content A.start (by omega) (by
    intro k hk
    right
    rcases Nat.lt_or_ge (8192 * k) (f.content.length + 8192) with h | h
    · exact absurd ⟨k, hk, h⟩ hf
    · omega)
  simp only [hashCache, he, hA p]
  rfl

example : ∃ A : HashAlg, Computes A fun _ => none := ⟨{ State := Unit, start := (), update := fun _ _ => (), hexdigest := fun _ => none }, fun _ => rfl⟩

end FF
