import Verif.Model.Status
import Verif.Model.Field
import Verif.Spec.Status
/-! C71, C72, C73: attributes from stat(2). -/
namespace FF
open Spec

/-- A mask of consecutive bits. -/
theorem and_mask (m k n : Nat) : m &&& ((2 ^ k - 1) * 2 ^ n) = (m / 2 ^ n % 2 ^ k) * 2 ^ n := by
  apply Nat.eq_of_testBit_eq
  intro i
  rw [Nat.testBit_and, Nat.testBit_mul_two_pow, Nat.testBit_mul_two_pow, Nat.testBit_mod_two_pow, Nat.testBit_div_two_pow, Nat.testBit_two_pow_sub_one]
  by_cases h : n ≤ i
  · rw [show i - n + n = i by omega]
    cases m.testBit i <;> simp [h]
  · simp [h]

theorem ifmt_eq (m : Nat) : S_IFMT m = typeNumber m * 4096 := and_mask m 4 12

theorem perm_eq (s : Status) : s.perm = s.mode % 4096 := by
  have := and_mask s.mode 12 0
  simpa [Status.perm] using this

theorem bit_eq (m n : Nat) : m &&& 2 ^ n = (m / 2 ^ n % 2) * 2 ^ n := by
  have := and_mask m 1 n
  simpa using this

theorem is_iff (m n : Nat) : (S_IFMT m = n * 4096) ↔ typeNumber m = n := by rw [ifmt_eq]; omega

theorem isdir_iff (m : Nat) : S_ISDIR m = true ↔ typeNumber m = 4 := by unfold S_ISDIR; rw [decide_eq_true_iff]; exact is_iff m 4
theorem isreg_iff (m : Nat) : S_ISREG m = true ↔ typeNumber m = 8 := by unfold S_ISREG; rw [decide_eq_true_iff]; exact is_iff m 8
theorem islnk_iff (m : Nat) : S_ISLNK m = true ↔ typeNumber m = 10 := by unfold S_ISLNK; rw [decide_eq_true_iff]; exact is_iff m 10
theorem issock_iff (m : Nat) : S_ISSOCK m = true ↔ typeNumber m = 12 := by unfold S_ISSOCK; rw [decide_eq_true_iff]; exact is_iff m 12
theorem isfifo_iff (m : Nat) : S_ISFIFO m = true ↔ typeNumber m = 1 := by unfold S_ISFIFO; rw [decide_eq_true_iff]; exact is_iff m 1
theorem ischr_iff (m : Nat) : S_ISCHR m = true ↔ typeNumber m = 2 := by unfold S_ISCHR; rw [decide_eq_true_iff]; exact is_iff m 2
theorem isblk_iff (m : Nat) : S_ISBLK m = true ↔ typeNumber m = 6 := by unfold S_ISBLK; rw [decide_eq_true_iff]; exact is_iff m 6

theorem typeNumber_cases (m : Nat) : typeNumber m = 4 ∨ typeNumber m = 8 ∨ typeNumber m = 10 ∨ typeNumber m = 12 ∨ typeNumber m = 1 ∨ typeNumber m = 2 ∨
    typeNumber m = 6 ∨ (typeNumber m ≠ 4 ∧ typeNumber m ≠ 8 ∧ typeNumber m ≠ 10 ∧ typeNumber m ≠ 12 ∧ typeNumber m ≠ 1 ∧ typeNumber m ≠ 2 ∧ typeNumber m ≠ 6) := by
  omega

/-- C71: the attribute `type` is the documented name of the type in the mode, and `other` if there is none. -/
theorem C71_type (s : Status) : (∀ r ∈ fileTypes, s.type = r.2.1 ↔ typeNumber s.mode = r.1) ∧
    (s.type = "other".toList ↔ typeNumber s.mode ∉ fileTypes.map Prod.fst) := by
  unfold Status.type
  simp only [isdir_iff, isreg_iff, islnk_iff, issock_iff, isfifo_iff, ischr_iff, isblk_iff]
  rcases typeNumber_cases s.mode with h | h | h | h | h | h | h | ⟨h1, h2, h3, h4, h5, h6, h7⟩
  all_goals first
    | (rw [h]; decide)
    | skip
  simp only [h1, h2, h3, h4, h5, h6, h7, if_false]
  constructor
  · intro r hr
    simp only [fileTypes, List.mem_cons, List.not_mem_nil, or_false] at hr
    rcases hr with rfl | rfl | rfl | rfl | rfl | rfl | rfl <;> simp_all
  · simp [fileTypes, h1, h2, h3, h4, h5, h6, h7]

/-- C71: `perm` is the mode without the file type, and both together are the mode. -/
theorem C71_perm (s : Status) (h : s.mode < 65536) : s.perm < 4096 ∧ s.mode = typeNumber s.mode * 4096 + s.perm := by
  rw [perm_eq]; unfold typeNumber; omega

/-- C71: executables are files other than directories and symbolic links that somebody may execute. -/
theorem C71_exec (s : Status) : s.exec = true ↔ s.type ≠ "directory".toList ∧ s.type ≠ "symlink".toList ∧
    (s.perm / 64 % 2 = 1 ∨ s.perm / 8 % 2 = 1 ∨ s.perm % 2 = 1) := by
  have e1 := bit_eq s.perm 6
  have e2 := bit_eq s.perm 3
  have e3 := bit_eq s.perm 0
  simp only [show (2 : Nat) ^ 6 = 64 by decide, show (2 : Nat) ^ 3 = 8 by decide, show (2 : Nat) ^ 0 = 1 by decide, Nat.div_one, Nat.mul_one] at e1 e2 e3
  unfold Status.exec
  split
  · rename_i h
    constructor
    · intro h'; cases h'
    · rintro ⟨h1, h2, _⟩
      rcases h with h | h
      · exact absurd h h1
      · exact absurd h h2
  · rename_i h
    rw [decide_eq_true_iff, e1, e2, e3]
    have hor : ∀ a b : Nat, a ||| b > 0 ↔ a > 0 ∨ b > 0 := by
      intro a b
      have : a ||| b = 0 ↔ a = 0 ∧ b = 0 := Nat.or_eq_zero_iff
      omega
    rw [hor, hor]
    constructor
    · intro h'
      exact ⟨fun x => h (.inl x), fun x => h (.inr x), by omega⟩
    · rintro ⟨_, _, h'⟩
      omega

/-- C71: only regular files have a size. -/
theorem C71_size (s : Status) : s.fileSize = if s.type = "file".toList then s.size else 0 := by
  have h := (C71_type s).1 (8, "file".toList, '-') (by decide)
  unfold Status.fileSize
  simp only [isreg_iff]
  by_cases h8 : typeNumber s.mode = 8
  · rw [if_pos h8, if_pos (h.2 h8)]
  · rw [if_neg h8, if_neg (fun x => h8 (h.1 x))]

/-- C71: empty are regular files without content, and directories that are known to contain nothing. -/
theorem C71_empty (s : Status) (listing : Option (List Str)) :
    s.empty listing = true ↔ (s.type = "file".toList ∧ s.size = 0) ∨ (s.type = "directory".toList ∧ listing = some []) := by
  have h8 := (C71_type s).1 (8, "file".toList, '-') (by decide)
  have h4 := (C71_type s).1 (4, "directory".toList, 'd') (by decide)
  simp only at h8 h4
  unfold Status.empty Status.fileSize
  simp only [isdir_iff, isreg_iff, h8, h4]
  by_cases c4 : typeNumber s.mode = 4
  · simp only [c4, if_true]
    match listing with
    | some [] => simp
    | some (_ :: _) => simp
    | none => simp
  · by_cases c8 : typeNumber s.mode = 8
    · simp [c8]
    · simp [c4, c8]

/-! ### Modes as text -/

/-- C72: the first letter shows the type. -/
theorem C72_type (mode : Nat) : ∃ c p, fileMode mode = c :: p ∧ (∀ r ∈ fileTypes, c = r.2.2 ↔ typeNumber mode = r.1) ∧
    (c = '?' ↔ typeNumber mode ∉ fileTypes.map Prod.fst) := by
  refine ⟨_, _, rfl, ?_⟩
  unfold filetypeChar
  simp only [isdir_iff, isreg_iff, islnk_iff, issock_iff, isfifo_iff, ischr_iff, isblk_iff]
  rcases typeNumber_cases mode with h | h | h | h | h | h | h | ⟨h1, h2, h3, h4, h5, h6, h7⟩
  all_goals first
    | (rw [h]; decide)
    | skip
  simp only [h1, h2, h3, h4, h5, h6, h7, if_false]
  constructor
  · intro r hr
    simp only [fileTypes, List.mem_cons, List.not_mem_nil, or_false] at hr
    rcases hr with rfl | rfl | rfl | rfl | rfl | rfl | rfl <;> simp_all
  · simp [fileTypes, h1, h2, h3, h4, h5, h6, h7]

theorem bit_ne (m n : Nat) : (decide (m &&& 2 ^ n ≠ 0)) = decide (m / 2 ^ n % 2 = 1) := by
  rw [bit_eq]
  have : 0 < 2 ^ n := Nat.pos_of_ne_zero (by simp)
  rcases Nat.mod_two_eq_zero_or_one (m / 2 ^ n) with h | h
  · rw [h]; simp
  · rw [h]; simp

theorem three_bits (q : Nat) : q % 8 = q / 4 % 2 * 4 + q / 2 % 2 * 2 + q % 2 := by omega

theorem readClass_bits {special : Char} (hs : special = 's' ∨ special = 't') (q p : Nat) (hp : p < 2) :
    readClass special [if decide (q / 4 % 2 = 1) = true then 'r' else '-', if decide (q / 2 % 2 = 1) = true then 'w' else '-',
      if decide (p = 1) = true then (if decide (q % 2 = 1) = true then special else special.toUpper) else (if decide (q % 2 = 1) = true then 'x' else '-')] =
    some (q % 8, p) := by
  rw [three_bits q]
  have h4 := Nat.mod_two_eq_zero_or_one (q / 4)
  have h2 := Nat.mod_two_eq_zero_or_one (q / 2)
  have h1 := Nat.mod_two_eq_zero_or_one q
  have h0 : p = 0 ∨ p = 1 := by omega
  rcases hs with rfl | rfl <;> rcases h4 with h4 | h4 <;> rcases h2 with h2 | h2 <;> rcases h1 with h1 | h1 <;> rcases h0 with rfl | rfl <;>
    rw [h4, h2, h1] <;> decide

theorem perm_split (m : Nat) : m % 4096 = m / 512 % 8 * 512 + m / 64 % 8 * 64 + m / 8 % 8 * 8 + m % 8 := by omega

/-- C72: the nine letters that follow, read as documented in ls(1), are the permissions. -/
theorem C72_perms (mode : Nat) : readPerms ((fileMode mode).drop 1) = some (mode % 4096) := by
  have b (n : Nat) (m : Nat) (hm : m = 2 ^ n) : (decide (mode &&& m ≠ 0)) = decide (mode / m % 2 = 1) := by rw [hm]; exact bit_ne mode n
  have u := readClass_bits (special := 's') (.inl rfl) (mode / 64) (mode / 2048 % 2) (by omega)
  have g := readClass_bits (special := 's') (.inl rfl) (mode / 8) (mode / 1024 % 2) (by omega)
  have o := readClass_bits (special := 't') (.inr rfl) mode (mode / 512 % 2) (by omega)
  simp only [Nat.div_div_eq_div_mul, Nat.reduceMul] at u g o
  have up : 's'.toUpper = 'S' := by decide
  have up' : 't'.toUpper = 'T' := by decide
  rw [up] at u g
  rw [up'] at o
  unfold fileMode readPerms
  simp only [List.drop_succ_cons, List.drop_zero, List.take_succ_cons, List.take_zero]
  simp only [b 8 0o400 rfl, b 7 0o200 rfl, b 6 0o100 rfl, b 5 0o040 rfl, b 4 0o020 rfl, b 3 0o010 rfl, b 2 0o004 rfl, b 1 0o002 rfl, b 0 0o001 rfl, b 11 0o4000 rfl,
    b 10 0o2000 rfl, b 9 0o1000 rfl, Nat.div_one, u, g, o]
  have e := three_bits (mode / 512)
  simp only [Nat.div_div_eq_div_mul, Nat.reduceMul] at e
  rw [perm_split mode, e]

/-- C72: different modes are never shown alike. -/
theorem C72_injective {m n : Nat} (hm : m < 65536) (hn : n < 65536) (hk : typeNumber m ∈ fileTypes.map Prod.fst) (h : fileMode m = fileMode n) : m = n := by
  have hp : some (m % 4096) = some (n % 4096) := by rw [← C72_perms, ← C72_perms, h]
  have hp := Option.some.inj hp
  obtain ⟨c, p, e1, t1, _⟩ := C72_type m
  obtain ⟨c', p', e2, t2, _⟩ := C72_type n
  have hc : c = c' := by
    rw [e1, e2] at h
    exact (List.cons.inj h).1
  subst hc
  obtain ⟨r, hr, hr'⟩ := List.mem_map.1 hk
  have := (t2 r hr).1 ((t1 r hr).2 hr'.symm)
  have e : typeNumber m = typeNumber n := by rw [this, hr']
  unfold typeNumber at e
  omega

/-- C72: this is how modes are printed with the modifier `h`. -/
theorem C72_output (o : OutEnv) (m : Nat) : Ty.mode.output o (some 'h') (.int m) = fileMode m := rfl

example : fileMode 0o100644 = "-rw-r--r--".toList ∧ fileMode 0o104755 = "-rwsr-xr-x".toList ∧ fileMode 0o041777 = "drwxrwxrwt".toList ∧
    fileMode 0o2640 = "?rw-r-S---".toList := by decide
example : typeNumber 0o100644 ∈ fileTypes.map Prod.fst := by decide

def sampleStatus : Status := ⟨0o100755, 7, 1, 1, 1000, 1000, 12, 0, 0, 0⟩

example : sampleStatus.mode < 65536 ∧ sampleStatus.type = "file".toList ∧ sampleStatus.exec = true ∧ sampleStatus.perm = 0o755 ∧ sampleStatus.empty none = false := by decide
example : ({ sampleStatus with mode := 0o040755 } : Status).exec = false ∧ ({ sampleStatus with mode := 0o040755 } : Status).empty (some []) = true ∧
    ({ sampleStatus with mode := 0o040755 } : Status).fileSize = 0 := by decide

/-! ### Owners -/

theorem ownerNames_eq (db : Nat → Option Str) : ∀ (ids : List Nat) (cache : List (Nat × Str)), (∀ r ∈ cache, r.2 = (db r.1).getD []) →
    ownerNames db cache ids = ids.map (fun id => (db id).getD [])
  | [], _, _ => rfl
  | id :: ids, cache, h => by
    have h1 : (ownerName db cache id).1 = (db id).getD [] := by
      unfold ownerName
      split
      · rename_i r hr
        rw [h r (List.mem_of_find?_eq_some hr)]
        have := List.find?_some hr
        simp only [decide_eq_true_eq] at this
        rw [this]
      · rfl
    have h2 : ∀ r ∈ (ownerName db cache id).2, r.2 = (db r.1).getD [] := by
      unfold ownerName
      split
      · exact h
      · intro r hr
        rcases List.mem_cons.1 hr with rfl | hr
        · rfl
        · exact h r hr
    rw [ownerNames, h1, ownerNames_eq db ids _ h2, List.map_cons]

/-- C73: the names of owners are those of the database, empty for unknown ids, whatever was asked for before. -/
theorem C73_names (db : Nat → Option Str) (ids : List Nat) : ownerNames db [] ids = ids.map (fun id => (db id).getD []) :=
  ownerNames_eq db ids [] (by simp)

example : ownerNames (fun n => if n = 0 then some "root".toList else none) [] [0, 5, 0, 5] = ["root".toList, [], "root".toList, []] := by decide

end FF
