import Verif.Spec.Data
import Verif.Props.Search
namespace FF
open Spec

/-! ### C133: the attributes of the file plugin -/

/-- C133: whatever the system says, the value of each attribute has the type the attribute is declared with. -/
theorem C133_typed {S : SearchEnv} {W : FileWorld} (hS : S.stat = W.stat) (i : EntInfo) {a : Str × Ty} (ha : a ∈ filePlugin.attrs) {v : Val}
    (hv : S.attr i (filePlugin.name, a.1) = some v) : HasType a.2 v := by
  have e : S.attr i (filePlugin.name, a.1) = S.fileAttr i a.1 := rfl
  rw [e] at hv
  simp only [filePlugin, List.map_cons, List.map_nil, List.mem_cons, List.not_mem_nil, or_false] at ha
  rcases ha with h | h | h | h | h | h | h | h | h | h | h | h | h | h | h | h | h | h | h | h | h | h | h | h | h | h | h | h | h | h | h | h | h | h | h | h | h <;> subst h <;>
    simp [SearchEnv.fileAttr, hS, FileWorld.stat, statAttr, FileWorld.rest] at hv <;>
    first
      | (obtain ⟨_, rfl⟩ := hv; trivial; done)
      | (obtain ⟨_, _, rfl⟩ := hv; trivial; done)
      | (subst hv; trivial)
      | (rcases hv with ⟨_, rfl⟩ | ⟨_, rfl⟩ <;> trivial)

/-- C133: every file has all attributes, except that only symbolic links have link and target. -/
theorem C133_present {S : SearchEnv} {W : FileWorld} (hS : S.stat = W.stat) {i : EntInfo} (hn : i.entry.name ≠ []) {a : Str × Ty} (ha : a ∈ filePlugin.attrs) :
    (S.attr i (filePlugin.name, a.1)).isSome ↔ (a.1 = "link".toList ∨ a.1 = "target".toList → S_ISLNK (W.status i).mode = true) := by
  have e : S.attr i (filePlugin.name, a.1) = S.fileAttr i a.1 := rfl
  rw [e]
  have hh : i.entry.hide.isSome = true := by
    unfold Entry.hide
    cases h : i.entry.name with
    | nil => exact absurd h hn
    | cons c s => rfl
  simp only [filePlugin, List.map_cons, List.map_nil, List.mem_cons, List.not_mem_nil, or_false] at ha
  rcases ha with h | h | h | h | h | h | h | h | h | h | h | h | h | h | h | h | h | h | h | h | h | h | h | h | h | h | h | h | h | h | h | h | h | h | h | h | h <;> subst h <;>
    simp [SearchEnv.fileAttr, hS, FileWorld.stat, statAttr, FileWorld.rest, hh]

/-- C133: a file is a mountpoint if it is a directory on another device than the directory above it, or the root directory itself. -/
theorem C133_mount {S : SearchEnv} {W : FileWorld} (hS : S.stat = W.stat) (i : EntInfo) :
    S.attr i ("file".toList, "mount".toList) = some (.bool true) ↔
      S_ISDIR (W.status i).mode = true ∧ (W.realpath (pathJoin i.entry.path ['.', '.']) = i.entry.path ∨ ∃ d, W.lstatDev (W.realpath (pathJoin i.entry.path ['.', '.'])) = some d ∧ d ≠ (W.status i).dev) := by
  have e : S.attr i ("file".toList, "mount".toList) = some (.bool (W.mount i)) := by
    show S.fileAttr i "mount".toList = _
    simp [SearchEnv.fileAttr, hS, FileWorld.stat, statAttr, FileWorld.rest]
  rw [e]
  have ht : (W.status i).type = "directory".toList ↔ S_ISDIR (W.status i).mode = true := by
    unfold Status.type
    cases S_ISDIR (W.status i).mode with
    | true => simp
    | false =>
      simp only [Bool.false_eq_true, if_false, iff_false]
      (repeat' split) <;> decide
  simp only [Option.some.injEq, Val.bool.injEq]
  by_cases hd : S_ISDIR (W.status i).mode = true
  · have em : W.mount i = (if W.realpath (pathJoin i.entry.path ['.', '.']) = i.entry.path then true
        else match W.lstatDev (W.realpath (pathJoin i.entry.path ['.', '.'])) with
          | none => false
          | some dev => decide ((W.status i).dev ≠ dev)) := if_neg (not_not_intro (ht.2 hd))
    rw [em]
    by_cases hp : W.realpath (pathJoin i.entry.path ['.', '.']) = i.entry.path
    · rw [if_pos hp]
      exact ⟨fun _ => ⟨hd, .inl hp⟩, fun _ => rfl⟩
    · rw [if_neg hp]
      cases hl : W.lstatDev (W.realpath (pathJoin i.entry.path ['.', '.'])) with
      | none => simp [hp]
      | some d =>
        simp only [hp, hd, true_and, false_or, Option.some.injEq, exists_eq_left', decide_eq_true_eq]
        exact ⟨Ne.symm, Ne.symm⟩
  · have em : W.mount i = false := if_pos fun h => hd (ht.1 h)
    rw [em]
    simp [hd]

/-- A symbolic link `x`, to nothing, in the current directory. -/
def demoFileWorld : FileWorld where
  status := fun _ => { mode := 0o120777, ino := 1, dev := 1, nlink := 1, uid := 0, gid := 0, size := 3, atime := 1, mtime := 1, ctime := 1 }
  device := fun _ => 1
  listing := fun _ => none
  users := fun _ => none
  groups := fun _ => none
  readlink := fun _ => "y".toList
  realpath := fun p => "/".toList ++ p
  exists' := fun _ => false
  lstatDev := fun _ => some 1
  mounts := []

/-- The hypotheses of C133 are met. -/
example : ∃ (S : SearchEnv) (i : EntInfo), S.stat = demoFileWorld.stat ∧ i.entry.name ≠ [] ∧ S.attr i (filePlugin.name, "target".toList) = some (.str "/y".toList) ∧
    S.attr i (filePlugin.name, "mount".toList) = some (.bool false) :=
  ⟨{ demoSearch with stat := demoFileWorld.stat }, ⟨⟨".".toList, "/d".toList⟩, "x".toList, false, []⟩, rfl, by decide, by rfl, by rfl⟩

end FF
