import Verif.Model.Manual
import Verif.Model.Context
import Verif.Props.Setup
/-! C114: the exit statuses of the manual. -/
namespace FF
open Spec

/-- The numbers of the manual. -/
theorem exitCodes_numbers : exitCodes.map Prod.fst = [1, 2, 3, 4, 10, 11, 12] := by decide +kernel

theorem documented_iff {n : Nat} : (∃ d, (n, d) ∈ exitCodes) ↔ n ∈ [1, 2, 3, 4, 10, 11, 12] := by
  rw [← exitCodes_numbers, List.mem_map]
  constructor
  · rintro ⟨d, h⟩; exact ⟨_, h, rfl⟩
  · rintro ⟨⟨_, d⟩, h, rfl⟩; exact ⟨d, h⟩

theorem status_documented (f : Fail) : f.status ∈ [1, 2, 3, 4, 10, 11, 12] := by cases f <;> decide

theorem shown_documented {reg : List PluginDef} {ns : NS} {n : Nat} (h : shownStatus reg ns = some n) : n = 0 ∨ n = 2 := by
  unfold shownStatus at h
  split at h
  · simp at h; exact .inl h.symm
  · split at h
    · cases h
    · split at h
      · simp at h; exact .inl h.symm
      · simp at h; exact .inr h.symm
    · simp at h; exact .inr h.symm

theorem setup_documented {W : World} {loaded : LoadResult} {ok there : Str → Bool} {ns : NS} {s : Settings} {n : Nat} (h : W.setupStatusU loaded ok there ns s = some n) :
    n = 0 ∨ n ∈ [1, 2, 3, 4, 10, 11, 12] := by
  unfold World.setupStatusU at h
  split at h
  · simp at h; subst h; decide
  · simp at h; subst h; decide
  · split at h
    · rename_i f _
      simp at h; subst h; exact .inr (status_documented f)
    · split at h
      · rename_i hn
        simp at h; subst h
        rcases shown_documented hn with rfl | rfl <;> decide
      · obtain ⟨f, -, rfl⟩ := Option.map_eq_some_iff.1 h
        exact .inr (status_documented f)

/-- C114: a run that ends before the search has status 0 or one of those of the manual. -/
theorem C114_start {W : World} {loaded : LoadResult} {ok there : Str → Bool} {env : Option Str} {argv : List Str} {n : Nat}
    (h : W.startStatusU loaded ok there env argv = some n) : n = 0 ∨ ∃ d, (n, d) ∈ exitCodes := by
  rw [documented_iff]
  unfold World.startStatusU at h
  split at h
  · simp at h; subst h; decide
  · split at h
    · simp at h; subst h; decide
    · simp at h; subst h; decide
    · split at h
      · simp at h; subst h; decide
      · split at h
        · simp at h; subst h; decide
        · exact setup_documented h

/-- C114: and so has one that comes to its end after the search, with `-X` as well. -/
theorem C114_end (fail : Bool) (s : Ctx) : (exitStatus fail s = 0 ∨ ∃ d, (exitStatus fail s, d) ∈ exitCodes) ∧
    ∀ {α : Type} (r : List (List α × Int) × BatchEnd), batchStatus fail s r = 0 ∨ ∃ d, (batchStatus fail s r, d) ∈ exitCodes := by
  have key : ∀ s, exitStatus fail s = 0 ∨ ∃ d, (exitStatus fail s, d) ∈ exitCodes := by
    intro s
    rw [documented_iff]
    unfold exitStatus
    split
    · decide
    · split
      · decide
      · split <;> decide
  refine ⟨key s, fun r => ?_⟩
  unfold batchStatus
  split
  · exact .inr (documented_iff.2 (by decide))
  · exact key _

/-- C114: after the search the numbers mean what the manual says: 1 that `--fail` was given and there were no results, 3 that a command failed and 4 that a process failed, where
the last failure counts; 0 that there was no failure. -/
theorem C114_meaning (fail : Bool) {s : Ctx} (hs : s.exitcode ∈ [0, 3, 4]) : (exitStatus fail s = 1 ↔ s.exitcode = 0 ∧ fail = true ∧ s.hasResult = false) ∧
    (exitStatus fail s = 3 ↔ s.exitcode = 3) ∧ (exitStatus fail s = 4 ↔ s.exitcode = 4) ∧
    (exitStatus fail s = 0 ↔ s.exitcode = 0 ∧ (fail = true → s.hasResult = true)) := by
  simp only [List.mem_cons, List.not_mem_nil, or_false] at hs
  unfold exitStatus
  rcases hs with h | h | h <;> rw [h] <;> cases fail <;> cases s.hasResult <;> simp

/-- C114: the descriptions of the manual. -/
theorem C114_described : exitCodes.map (fun p => (p.1, (p.2.takeWhile (· ≠ '\n')))) =
    [(1, "The --fail option was specified and there were no search results.".toList), (2, "There was an error in the arguments provided by the user.".toList),
     (3, "One or more --exec or --exec-batch subprocesses had errors.".toList), (4, "One or more ff processes had unrecoverable errors.".toList),
     (10, "A plugin had an unrecoverable error.".toList), (11, "An attribute was specified that is invalid or does not exist.".toList),
     (12, "There was an error in a test definition.".toList)] := by decide +kernel

set_option maxRecDepth 50000 in
set_option maxHeartbeats 8000000 in
/-- C114, negated: status 1 does not mean that nothing was found with `--fail`: it is also that of a run without `--fail` if the exclude test is an unbalanced bracket. -/
theorem C114_one_false : pluginStatus .ok true ["-H", "-e", "("] = some 1 ∧ (parseArgs (ffOptions demoWorld.main.arg) demoWorld.main.arg.maxCpu
    (["-H", "-e", "("].map String.toList)).toOption.map (fun ns => ns "fail".toList) = some (.bool false) := ⟨rfl, rfl⟩

set_option maxRecDepth 50000 in
set_option maxHeartbeats 8000000 in
/-- All statuses occur. -/
example : pluginStatus .badPlugin true ["-H"] = some 10 ∧ pluginStatus .ok true ["-H", "nope=1"] = some 11 ∧ pluginStatus .ok true ["-H", "depth~1"] = some 12 ∧
    pluginStatus .ok true ["-H", "-o", "?"] = some 2 := ⟨rfl, rfl, rfl, rfl⟩
example : exitStatus true ⟨3, 1, 0, false, false⟩ = 3 ∧ exitStatus true ⟨0, 0, 0, false, false⟩ = 1 := ⟨rfl, rfl⟩

end FF
