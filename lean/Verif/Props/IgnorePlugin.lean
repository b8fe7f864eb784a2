import Verif.Model.IgnorePlugin
import Verif.Props.Ignore
/-! C77: the caches of the ignore plugin. -/
namespace FF
open Spec

theorem mkIgnore_total {cache : List (Str × IgnoreFile)} {p : Str} {i : IgnoreFile} {q : Str} {j : IgnoreFile} (h : ((p, i) :: cache).lookup q = some j) :
    (q = p ∧ i = j) ∨ cache.lookup q = some j := by
  rw [List.lookup_cons] at h
  by_cases e : q = p
  · subst e; simp at h; exact .inl ⟨rfl, h⟩
  · have : (q == p) = false := by simpa using e
    rw [this] at h
    exact .inr h

theorem ignoresLoop_eq (read : ReadFile) (ps : List Str) (cache : List (Str × IgnoreFile))
    (hc : ∀ q j, cache.lookup q = some j → ∃ lines, read q = some lines ∧ mkIgnoreFile (pathSplit q).1 (pathSplit q).2 lines = some j) :
    (∃ is cache', ignoresLoop read cache ps = some (is, cache') ∧ getIgnores read ps = some is ∧
      ∀ q j, cache'.lookup q = some j → ∃ lines, read q = some lines ∧ mkIgnoreFile (pathSplit q).1 (pathSplit q).2 lines = some j) ∨
    (ignoresLoop read cache ps = none ∧ getIgnores read ps = none) := by
  induction ps generalizing cache with
  | nil => exact .inl ⟨[], cache, rfl, rfl, hc⟩
  | cons p ps ih =>
    rw [ignoresLoop, getIgnores]
    cases hl : cache.lookup p with
    | some i =>
      obtain ⟨lines, h1, h2⟩ := hc p i hl
      simp only [h1, h2]
      rcases ih cache hc with ⟨is, cache', h3, h4, h5⟩ | ⟨h3, h4⟩
      · exact .inl ⟨i :: is, cache', by simp [h3], by simp [h4], h5⟩
      · exact .inr ⟨by simp [h3], by simp [h4]⟩
    | none =>
      cases hr : read p with
      | none => exact ih cache hc
      | some lines =>
        simp only
        cases hm : mkIgnoreFile (pathSplit p).1 (pathSplit p).2 lines with
        | none => exact .inr ⟨rfl, rfl⟩
        | some i =>
          have hc' : ∀ q j, ((p, i) :: cache).lookup q = some j → ∃ lines, read q = some lines ∧ mkIgnoreFile (pathSplit q).1 (pathSplit q).2 lines = some j := by
            intro q j h
            rcases mkIgnore_total h with ⟨rfl, rfl⟩ | h
            · exact ⟨lines, hr, hm⟩
            · exact hc q j h
          rcases ih _ hc' with ⟨is, cache', h3, h4, h5⟩ | ⟨h3, h4⟩
          · exact .inl ⟨i :: is, cache', by simp [h3], by simp [h4], h5⟩
          · exact .inr ⟨by simp [h3], by simp [h4]⟩

/-- What the caches must hold. -/
def IgnoreCaches.Right (read : ReadFile) (c : IgnoreCaches) : Prop :=
  (∀ q j, c.files.lookup q = some j → ∃ lines, read q = some lines ∧ mkIgnoreFile (pathSplit q).1 (pathSplit q).2 lines = some j) ∧
  ∀ ps is, c.lists.lookup ps = some is → getIgnores read ps = some is

theorem ignoreProcess_eq (read : ReadFile) {c : IgnoreCaches} (hc : c.Right read) (q : IgnoreQuery) :
    (∃ r c', ignoreProcess read c q = some (r, c') ∧ (isIgnored read q.ignorePaths q.abspath q.name q.isDir).map (fun x => (x.1, x.2.getD [])) = some r ∧ c'.Right read) ∨
    (ignoreProcess read c q = none ∧ isIgnored read q.ignorePaths q.abspath q.name q.isDir = none) := by
  unfold ignoreProcess isIgnored
  by_cases h0 : q.ignorePaths = []
  · exact .inl ⟨_, _, by rw [if_pos h0], by rw [if_pos h0]; rfl, hc⟩
  · rw [if_neg h0, if_neg h0]
    unfold cachedIgnores
    cases hl : c.lists.lookup q.ignorePaths with
    | some is =>
      have := hc.2 _ _ hl
      exact .inl ⟨_, c, rfl, by rw [this]; rfl, hc⟩
    | none =>
      rcases ignoresLoop_eq read q.ignorePaths c.files hc.1 with ⟨is, cache', h3, h4, h5⟩ | ⟨h3, h4⟩
      · refine .inl ⟨_, _, by rw [h3]; rfl, by rw [h4]; rfl, h5, ?_⟩
        intro ps js h
        rw [List.lookup_cons] at h
        by_cases e : ps = q.ignorePaths
        · subst e; simp at h; subst h; exact h4
        · have : (ps == q.ignorePaths) = false := by simpa using e
          rw [this] at h
          exact hc.2 _ _ h
      · exact .inr ⟨by rw [h3]; rfl, by rw [h4]; rfl⟩

theorem ignoreEntries_eq (read : ReadFile) {c : IgnoreCaches} (hc : c.Right read) (qs : List IgnoreQuery) :
    ignoreEntries read c qs = qs.mapM (fun q => (isIgnored read q.ignorePaths q.abspath q.name q.isDir).map (fun x => (x.1, x.2.getD []))) := by
  induction qs generalizing c with
  | nil => rfl
  | cons q qs ih =>
    rw [ignoreEntries, List.mapM_cons]
    rcases ignoreProcess_eq read hc q with ⟨r, c', h1, h2, h3⟩ | ⟨h1, h2⟩
    · simp only [h1, h2, ih h3]
      cases qs.mapM (fun q => (isIgnored read q.ignorePaths q.abspath q.name q.isDir).map (fun x => (x.1, x.2.getD []))) <;> rfl
    · rw [h1, h2]; rfl

/-- C77: the verdicts about a sequence of files are those about each of the files on its own (`isIgnored`, for which C16 tells what they are),
and looking at a file fails only if it fails on its own. -/
theorem C77_verdicts (read : ReadFile) (qs : List IgnoreQuery) :
    ignoreEntries read ⟨[], []⟩ qs = qs.mapM (fun q => (isIgnored read q.ignorePaths q.abspath q.name q.isDir).map (fun x => (x.1, x.2.getD []))) :=
  ignoreEntries_eq read ⟨by simp, by simp⟩ qs

/-- C77: hence the order of files does not matter. -/
theorem C77_order (read : ReadFile) (qs rs : List IgnoreQuery) (q : IgnoreQuery) {vs ws : List (Bool × Str)} {v w : Bool × Str}
    (h1 : ignoreEntries read ⟨[], []⟩ (qs ++ [q]) = some (vs ++ [v])) (h2 : ignoreEntries read ⟨[], []⟩ (rs ++ [q]) = some (ws ++ [w])) : v = w := by
  rw [C77_verdicts] at h1 h2
  rw [List.mapM_append] at h1 h2
  generalize (fun q : IgnoreQuery => (isIgnored read q.ignorePaths q.abspath q.name q.isDir).map (fun x => (x.1, x.2.getD []))) = f at h1 h2
  have key : ∀ (qs : List IgnoreQuery) (vs : List (Bool × Str)) (v : Bool × Str), (do let a ← qs.mapM f; let b ← [q].mapM f; pure (a ++ b)) = some (vs ++ [v]) → f q = some v := by
    intro qs vs v h
    cases ha : qs.mapM f with
    | none => simp [ha] at h
    | some a =>
      cases hb : f q with
      | none => simp [ha, hb, List.mapM_cons] at h
      | some b =>
        simp [ha, hb, List.mapM_cons] at h
        rw [h.2]
  have e := (key qs vs v h1).symm.trans (key rs ws w h2)
  simpa using e

example : ignoreEntries (fun p => if p = "/r/.gitignore".toList then some ["*.o".toList] else none) ⟨[], []⟩
    [⟨["/r/.gitignore".toList], "/r/x.o".toList, "x.o".toList, false⟩, ⟨["/r/.gitignore".toList], "/r/x.c".toList, "x.c".toList, false⟩] =
    some [(true, "/r/.gitignore".toList), (false, [])] := by decide

end FF
