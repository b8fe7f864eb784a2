import Verif.Model.Profile
import Verif.Lemmas.TerminateAll
import Verif.Props.Walk
/-! C136: profiling does not change what is found. -/
namespace FF
open Spec

/-- How a worker looks without profiling: when it has left its loop it waits for main. -/
def WState.unprofiled : WState → WState
  | .stopped => .waiting
  | s => s

/-- A state while profiling, and one without. -/
inductive SameWork : PState → PState → Prop
  | run {q outq s b o col handed} : s ≠ .waiting → SameWork ⟨q, outq, [⟨s, b, o⟩], .polling, col, handed⟩ ⟨q, outq, [⟨s.unprofiled, b, o⟩], .polling, col, handed⟩
  | done {s p} : s.main = .finished → p.main = .finished → p.collected = s.collected → p.handed = s.handed → SameWork s p

theorem ProfStep.same {cfg : WalkCfg} {fair : Fair} {s t p : PState} (h : ProfStep cfg fair s t) (hs : SameWork s p) : ∃ p', PSteps cfg fair p p' ∧ SameWork t p' := by
  cases h with
  | @work q outq w col handed q' m' w' new hw hw' hst =>
    generalize hx : (⟨q, outq, [w], .polling, col, handed⟩ : PState) = x at hs
    cases hs with
    | @run q1 outq1 s b o col1 handed1 hs =>
      injection hx with e1 e2 e3 e4 e5 e6
      injection e3 with e3 _
      subst e1 e2 e3 e5 e6
      obtain ⟨s', b', o'⟩ := w'
      refine ⟨⟨q', outq, [⟨s'.unprofiled, b', o'⟩], .polling, col, handed ++ new⟩, .step .refl ?_, .run hw'⟩
      have key : WStep cfg fair true (q, .polling, ⟨s.unprofiled, b, o⟩) new (q', .polling, ⟨s'.unprofiled, b', o'⟩) := by
        generalize hx : (q, MState.polling, (⟨s, b, o⟩ : Worker)) = x at hst
        generalize hy : (q', m', (⟨s', b', o'⟩ : Worker)) = y at hst
        cases hst <;> simp only [Prod.mk.injEq, Worker.mk.injEq] at hx hy <;> obtain ⟨rfl, rfl, rfl, rfl, rfl⟩ := hx <;> obtain ⟨rfl, rfl, rfl, rfl, rfl⟩ := hy
        case getDirs => exact .getDirs
        case getEnts => exact .getEnts
        case empty => exact absurd rfl hw'
        case timeout => exact absurd rfl hw
        case scan => exact .scan
        case test => exact .test
        case share h1 h2 => exact .share h1 h2
        case put h => exact .put h
        case hand h => exact .hand h
        case finish => exact .finish
        case flush => exact .flush
      exact .worker (l := []) (r := []) key
    | done h _ _ _ => subst hx; cases h
  | @stop q outq b o col handed hf =>
    generalize hx : (⟨q, outq, [⟨.idle, b, o⟩], .polling, col, handed⟩ : PState) = x at hs
    cases hs with
    | run hs =>
      cases hx
      refine ⟨_, .step .refl (.worker (l := []) (r := []) (WStep.empty (fun h => ⟨(hf h).1, fun _ => (hf h).2⟩))), ?_⟩
      rw [List.append_nil]
      exact .run (s := .stopped) (by simp)
    | done h _ _ _ => subst hx; cases h
  | @flushOut q outq s b c o col handed =>
    generalize hx : (⟨q, outq, [⟨s, b, c :: o⟩], .polling, col, handed⟩ : PState) = x at hs
    cases hs with
    | run hs => cases hx; exact ⟨_, .step .refl (.flushOut (l := []) (r := [])), .run hs⟩
    | done h _ _ _ => subst hx; cases h
  | @collect q c outq b o col handed =>
    generalize hx : (⟨q, c :: outq, [⟨.stopped, b, o⟩], .polling, col, handed⟩ : PState) = x at hs
    cases hs with
    | run hs => cases hx; exact ⟨_, .step .refl .collect, .run hs⟩
    | done h _ _ _ => subst hx; cases h
  | @finish q outq b o col handed hf =>
    generalize hx : (⟨q, outq, [⟨.stopped, b, o⟩], .polling, col, handed⟩ : PState) = x at hs
    cases hs with
    | run hs =>
      cases hx
      refine ⟨_, .step (.step .refl (.mainEmpty (fun h => ⟨(hf h).1, fun w hw _ => ?_⟩))) (.barrier ?_ (fun _ => rfl)), .done rfl rfl rfl rfl⟩
      · rw [List.mem_singleton.1 hw]; exact (hf h).2
      · intro w hw
        exact ⟨b, o, List.mem_singleton.1 hw⟩
    | done h _ _ _ => subst hx; cases h

theorem ProfSteps.same {cfg : WalkCfg} {fair : Fair} {s t p : PState} (h : ProfSteps cfg fair s t) (hs : SameWork s p) : ∃ p', PSteps cfg fair p p' ∧ SameWork t p' := by
  induction h with
  | refl => exact ⟨p, .refl, hs⟩
  | step _ h ih =>
    obtain ⟨p1, h1, h2⟩ := ih
    obtain ⟨p2, h3, h4⟩ := h.same h2
    exact ⟨p2, h1.trans h3, h4⟩

theorem SameWork.init (roots : List DirT) : SameWork (initState roots 1) (initState roots 1) := .run (s := .idle) (by simp)

theorem SameWork.equal {s p : PState} (h : SameWork s p) : p.collected = s.collected ∧ p.handed = s.handed ∧ (s.main = .finished → p.main = .finished) := by
  cases h with
  | run _ => exact ⟨rfl, rfl, fun h => by cases h⟩
  | done _ h1 h2 h3 => exact ⟨h2, h3, fun _ => h1⟩

/-- C136: with --profile, at any moment, nothing has been passed on (`handed`) or collected twice or without being asked for. -/
theorem C136_sound (cfg : WalkCfg) (fair : Fair) {roots : List Root} (hok : ∀ r ∈ roots, r.Ok) (hnd : (roots.map Root.start).Nodup) {s : PState}
    (h : ProfSteps cfg fair (initState (roots.map Root.dir) 1) s) :
    s.handed.Nodup ∧ (∀ i ∈ s.handed, ∃ r ∈ roots, Selected cfg r.start r.base r.kids i) ∧
    s.collected.Nodup ∧ ∀ i ∈ s.collected, ∃ r ∈ roots, Selected cfg r.start r.base r.kids i := by
  obtain ⟨p, hp, hs⟩ := h.same (SameWork.init _)
  obtain ⟨e1, e2, _⟩ := hs.equal
  rw [← e1, ← e2]
  exact ⟨(C07_sound cfg fair hok hnd 1 hp).1, (C07_sound cfg fair hok hnd 1 hp).2, C11_sound cfg fair hok hnd 1 hp⟩

/-- What a worker does has nothing to do with how long main waits. -/
theorem WStep.unprompted {cfg : WalkCfg} {t p : Bool} {x y new} (h : WStep cfg ⟨t, p⟩ true x new y) (p' : Bool) : WStep cfg ⟨t, p'⟩ true x new y := by
  cases h with
  | getDirs => exact .getDirs
  | getEnts => exact .getEnts
  | empty h => exact .empty h
  | timeout => exact .timeout
  | scan => exact .scan
  | test => exact .test
  | share h1 h2 => exact .share h1 h2
  | put h => exact .put h
  | hand h => exact .hand h
  | finish => exact .finish
  | flush => exact .flush

/-- C136 (partial, if a queue is found empty only when nothing is under way): in the end everything asked for has been passed on and collected, each
once. What is said about waiting at the barrier in C11 is not needed. -/
theorem C136_complete_partial (cfg : WalkCfg) (prompt : Bool) {roots : List Root} (hok : ∀ r ∈ roots, r.Ok) (hnd : (roots.map Root.start).Nodup) {s : PState}
    (h : ProfSteps cfg ⟨true, prompt⟩ (initState (roots.map Root.dir) 1) s) (hfin : s.main = .finished) :
    s.collected.Perm s.handed ∧ s.collected.Nodup ∧ ∀ i, i ∈ s.collected ↔ ∃ r ∈ roots, Selected cfg r.start r.base r.kids i := by
  have h' : ProfSteps cfg ⟨true, true⟩ (initState (roots.map Root.dir) 1) s := by
    clear hfin
    induction h with
    | refl => exact .refl
    | step _ hs ih =>
      refine .step ih ?_
      cases hs with
      | @work q outq w col handed q' m' w' new h1 h2 h3 => exact .work h1 h2 (h3.unprompted true)
      | stop h => exact .stop h
      | flushOut => exact .flushOut
      | collect => exact .collect
      | finish h => exact .finish h
  obtain ⟨p, hp, hs⟩ := h'.same (SameWork.init _)
  obtain ⟨e1, e2, e3⟩ := hs.equal
  rw [← e1, ← e2]
  exact C11_complete_partial cfg ⟨true, true⟩ rfl rfl hok hnd (by decide) hp (e3 hfin)

/-- While profiling there is one process that does not wait. -/
theorem ProfSteps.shape {cfg : WalkCfg} {fair : Fair} {roots : List DirT} {s : PState} (h : ProfSteps cfg fair (initState roots 1) s) (hm : s.main ≠ .finished) :
    s.main = .polling ∧ ∃ st b o, s.workers = [⟨st, b, o⟩] ∧ st ≠ .waiting := by
  obtain ⟨p, _, hs⟩ := h.same (SameWork.init _)
  cases hs with
  | run hs => exact ⟨rfl, _, _, _, rfl, hs⟩
  | done h _ _ _ => exact absurd h hm

/-- C136: the search does not get stuck. -/
theorem C136_progress (cfg : WalkCfg) (fair : Fair) (roots : List DirT) {s : PState} (h : ProfSteps cfg fair (initState roots 1) s) (hm : s.main ≠ .finished) :
    ∃ t, ProfStep cfg fair s t := by
  obtain ⟨h1, st, b, o, h2, h3⟩ := h.shape hm
  obtain ⟨q, outq, ws, m, col, handed⟩ := s
  simp only at h1 h2
  subst h1 h2
  cases st with
  | waiting => exact absurd rfl h3
  | idle =>
    cases q with
    | cons c q =>
      cases c with
      | dirs ds => exact ⟨_, .work (by simp) (by simp) .getDirs⟩
      | ents es => exact ⟨_, .work (by simp) (by simp) .getEnts⟩
    | nil =>
      cases b with
      | cons c b => exact ⟨_, .work (by simp) (w' := ⟨.idle, b, o⟩) (by simp) .flush⟩
      | nil => exact ⟨_, .stop (fun _ => ⟨rfl, rfl⟩)⟩
  | stopped =>
    cases o with
    | cons c o => exact ⟨_, .flushOut⟩
    | nil =>
      cases outq with
      | cons c outq => exact ⟨_, .collect⟩
      | nil => exact ⟨_, .finish (fun _ => ⟨rfl, rfl⟩)⟩
  | busy todo entries search process =>
    cases entries with
    | cons e es => exact ⟨_, .work (by simp) (by simp) .test⟩
    | nil =>
      cases search with
      | cons d ds => exact ⟨_, .work (by simp) (by simp) (.put (by simp))⟩
      | nil =>
        cases process with
        | cons i is => exact ⟨_, .work (by simp) (by simp) (.hand (by simp))⟩
        | nil =>
          cases todo with
          | cons d ds => exact ⟨_, .work (by simp) (by simp) .scan⟩
          | nil => exact ⟨_, .work (by simp) (by simp) .finish⟩

theorem ProfSteps.head {cfg : WalkCfg} {fair : Fair} {s t u : PState} (h : ProfStep cfg fair s t) (hs : ProfSteps cfg fair t u) : ProfSteps cfg fair s u := by
  induction hs with
  | refl => exact .step .refl h
  | step _ h ih => exact .step ih h

/-- C136 is false without the assumption: the queue can be found empty before the thread that fills it has done so. -/
theorem C136_false : ∃ s, ProfSteps demoCfg ⟨false, true⟩ (initState ([demoRoot].map Root.dir) 1) s ∧ s.main = .finished ∧ s.collected = [demoA] ∧
    Selected demoCfg demoRoot.start demoRoot.base demoRoot.kids demoB := by
  have hs := demo_scan demoCfg.isIgnoreFile rfl
  have hscan1 := WStep.scan (cfg := demoCfg) (fair := ⟨false, true⟩) (alone := true) (d := demoRoot.dir) (todo := []) (q := []) (m := .polling) (b := []) (o := [])
  rw [hs.1] at hscan1
  refine ⟨⟨[], [], [⟨.stopped, [.dirs [demoDirA]], []⟩], .finished, [demoA], [demoA]⟩, ?_, rfl, rfl, ?_⟩
  · refine .head (.work (by simp) (by simp) (WStep.getDirs (ds := [demoRoot.dir]))) ?_
    refine .head (.work (by simp) (by simp) hscan1) ?_
    refine .head (.work (by simp) (by simp) (WStep.test (e := demoEntA))) ?_
    refine .head (.work (by simp) (by simp) (WStep.put (search := [demoDirA]) (by simp))) ?_
    refine .head (.work (by simp) (by simp) (WStep.hand (process := [demoA]) (by simp))) ?_
    refine .head (.work (by simp) (by simp) WStep.finish) ?_
    refine .head (.stop (fun h => by cases h)) ?_
    refine .head (.flushOut (c := [demoA])) ?_
    refine .head (.collect (c := [demoA])) ?_
    exact .head (.finish (fun h => by cases h)) .refl
  · refine ⟨[.mk "a".toList true [.mk "b".toList false []], .mk "b".toList false []], ?_, ?_, rfl, fun _ _ _ => rfl⟩
    · exact ⟨by simp [demoRoot], rfl, by simp [FNode.kids, Chain]⟩
    · rfl

/-- A search with --profile that meets the assumption and finds both files. -/
example : ∃ s, ProfSteps demoCfg ⟨true, true⟩ (initState ([demoRoot].map Root.dir) 1) s ∧ s.main = .finished ∧ s.collected = [demoA, demoB] := by
  have hs := demo_scan demoCfg.isIgnoreFile rfl
  have hscan1 := WStep.scan (cfg := demoCfg) (fair := ⟨true, true⟩) (alone := true) (d := demoRoot.dir) (todo := []) (q := []) (m := .polling) (b := []) (o := [])
  rw [hs.1] at hscan1
  have hscan2 := WStep.scan (cfg := demoCfg) (fair := ⟨true, true⟩) (alone := true) (d := demoDirA) (todo := []) (q := []) (m := .polling) (b := []) (o := [[demoA]])
  rw [hs.2] at hscan2
  refine ⟨⟨[], [], [⟨.stopped, [], []⟩], .finished, [demoA, demoB], [demoA, demoB]⟩, ?_, rfl, rfl⟩
  refine .head (.work (by simp) (by simp) (WStep.getDirs (ds := [demoRoot.dir]))) ?_
  refine .head (.work (by simp) (by simp) hscan1) ?_
  refine .head (.work (by simp) (by simp) (WStep.test (e := demoEntA))) ?_
  refine .head (.work (by simp) (by simp) (WStep.put (search := [demoDirA]) (by simp))) ?_
  refine .head (.work (by simp) (by simp) (WStep.hand (process := [demoA]) (by simp))) ?_
  refine .head (.work (by simp) (by simp) WStep.finish) ?_
  refine .head (.work (by simp) (w' := ⟨.idle, [], [[demoA]]⟩) (by simp) (WStep.flush (c := .dirs [demoDirA]))) ?_
  refine .head (.work (by simp) (by simp) (WStep.getDirs (ds := [demoDirA]))) ?_
  refine .head (.work (by simp) (by simp) hscan2) ?_
  refine .head (.work (by simp) (by simp) (WStep.test (e := demoEntB))) ?_
  refine .head (.work (by simp) (by simp) (WStep.hand (process := [demoB]) (by simp))) ?_
  refine .head (.work (by simp) (by simp) WStep.finish) ?_
  refine .head (.stop (fun _ => ⟨rfl, rfl⟩)) ?_
  refine .head (.flushOut (c := [demoA])) ?_
  refine .head (.flushOut (c := [demoB])) ?_
  refine .head (.collect (c := [demoA])) ?_
  refine .head (.collect (c := [demoB])) ?_
  exact .head (.finish (fun _ => ⟨rfl, rfl⟩)) .refl

end FF
