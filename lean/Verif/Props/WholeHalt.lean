import Verif.Props.Whole
import Verif.Props.Halt
import Verif.Model.Pool
namespace FF
open Spec

/-- Whether a command that fails stops the program, context.py:180-182. -/
def haltsOf (ns : NS) : Bool := match haltOf (ns "halt".toList) with
  | .soon => true
  | .now => true
  | _ => false

theorem search_exec {W : World} {argv : List Str} {p : Plan} {w : List Warning} (hr : W.main.run argv = .search p w) (hm : p.mode = .exec) {ns : NS}
    (hok : parseArgs (ffOptions W.main.arg) W.main.arg.maxCpu argv = .ok ns) (i : EntInfo) : ToDo (W.imode ns p) i ↔
      ∃ R parts c, RenderAs W ns R ∧ execFields W.main.reg ((settingsOf ns).exec.getD []) = some parts ∧ R.execRender parts i = some c := by
  obtain ⟨ns', hok', _, hmode, _, _, _, hex, _⟩ := search_settings hr
  rw [hok] at hok'
  cases hok'
  have hgiven : ∃ ws, (settingsOf ns).exec = some ws := by
    rw [hm] at hmode
    cases he : (settingsOf ns).exec with
    | some ws => exact ⟨ws, rfl⟩
    | none =>
      rw [he] at hmode
      exfalso
      revert hmode
      unfold setupProcessing
      have : given none = false := rfl
      rw [this]
      split_ifs <;> simp_all
  obtain ⟨ws, hws⟩ := hgiven
  rw [hws] at hex ⊢
  simp only [optFields, Option.map_eq_some_iff] at hex
  obtain ⟨parts, hp1, hp2⟩ := hex
  simp only [ToDo, World.imode, hm, World.command, renders_iff, Option.getD_some, ← hp2, hp1]
  simp [Option.isSome_iff_exists]

/-- C87, commands that are run immediately, with --halt and whatever may fail: commands are started only for entries that are asked for and for which a
command can be made, each at most once. When the program ends with status 0, or without having been stopped, each of them has been run. Missing: as above. -/
theorem C87_halt_partial (W : World) {argv : List Str} {p : Plan} {w : List Warning} (hr : W.main.run argv = .search p w) (hm : p.mode = .exec) {ns : NS}
    (hok : parseArgs (ffOptions W.main.arg) W.main.arg.maxCpu argv = .ok ns) {tests dirs : List Str}
    (hd : processDirectories W.main.isdir W.main.cwd (settingsOf ns).fargs.tests (settingsOf ns).dirs = some (tests, dirs)) (hP : Proper W ns tests dirs)
    {k : Nat} {s : HAll} (h : HSteps (W.cfg ns p) (W.imode ns p) (haltsOf ns) true k (initHalt (W.startDirs ns p) (ns "jobs".toList).toJobs) s) :
    (s.begun.Nodup ∧ (∀ i ∈ s.done, i ∈ s.begun) ∧ ∀ i ∈ s.begun, Wanted W ns tests dirs i ∧
      ∃ R parts c, RenderAs W ns R ∧ execFields W.main.reg ((settingsOf ns).exec.getD []) = some parts ∧ R.execRender parts i = some c) ∧
    (Ended s → s.stopping = false ∨ s.exitcode = 0 → s.done.Nodup ∧ ∀ i, i ∈ s.done ↔ Wanted W ns tests dirs i ∧
      ∃ R parts c, RenderAs W ns R ∧ execFields W.main.reg ((settingsOf ns).exec.getD []) = some parts ∧ R.execRender parts i = some c) := by
  obtain ⟨rfl, hw⟩ := roots_wanted hr hok hd hP
  rw [← roots_dir] at h
  have hx := search_exec hr hm hok
  have hexec : (W.imode ns p).exec = true := by simp [World.imode, hm]
  constructor
  · obtain ⟨_, ⟨h1, h2⟩, h3, _⟩ := C92_sound (W.cfg ns p) (W.imode ns p) (haltsOf ns) true (roots_ok hP) (roots_different hP hd) _ h
    refine ⟨h1, h3 hexec, fun i hi => ?_⟩
    have := h2 i hi
    rwa [hw, hx] at this
  · intro hend hst
    have hst : s.stopping = false := by
      rcases hst with h0 | h0
      · exact h0
      · cases hs : s.stopping with
        | false => rfl
        | true => exact absurd h0 ((C92_status (W.cfg ns p) (W.imode ns p) (haltsOf ns) true (W.roots ns p) _ h).2.2 hs)
    obtain ⟨h1, h2, _⟩ := C92_complete_partial (W.cfg ns p) (W.imode ns p) (haltsOf ns) (roots_ok hP) (roots_different hP hd) (jobs_pos hP.cpus hok) h hend hst
    refine ⟨h1, fun i => ?_⟩
    rw [h2, hw, hx]

/-! ### Runs in which nothing fails -/

/-- Nothing has failed. -/
def NoFailure (h : HAll) : Prop := h.stopping = false ∧ h.left = h.passed ∧ h.exitcode = 0

/-- Every step of the model without failures is possible here too. -/
theorem AStep.lift {cfg : WalkCfg} {mode : IMode} (halts : Bool) {timely work : Bool} {s t : IAll} (h : AStep cfg mode timely work s t) {g : HAll} (hg : NoFailure g) (hs : g.toI = s) :
    ∃ k g', HSteps cfg mode halts timely k g g' ∧ NoFailure g' ∧ g'.toI = t := by
  obtain ⟨q0, ws0, ps0, left0, died0, st0, ec0, f0, d0, r0, bg0⟩ := g
  obtain ⟨g1, g2, g3⟩ := hg
  simp only at g1 g2 g3
  subst g1 g2 g3
  cases h with
  | @worker _ q l w r d res q' w' res' new hw =>
    simp only [HAll.toI, IAll.mk.injEq] at hs
    obtain ⟨rfl, h2, rfl, rfl, rfl⟩ := hs
    obtain ⟨l', r1, rfl, rfl, h3⟩ := List.map_eq_append_iff.1 h2
    obtain ⟨x, r', rfl, rfl, rfl⟩ := List.map_eq_cons_iff.1 h3
    rw [← List.map_append, map_all] at hw
    by_cases hrun : ∃ e, x.w.st = .running e ∧ w'.st ≠ .running e
    · obtain ⟨e, h4, h5⟩ := hrun
      obtain ⟨⟨st, b⟩, c⟩ := x
      simp only at h4 hw
      subst h4
      have : w' = ⟨.idle, b⟩ ∧ q' = q0 ∧ res' = r0 ∧ new = [e] := by
        generalize hx : (q0, (⟨.running e, b⟩ : IWorker), r0) = x at hw
        generalize hy : (q', w', res') = y at hw
        cases hw <;> simp only [Prod.mk.injEq, IWorker.mk.injEq, reduceCtorEq, false_and, and_false] at hx hy
        · obtain ⟨rfl, ⟨h, rfl⟩, rfl⟩ := hx
          obtain ⟨rfl, rfl, rfl⟩ := hy
          cases h
          exact ⟨rfl, rfl, rfl, rfl⟩
        · obtain ⟨rfl, ⟨h, rfl⟩, rfl⟩ := hx
          obtain ⟨rfl, rfl, rfl⟩ := hy
          exact absurd h.symm h5
      obtain ⟨rfl, rfl, rfl, rfl⟩ := this
      exact ⟨_, _, .work .refl (.ran (l := l') (r := r') true rfl), ⟨rfl, rfl, rfl⟩, by simp [HAll.toI, HAll.ended]⟩
    · have hno : ∀ e, x.w.st = .running e → w'.st = .running e := fun e h => Classical.byContradiction (fun h' => hrun ⟨e, h, h'⟩)
      -- first look for the stop signal
      have hc : ∃ k c, HSteps cfg mode halts timely k ⟨q0, l' ++ x :: r', false, false, died0, false, 0, f0, d0, r0, bg0⟩
          ⟨q0, l' ++ ⟨x.w, c⟩ :: r', false, false, died0, false, 0, f0, d0, r0, bg0⟩ ∧ (x.w.st = .idle → c = true) := by
        obtain ⟨⟨st, b⟩, c⟩ := x
        by_cases h : st = .idle ∧ c = false
        · obtain ⟨rfl, rfl⟩ := h
          exact ⟨_, true, .idle .refl (.check rfl rfl), fun _ => rfl⟩
        · refine ⟨0, c, .refl, fun h' => ?_⟩
          cases c with
          | true => rfl
          | false => exact absurd ⟨h', rfl⟩ h
      obtain ⟨k, c, hk, hc⟩ := hc
      have hstep := HStep.act (halts := halts) (s := ⟨q0, l' ++ ⟨x.w, c⟩ :: r', false, false, died0, false, 0, f0, d0, r0, bg0⟩) (x := ⟨x.w, c⟩) rfl rfl (fun h _ => hc h) (fun _ _ => rfl) hno hw
      cases work with
      | true => exact ⟨_, _, .work hk hstep, ⟨rfl, rfl, rfl⟩, by simp [HAll.toI]⟩
      | false => exact ⟨_, _, .idle hk hstep, ⟨rfl, rfl, rfl⟩, by simp [HAll.toI]⟩
  | @barrier q ws d res hws =>
    simp only [HAll.toI, IAll.mk.injEq] at hs
    obtain ⟨rfl, rfl, rfl, rfl, rfl⟩ := hs
    refine ⟨_, _, .work .refl (.barrier rfl rfl (fun x hx => hws x.w (List.mem_map_of_mem hx))), ⟨rfl, rfl, rfl⟩, ?_⟩
    simp [HAll.toI, Function.comp_def]

theorem ASteps.lift {cfg : WalkCfg} {mode : IMode} (halts : Bool) {timely : Bool} {n : Nat} {s t : IAll} (h : ASteps cfg mode timely n s t) {g : HAll} (hg : NoFailure g) (hs : g.toI = s) :
    ∃ k g', HSteps cfg mode halts timely k g g' ∧ NoFailure g' ∧ g'.toI = t := by
  have key : ∀ {t u work}, AStep cfg mode timely work t u → (∃ k g', HSteps cfg mode halts timely k g g' ∧ NoFailure g' ∧ g'.toI = t) →
      ∃ k g', HSteps cfg mode halts timely k g g' ∧ NoFailure g' ∧ g'.toI = u := by
    rintro t u work h ⟨k, g', h1, h2, h3⟩
    obtain ⟨k', g'', h4, h5, h6⟩ := h.lift halts h2 h3
    exact ⟨_, g'', h1.trans h4, h5, h6⟩
  induction h with
  | refl => exact ⟨0, g, .refl, hg, hs⟩
  | work _ h ih => exact key h (ih hs)
  | idle _ h ih => exact key h (ih hs)

/-- The hypotheses of `C87_halt_partial` are met. -/
example : ∃ argv p w ns tests dirs k s, demoWorld.main.run argv = .search p w ∧ p.mode = .exec ∧
      parseArgs (ffOptions demoWorld.main.arg) demoWorld.main.arg.maxCpu argv = .ok ns ∧
      processDirectories demoWorld.main.isdir demoWorld.main.cwd (settingsOf ns).fargs.tests (settingsOf ns).dirs = some (tests, dirs) ∧ Proper demoWorld ns tests dirs ∧
      HSteps (demoWorld.cfg ns p) (demoWorld.imode ns p) (haltsOf ns) true k (initHalt (demoWorld.startDirs ns p) (ns "jobs".toList).toJobs) s ∧ Ended s ∧
      s.stopping = false := by
  obtain ⟨p, w, ns, hr, hm, hok, hd, h1, h2, _⟩ := demoWorld_run _ .exec (List.mem_cons_of_mem _ (List.mem_cons_of_mem _ (List.mem_cons_self ..)))
  have hP := demoWorld_proper h1 h2
  obtain ⟨k, s, hs, hf⟩ := C86_no_deadlock (demoWorld.cfg ns p) (demoWorld.imode ns p) true (demoWorld.roots ns p) (jobs_pos hP.cpus hok) .refl
  rw [roots_dir] at hs
  obtain ⟨k', g, hg, ⟨e1, e2, _⟩, e3⟩ := hs.lift (haltsOf ns) (g := initHalt (demoWorld.startDirs ns p) (ns "jobs".toList).toJobs) ⟨rfl, rfl, rfl⟩ (init_toI _ _)
  have hi : HaltInv g := hg.inv (fun h => HaltInv.step h) (HaltInv.init _ _)
  have hp : g.passed = true := by rw [← e3] at hf; exact hf
  exact ⟨_, p, w, ns, _, _, k', g, hr, hm, hok, hd, hP, hg, ⟨e2.trans hp, hi.passed hp⟩, e1⟩

end FF
