import Verif.Lemmas.TerminateAll
import Verif.Spec.Immediate
import Verif.Props.Walk
namespace FF
open Spec

theorem delivers_iff (mode : IMode) (e : EntInfo) : mode.delivers e = true ↔ ToDo mode e := by
  unfold IMode.delivers ToDo
  cases mode.exec <;> simp

/-! ### C85: results that are processed immediately -/

/-- C85: at every moment of every execution, also without timing assumptions: nothing has been printed or executed twice, or without being
selected, and results are reported only if there is one. -/
theorem C85_sound (cfg : WalkCfg) (mode : IMode) (timely : Bool) {roots : List Root} (hok : ∀ r ∈ roots, r.Ok) (hnd : (roots.map Root.start).Nodup) (n : Nat)
    {k : Nat} {s : IAll} (h : ASteps cfg mode timely k (initAll (roots.map Root.dir) n) s) :
    s.done.Nodup ∧ (∀ i ∈ s.done, (∃ r ∈ roots, Selected cfg r.start r.base r.kids i) ∧ ToDo mode i) ∧
    (s.hasResult = true → ∃ i, ∃ r ∈ roots, Selected cfg r.start r.base r.kids i) := by
  have hle : ∀ {k s}, ASteps cfg mode timely k (initAll (roots.map Root.dir) n) s → ∀ p, List.countP p s.done + List.countP p (pendingI cfg s) ≤
      List.countP p ((roots.map Root.dir).flatMap (resDir cfg)) := by
    intro k s h p
    have := h.loses p
    rw [initAll_pending] at this
    simpa [initAll] using this
  have hsub : ∀ {k s}, ASteps cfg mode timely k (initAll (roots.map Root.dir) n) s → ∀ i, i ∈ s.done ∨ i ∈ pendingI cfg s →
      ∃ r ∈ roots, Selected cfg r.start r.base r.kids i := by
    intro k s h i hi
    rw [← roots_mem cfg hok]
    have h1 := hle h (· == i)
    have h2 : 0 < List.countP (· == i) s.done + List.countP (· == i) (pendingI cfg s) := by
      rcases hi with hi | hi
      · have : 0 < List.countP (· == i) s.done := List.countP_pos_iff.2 ⟨i, hi, by simp⟩
        omega
      · have : 0 < List.countP (· == i) (pendingI cfg s) := List.countP_pos_iff.2 ⟨i, hi, by simp⟩
        omega
    obtain ⟨j, hj, hij⟩ := List.countP_pos_iff.1 (show 0 < List.countP (· == i) ((roots.map Root.dir).flatMap (resDir cfg)) by omega)
    simp only [beq_iff_eq] at hij
    exact hij ▸ hj
  refine ⟨?_, ?_, ?_⟩
  · rw [List.nodup_iff_count]
    intro a
    have h1 := hle h (· == a)
    have h2 := List.nodup_iff_count.1 (roots_nodup cfg hok hnd) a
    simp only [List.count] at h2 ⊢
    omega
  · intro i hi
    have hr : Deliverable mode s := h.inv (fun h => Deliverable.step h) ⟨by simp [initAll], by
        intro c hc
        obtain ⟨d, _, rfl⟩ := List.mem_map.1 hc
        exact fun e he => (by cases he), by
        intro w hw
        simp only [initAll, List.mem_replicate] at hw
        rw [hw.2]
        exact ⟨fun e he => (by cases he), fun c hc => (by cases hc)⟩⟩
    exact ⟨hsub h i (Or.inl hi), (delivers_iff mode i).1 (hr.done i hi)⟩
  · clear hle
    intro hr
    suffices H : ∀ {k s0 s}, ASteps cfg mode timely k s0 s → s0 = initAll (roots.map Root.dir) n → s.hasResult = true →
        ∃ i, ∃ r ∈ roots, Selected cfg r.start r.base r.kids i from H h rfl hr
    intro k s0 s h
    induction h with
    | refl => intro h0 hr; subst h0; cases hr
    | @work m s0 s u h0 hstep ih =>
      intro he hr
      subst he
      cases hs : s.hasResult with
      | true => exact ih rfl hs
      | false =>
        obtain ⟨e, he⟩ := hstep.reported hs hr
        exact ⟨e, hsub h0 e (Or.inr he)⟩
    | @idle m s0 s u h0 hstep ih =>
      intro he hr
      subst he
      cases hs : s.hasResult with
      | true => exact ih rfl hs
      | false =>
        obtain ⟨e, he⟩ := hstep.reported hs hr
        exact ⟨e, hsub h0 e (Or.inr he)⟩

/-- C85: when the search ends, under the timing assumption that `queue.get` reports Empty only if there is nothing to come, exactly the selected
entries have been printed (or those of them for which a command can be made have been executed), each once; and results are reported if and only if
something is selected. Any number of workers, any interleaving. -/
theorem C85_complete_partial (cfg : WalkCfg) (mode : IMode) {roots : List Root} (hok : ∀ r ∈ roots, r.Ok) (hnd : (roots.map Root.start).Nodup)
    {n : Nat} (hn : 0 < n) {k : Nat} {s : IAll} (h : ASteps cfg mode true k (initAll (roots.map Root.dir) n) s) (hfin : s.finished = true) :
    s.done.Nodup ∧ (∀ i, i ∈ s.done ↔ (∃ r ∈ roots, Selected cfg r.start r.base r.kids i) ∧ ToDo mode i) ∧
    (s.hasResult = true ↔ ∃ i, ∃ r ∈ roots, Selected cfg r.start r.base r.kids i) := by
  obtain ⟨h1, h2, h3⟩ := C85_sound cfg mode true hok hnd n h
  have hcalm : ICalm s := h.inv (fun h => ICalm.step h) (ICalm.init (roots.map Root.dir) hn)
  have hp := hcalm.pending hfin cfg
  refine ⟨h1, fun i => ⟨h2 i, ?_⟩, h3, ?_⟩
  · rintro ⟨hsel, htodo⟩
    rw [← roots_mem cfg hok] at hsel
    have hc := h.conserve (fun e => e == i) (by
      intro e he
      simp only [beq_iff_eq] at he
      subst he
      exact (delivers_iff mode e).2 htodo)
    rw [hp, initAll_pending] at hc
    have h4 : 0 < List.countP (· == i) ((roots.map Root.dir).flatMap (resDir cfg)) := List.countP_pos_iff.2 ⟨i, hsel, by simp⟩
    simp only [initAll, List.countP_nil, Nat.add_zero, Nat.zero_add] at hc
    obtain ⟨j, hj, hij⟩ := List.countP_pos_iff.1 (show 0 < List.countP (· == i) s.done by omega)
    simp only [beq_iff_eq] at hij
    exact hij ▸ hj
  · rintro ⟨i, hsel⟩
    rw [← roots_mem cfg hok] at hsel
    cases hr : s.hasResult with
    | true => rfl
    | false =>
      exfalso
      have hu : Unreported cfg ((roots.map Root.dir).flatMap (resDir cfg)) s := h.inv (fun h => Unreported.step h) (Unreported.init cfg (roots.map Root.dir) n)
      obtain ⟨_, _, _, h4⟩ := hu hr
      have h4 := h4 (· == i)
      rw [hp] at h4
      have h5 : 0 < List.countP (· == i) ((roots.map Root.dir).flatMap (resDir cfg)) := List.countP_pos_iff.2 ⟨i, hsel, by simp⟩
      simp only [List.countP_nil] at h4
      omega

/-! ### Executions -/

theorem AStep.single {cfg : WalkCfg} {mode : IMode} {timely work : Bool} {q w d res q' w' res' new} (h : IStep cfg mode timely true work (q, w, res) new (q', w', res')) :
    AStep cfg mode timely work ⟨q, [w], false, d, res⟩ ⟨q', [w'], false, d ++ new, res'⟩ := AStep.worker (l := []) (r := []) h

theorem ASteps.head {cfg : WalkCfg} {mode : IMode} {timely : Bool} {n : Nat} {s t u : IAll} (h : AStep cfg mode timely true s t) (hs : ASteps cfg mode timely n t u) :
    ASteps cfg mode timely (1 + n) s u := (AStep.one h).trans hs

/-- Commands can be made for files only. -/
def demoExec : IMode := ⟨true, fun e => !e.isDir⟩

/-- The first directory of the demo tree is searched. -/
theorem demo_first (mode : IMode) (timely : Bool) : ∃ k, ASteps demoCfg mode timely k (initAll [demoRoot.dir] 1)
    ⟨[], [⟨.busy [] [] [] [] [demoA], [.dirs [demoDirA]]⟩], false, [], true⟩ := by
  have hs := demo_scan demoCfg.isIgnoreFile rfl
  have hscan := IStep.scan (cfg := demoCfg) (mode := mode) (timely := timely) (alone := true) (d := demoRoot.dir) (todo := []) (q := []) (b := []) (r := false)
  rw [hs.1] at hscan
  refine ⟨_, .head (.single (IStep.getDirs (ds := [demoRoot.dir]))) (.head (.single hscan) (.head (.single (IStep.test (e := demoEntA)))
    (.head (.single (IStep.put (search := [demoDirA]) (by simp))) (.head (.single (IStep.hand (process := [demoA]) (by simp))) .refl))))⟩

theorem demo_second (mode : IMode) (timely : Bool) (d : List EntInfo) : ∃ k, ASteps demoCfg mode timely k ⟨[], [⟨.busy [] [] [] [] [], [.dirs [demoDirA]]⟩], false, d, true⟩
    ⟨[], [⟨.busy [] [] [] [] [demoB], []⟩], false, d, true⟩ := by
  have hs := demo_scan demoCfg.isIgnoreFile rfl
  have hscan := IStep.scan (cfg := demoCfg) (mode := mode) (timely := timely) (alone := true) (d := demoDirA) (todo := []) (q := []) (b := []) (r := true)
  rw [hs.2] at hscan
  have h := ASteps.head (AStep.single (cfg := demoCfg) (mode := mode) (timely := timely) (d := d) (IStep.finish (q := []) (b := [.dirs [demoDirA]]) (r := true)))
    (.head (.single (IStep.flush (c := .dirs [demoDirA])))
    (.head (.single (IStep.getDirs (ds := [demoDirA]))) (.head (.single hscan) (.head (.single (IStep.test (e := demoEntB)))
      (.head (.single (IStep.hand (process := [demoB]) (by simp))) .refl)))))
  simp only [List.append_nil] at h
  exact ⟨_, h⟩

/-- Both entries are printed. -/
theorem demo_print (mode : IMode) (hm : mode.exec = false) : ∃ k, ASteps demoCfg mode true k (initAll [demoRoot.dir] 1)
    ⟨[], [⟨.stopped, []⟩], true, [demoA, demoB], true⟩ := by
  obtain ⟨k1, h1⟩ := demo_first mode true
  obtain ⟨k2, h2⟩ := demo_second mode true [demoA]
  have h3 := ASteps.head (AStep.single (cfg := demoCfg) (timely := true) (d := [demoA]) (IStep.print (q := []) (b := []) (r := true) (e := demoB) (batch := []) (process := []) (todo := []) hm))
    (.head (.single IStep.finish) ((ASteps.idle .refl (.single (IStep.empty (fun _ => ⟨rfl, fun _ => rfl⟩)))).trans (.head (AStep.barrier (by simp [IState.isWaiting])) .refl)))
  exact ⟨_, h1.trans (.head (.single (IStep.print hm)) (h2.trans h3))⟩

/-- The command of the file is executed, that of the directory can not be made. -/
theorem demo_exec : ∃ k, ASteps demoCfg demoExec true k (initAll [demoRoot.dir] 1) ⟨[], [⟨.stopped, []⟩], true, [demoB], true⟩ := by
  obtain ⟨k1, h1⟩ := demo_first demoExec true
  obtain ⟨k2, h2⟩ := demo_second demoExec true []
  have h3 := ASteps.head (AStep.single (cfg := demoCfg) (mode := demoExec) (timely := true) (d := []) (IStep.call (q := []) (b := []) (r := true) (e := demoB) (batch := []) (process := []) (todo := []) rfl rfl))
    (.head (.single IStep.finish) (.head (.single (IStep.flush (c := .call demoB))) (.head (.single IStep.getCall) (.head (.single IStep.run)
    ((ASteps.idle .refl (.single (IStep.empty (fun _ => ⟨rfl, fun _ => rfl⟩)))).trans (.head (AStep.barrier (by simp [IState.isWaiting])) .refl))))))
  exact ⟨_, h1.trans (.head (.single (IStep.skip rfl rfl)) (h2.trans h3))⟩

/-- The hypotheses of `C85_complete_partial` are met, by printing and by executing. -/
example : (∀ r ∈ [demoRoot], r.Ok) ∧ ([demoRoot].map Root.start).Nodup ∧
    (∃ k s, ASteps demoCfg ⟨false, fun _ => true⟩ true k (initAll ([demoRoot].map Root.dir) 1) s ∧ s.finished = true ∧ s.done = [demoA, demoB]) ∧
    (∃ k s, ASteps demoCfg demoExec true k (initAll ([demoRoot].map Root.dir) 1) s ∧ s.finished = true ∧ s.done = [demoB]) := by
  obtain ⟨k1, h1⟩ := demo_print ⟨false, fun _ => true⟩ rfl
  obtain ⟨k2, h2⟩ := demo_exec
  exact ⟨by simp [demoRoot_ok], by simp, ⟨_, _, h1, rfl, rfl⟩, ⟨_, _, h2, rfl, rfl⟩⟩

/-- C85 is false without the timing assumption: a command that has been put into the queue is lost if all workers find the queue empty before the
feeder thread has sent it. -/
theorem C85_false : ∃ k s, ASteps demoCfg demoExec false k (initAll ([demoRoot].map Root.dir) 1) s ∧ s.finished = true ∧
    Selected demoCfg demoRoot.start demoRoot.base demoRoot.kids demoB ∧ ToDo demoExec demoB ∧ demoB ∉ s.done := by
  obtain ⟨k1, h1⟩ := demo_first demoExec false
  obtain ⟨k2, h2⟩ := demo_second demoExec false []
  have h3 := ASteps.head (AStep.single (cfg := demoCfg) (mode := demoExec) (timely := false) (d := []) (IStep.call (q := []) (b := []) (r := true) (e := demoB) (batch := []) (process := []) (todo := []) rfl rfl))
    (.head (.single IStep.finish)
    ((ASteps.idle .refl (.single (IStep.empty (fun h => by cases h)))).trans (.head (AStep.barrier (by simp [IState.isWaiting])) .refl)))
  refine ⟨_, _, h1.trans (.head (.single (IStep.skip rfl rfl)) (h2.trans h3)), rfl, ?_, fun _ => rfl, by simp⟩
  have hmem : demoB ∈ [demoRoot.dir].flatMap (resDir demoCfg) := by decide
  obtain ⟨r, hr, h⟩ := (roots_mem demoCfg (roots := [demoRoot]) (by simp [demoRoot_ok]) demoB).1 hmem
  simp only [List.mem_singleton] at hr
  subst hr
  exact h

/-! ### C86: the search comes to an end -/

mutual
theorem nodePot_eq : ∀ n : FNode, nodePot n = 15 * countNode n
  | .mk _ _ kids => by rw [nodePot, countNode, kidsPot_eq kids]; omega
theorem kidsPot_eq : ∀ ns : List FNode, kidsPot ns = 15 * countTree ns
  | [] => rfl
  | n :: ns => by rw [kidsPot, countTree, nodePot_eq n, kidsPot_eq ns]; omega
end

theorem initAll_pot (roots : List Root) (n : Nat) : allPot (initAll (roots.map Root.dir) n) = 1 + (roots.map (fun r => 3 + 15 * countTree r.kids)).sum := by
  have h1 : ∀ k, ((List.replicate k (⟨.idle, []⟩ : IWorker)).map workerPot).sum = 0 := by
    intro k
    induction k with
    | zero => rfl
    | succ k ih => simp [List.replicate_succ, ih, workerPot, statePot]
  simp only [allPot, initAll, h1, Bool.false_eq_true, if_false, List.map_map, Nat.add_zero]
  congr 2
  apply List.map_congr_left
  intro r _
  simp only [Function.comp_apply, chunkPot, dirsPot_cons, dirPot, Root.dir, kidsPot_eq]
  simp only [dirsPot, List.map_nil, List.sum_nil]
  omega

/-- C86: whatever the number of workers and the order in which they run, they take a limited number of steps, linear in the number of files, apart from
beginning and ending to wait for something to do. -/
theorem C86_bounded (cfg : WalkCfg) (mode : IMode) (timely : Bool) (roots : List Root) (n : Nat) {k : Nat} {s : IAll}
    (h : ASteps cfg mode timely k (initAll (roots.map Root.dir) n) s) : k ≤ 1 + (roots.map (fun r => 3 + 15 * countTree r.kids)).sum := by
  have := h.pot
  rw [initAll_pot] at this
  omega

/-- C86: there is no deadlock: whatever has happened so far, the search can come to its end. -/
theorem C86_no_deadlock (cfg : WalkCfg) (mode : IMode) (timely : Bool) (roots : List Root) {n : Nat} (hn : 0 < n) {k : Nat} {s : IAll}
    (h : ASteps cfg mode timely k (initAll (roots.map Root.dir) n) s) : ∃ m t, ASteps cfg mode timely m s t ∧ t.finished = true := by
  refine SoundAll.ends cfg mode timely _ (Nat.le_refl _) (h.inv (fun h => SoundAll.step h) (SoundAll.init _ n)) (h.inv (P := fun s => s.workers ≠ []) (fun h => h.workers) ?_)
  simp only [initAll, ne_eq, List.replicate_eq_nil_iff]
  omega

/-- C86: the search ends only when all workers have stopped, and then nothing happens anymore. -/
theorem C86_end (cfg : WalkCfg) (mode : IMode) (timely : Bool) (roots : List Root) (n : Nat) {k : Nat} {s : IAll}
    (h : ASteps cfg mode timely k (initAll (roots.map Root.dir) n) s) (hf : s.finished = true) :
    (∀ w ∈ s.workers, w.st = .stopped) ∧ ∀ work t, ¬ AStep cfg mode timely work s t := by
  constructor
  · refine h.inv (P := fun s => s.finished = true → ∀ w ∈ s.workers, w.st = .stopped) ?_ (fun h => by cases h) hf
    intro work s t hs _ ht
    cases hs with
    | worker _ => cases ht
    | barrier _ =>
      intro w hw
      obtain ⟨v, _, rfl⟩ := List.mem_map.1 hw
      rfl
  · intro work t ht
    cases ht <;> cases hf

/-- Some steps of a search with two workers, which is then not finished. -/
example : ∃ k s, ASteps demoCfg demoExec true k (initAll ([demoRoot].map Root.dir) 2) s ∧ k = 1 ∧ s.finished = false := by
  refine ⟨1, _, .work (.idle .refl (AStep.worker (l := [⟨.idle, []⟩]) (r := []) (.empty (fun _ => ⟨rfl, fun h => by cases h⟩)))) (AStep.worker (l := []) .getDirs), rfl, rfl⟩

theorem initState_pot (roots : List Root) (n : Nat) : statesPot (initState (roots.map Root.dir) n) = 1 + (roots.map (fun r => 3 + 15 * countTree r.kids)).sum := by
  have h1 : ∀ k, ((List.replicate k (⟨.idle, [], []⟩ : Worker)).map workerPotC).sum = 0 := by
    intro k
    induction k with
    | zero => rfl
    | succ k ih => simp [List.replicate_succ, ih, workerPotC, statePotC]
  simp only [statesPot, initState, h1, MState.pot, List.map_map, Nat.add_zero, List.length_nil, Nat.mul_zero]
  congr 2
  apply List.map_congr_left
  intro r _
  simp only [Function.comp_apply, chunkPotC, dirsPot_cons, dirPot, Root.dir, kidsPot_eq]
  simp only [dirsPot, List.map_nil, List.sum_nil]
  omega

/-- C86 for results that are collected by the main process (sorting, counting, --exec-batch): a limited number of steps. -/
theorem C86_collect_bounded (cfg : WalkCfg) (fair : Fair) (roots : List Root) (n : Nat) {k : Nat} {s : PState}
    (h : CSteps cfg fair k (initState (roots.map Root.dir) n) s) : k ≤ 1 + (roots.map (fun r => 3 + 15 * countTree r.kids)).sum := by
  rw [← initState_pot roots n]
  have : k + statesPot s ≤ statesPot (initState (roots.map Root.dir) n) := by
    generalize initState (roots.map Root.dir) n = s0 at h
    induction h with
    | refl => omega
    | work _ h hw ih =>
      rcases h.pot with h | h
      · omega
      · exact absurd h.2 hw
    | idle _ h _ ih => rcases h.pot with h | h <;> omega
  omega

/-- Every execution is counted. -/
theorem CSteps.of_steps {cfg : WalkCfg} {fair : Fair} {s t : PState} (h : PSteps cfg fair s t) : ∃ k, CSteps cfg fair k s t := by
  induction h with
  | refl => exact ⟨0, .refl⟩
  | @step t u _ h ih =>
    obtain ⟨k, ih⟩ := ih
    by_cases hw : OnlyWaits t u
    · exact ⟨k, .idle ih h hw⟩
    · exact ⟨k + 1, .work ih h hw⟩

/-- C86 for results that are collected: no deadlock. -/
theorem C86_collect_no_deadlock (cfg : WalkCfg) (fair : Fair) (roots : List Root) {n : Nat} (hn : 0 < n) {s : PState}
    (h : PSteps cfg fair (initState (roots.map Root.dir) n) s) : ∃ t, PSteps cfg fair s t ∧ t.main = .finished := by
  refine NoneStopped.ends cfg fair _ (Nat.le_refl _) (NoneStopped.steps h ⟨?_, ?_⟩)
  · simp only [initState, ne_eq, List.replicate_eq_nil_iff]; omega
  · intro _ w hw
    simp only [initState, List.mem_replicate] at hw
    rw [hw.2]
    simp

/-- An execution that is counted, with something done. -/
example : ∃ k s, CSteps demoCfg ⟨true, true⟩ k (initState ([demoRoot].map Root.dir) 1) s ∧ s.main = .finished ∧ s.collected = [demoA, demoB] := by
  obtain ⟨k, h⟩ := CSteps.of_steps demo_run
  exact ⟨k, _, h, rfl, rfl⟩

end FF
