import Verif.Lemmas.HaltEnd
import Verif.Props.Immediate
namespace FF
open Spec

/-! ### C92: failures while results are processed immediately -/

/-- What holds in a state that corresponds to one without failures. -/
theorem fits_sound (cfg : WalkCfg) (mode : IMode) {roots : List Root} (hok : ∀ r ∈ roots, r.Ok) (hnd : (roots.map Root.start).Nodup) (n : Nat)
    {k' : Nat} {a : IAll} {s : HAll} (ha : ASteps cfg mode false k' (initAll (roots.map Root.dir) n) a) (hf : FitsState s a) :
    (s.done.Nodup ∧ ∀ i ∈ s.done, (∃ r ∈ roots, Selected cfg r.start r.base r.kids i) ∧ ToDo mode i) ∧
    (s.begun.Nodup ∧ ∀ i ∈ s.begun, (∃ r ∈ roots, Selected cfg r.start r.base r.kids i) ∧ ToDo mode i) ∧
    (s.hasResult = true → ∃ i, ∃ r ∈ roots, Selected cfg r.start r.base r.kids i) := by
  obtain ⟨a1, a2, a3, a4, a5, a6⟩ := hf
  obtain ⟨h1, h2, h3⟩ := C85_sound cfg mode false hok hnd n ha
  rw [a2] at h1 h2
  rw [a3] at h3
  have hle : ∀ p, s.begun.countP p ≤ List.countP p ((roots.map Root.dir).flatMap (resDir cfg)) := by
    intro p
    have e1 := ha.loses p
    rw [initAll_pending] at e1
    have e2 := a6 p
    have e3 : ∀ ws : List IWorker, (runningI ws).countP p ≤ (ws.flatMap (resIWorker cfg)).countP p := by
      intro ws
      induction ws with
      | nil => simp [runningI]
      | cons w ws ih =>
        have : w.st.calls.countP p ≤ (resIWorker cfg w).countP p := by
          unfold resIWorker
          generalize w.st = st
          cases st <;> simp [IState.calls, resIState, List.countP_cons]
        simp only [runningI, List.flatMap_cons, List.countP_append] at ih ⊢
        omega
    have e3 := e3 a.workers
    simp only [pendingI, List.countP_append, initAll, List.countP_nil] at e1
    omega
  have hd : Deliverable mode a := ha.inv (fun h => Deliverable.step h) ⟨by simp [initAll], by
      intro c hc
      obtain ⟨d, _, rfl⟩ := List.mem_map.1 hc
      exact fun e he => (by cases he), by
      intro w hw
      simp only [initAll, List.mem_replicate] at hw
      rw [hw.2]
      exact ⟨fun e he => (by cases he), fun c hc => (by cases hc)⟩⟩
  refine ⟨⟨h1, h2⟩, ⟨?_, ?_⟩, h3⟩
  · rw [List.nodup_iff_count]
    intro e
    have := List.nodup_iff_count.1 (roots_nodup cfg hok hnd) e
    exact Nat.le_trans (hle (· == e)) this
  · intro i hi
    constructor
    · rw [← roots_mem cfg hok]
      have h4 : 0 < List.countP (· == i) s.begun := List.countP_pos_iff.2 ⟨i, hi, by simp⟩
      have := hle (· == i)
      obtain ⟨j, hj, hij⟩ := List.countP_pos_iff.1 (show 0 < List.countP (· == i) ((roots.map Root.dir).flatMap (resDir cfg)) by omega)
      simp only [beq_iff_eq] at hij
      exact hij ▸ hj
    · rw [← delivers_iff]
      have h4 : 0 < List.countP (· == i) s.begun := List.countP_pos_iff.2 ⟨i, hi, by simp⟩
      have h5 := a6 (· == i)
      by_cases h6 : 0 < List.countP (· == i) a.done
      · obtain ⟨j, hj, hij⟩ := List.countP_pos_iff.1 h6
        simp only [beq_iff_eq] at hij
        exact hd.done i (hij ▸ hj)
      · obtain ⟨j, hj, hij⟩ := List.countP_pos_iff.1 (show 0 < List.countP (· == i) (runningI a.workers) by omega)
        simp only [beq_iff_eq] at hij
        subst hij
        obtain ⟨w, hw, hjw⟩ := List.mem_flatMap.1 hj
        exact (hd.workers w hw).1 j hjw

/-- C92: at every moment, whatever has failed: no command has been started twice, or for an entry that is not selected or for which no command can be
made; the same holds for what has been printed; and only commands that have been started have ended. -/
theorem C92_sound (cfg : WalkCfg) (mode : IMode) (halts timely : Bool) {roots : List Root} (hok : ∀ r ∈ roots, r.Ok) (hnd : (roots.map Root.start).Nodup) (n : Nat)
    {k : Nat} {s : HAll} (h : HSteps cfg mode halts timely k (initHalt (roots.map Root.dir) n) s) :
    (s.done.Nodup ∧ ∀ i ∈ s.done, (∃ r ∈ roots, Selected cfg r.start r.base r.kids i) ∧ ToDo mode i) ∧
    (s.begun.Nodup ∧ ∀ i ∈ s.begun, (∃ r ∈ roots, Selected cfg r.start r.base r.kids i) ∧ ToDo mode i) ∧
    (mode.exec = true → ∀ i ∈ s.done, i ∈ s.begun) ∧
    (s.hasResult = true → ∃ i, ∃ r ∈ roots, Selected cfg r.start r.base r.kids i) := by
  obtain ⟨k', a, ha, hf⟩ := h.fits (HaltInv.init _ n) (init_fits _ n)
  obtain ⟨h1, h2, h3⟩ := fits_sound cfg mode hok hnd n ha hf
  refine ⟨h1, h2, ?_, h3⟩
  · intro hm
    exact (h.inv (P := HBegun) (fun h => HBegun.step hm h) ⟨by simp [initHalt], by
      intro x hx e he
      simp only [initHalt, List.mem_replicate] at hx
      rw [hx.2] at he
      cases he⟩).done

theorem HCode.init (roots : List DirT) (n : Nat) : HCode (initHalt roots n) := ⟨by simp [initHalt], by simp [initHalt], by simp [initHalt]⟩

/-- C92: the exit status is 0 exactly if no command has failed and no worker has been found to have failed, and otherwise 3 or 4. If the program
has been stopped something has failed. -/
theorem C92_status (cfg : WalkCfg) (mode : IMode) (halts timely : Bool) (roots : List Root) (n : Nat) {k : Nat} {s : HAll}
    (h : HSteps cfg mode halts timely k (initHalt (roots.map Root.dir) n) s) :
    (s.exitcode = 0 ↔ s.failures = 0) ∧ (s.exitcode = 0 ∨ s.exitcode = 3 ∨ s.exitcode = 4) ∧ (s.stopping = true → s.exitcode ≠ 0) := by
  have hc : HCode s := h.inv (fun h => HCode.step h) (HCode.init _ n)
  exact ⟨hc.zero, hc.values, fun hs h0 => hc.stop hs (hc.zero.1 h0)⟩

/-- C92: if the program comes to its end without having been stopped, also if commands have failed with --halt never, exactly the selected entries have been
printed, or exactly the commands that can be made for them have been started and have ended, each once. Under the same timing assumption as
C85. -/
theorem C92_complete_partial (cfg : WalkCfg) (mode : IMode) (halts : Bool) {roots : List Root} (hok : ∀ r ∈ roots, r.Ok) (hnd : (roots.map Root.start).Nodup)
    {n : Nat} (hn : 0 < n) {k : Nat} {s : HAll} (h : HSteps cfg mode halts true k (initHalt (roots.map Root.dir) n) s) (hend : Ended s) (hst : s.stopping = false) :
    s.done.Nodup ∧ (∀ i, i ∈ s.done ↔ (∃ r ∈ roots, Selected cfg r.start r.base r.kids i) ∧ ToDo mode i) ∧
    (s.hasResult = true ↔ ∃ i, ∃ r ∈ roots, Selected cfg r.start r.base r.kids i) := by
  have hi : HaltInv s := h.inv (fun h => HaltInv.step h) (HaltInv.init _ n)
  have hp : s.passed = true := by
    rcases hi.left hend.1 with h | h
    · rw [hst] at h; cases h
    · exact h
  have hd : s.died = false := by
    cases hd : s.died with
    | false => rfl
    | true => have := hi.calm hd; rw [hp] at this; cases this
  obtain ⟨k', ha⟩ := h.toI (HaltInv.init _ n) (by simp [HAll.calm, hst, hd])
  rw [init_toI] at ha
  exact C85_complete_partial cfg mode hok hnd hn ha hp

/-- C92: if ff exits with status 0 (and --fail is not used), everything has been done. -/
theorem C92_success_partial (cfg : WalkCfg) (mode : IMode) (halts : Bool) {roots : List Root} (hok : ∀ r ∈ roots, r.Ok) (hnd : (roots.map Root.start).Nodup)
    {n : Nat} (hn : 0 < n) {k : Nat} {s : HAll} (h : HSteps cfg mode halts true k (initHalt (roots.map Root.dir) n) s) (hend : Ended s) (h0 : s.exitcode = 0) :
    s.failures = 0 ∧ ∀ i, i ∈ s.done ↔ (∃ r ∈ roots, Selected cfg r.start r.base r.kids i) ∧ ToDo mode i := by
  obtain ⟨h1, _, h3⟩ := C92_status cfg mode halts true roots n h
  refine ⟨h1.1 h0, (C92_complete_partial cfg mode halts hok hnd hn h hend ?_).2.1⟩
  cases hs : s.stopping with
  | false => rfl
  | true => exact absurd h0 (h3 hs)

/-- C92: after a failure that stops the program each of the other jobs starts at most one further command. -/
theorem C92_halt (cfg : WalkCfg) (mode : IMode) (halts timely : Bool) (roots : List Root) {n : Nat} {j k : Nat} {work : Bool} {s t u : HAll}
    (h : HSteps cfg mode halts timely j (initHalt (roots.map Root.dir) n) s) (hst : HStep cfg mode halts timely work s t) (hs : s.stopping = false) (ht : t.stopping = true)
    (hu : HSteps cfg mode halts timely k t u) : u.begun.length + 1 ≤ s.begun.length + n := by
  have hi : HaltInv s := h.inv (fun h => HaltInv.step h) (HaltInv.init _ n)
  have h1 := hst.first hi hs ht
  have h2 := (hu.starts ht).1
  have hl : s.workers.length = n := h.inv (P := fun s => s.workers.length = n) (fun h hs => h.workers.trans hs) (by simp [initHalt])
  have hb : t.begun = s.begun := by
    cases hst with
    | act _ _ _ _ _ _ => simp only at ht; rw [hs] at ht; cases ht
    | ran ok _ => cases ok <;> rfl
    | _ => rfl
  simp only [mayStart] at h2
  rw [hb] at h2
  omega

/-- C92: a command that fails stops the program with --halt soon and now, and only then. -/
theorem C92_stops {cfg : WalkCfg} {mode : IMode} {halts timely work : Bool} {s t : HAll} (h : HStep cfg mode halts timely work s t) (hd : s.died = false)
    (hx : t.exitcode ≠ 4) (hs : s.stopping = false) : t.stopping = true ↔ halts = true ∧ t.failures ≠ s.failures := by
  cases h with
  | ran ok _ => cases ok <;> simp [HAll.ended, HAll.failed, hs]
  | crash _ _ => exact absurd rfl hx
  | notice h _ => rw [h] at hd; cases hd
  | _ => simp_all

theorem initHalt_pot (roots : List Root) (n : Nat) : hPot (initHalt (roots.map Root.dir) n) = 1 + n + (roots.map (fun r => 3 + 15 * countTree r.kids)).sum := by
  have h1 : ∀ k, ((List.replicate k (⟨⟨.idle, []⟩, false⟩ : HWorker)).map aliveness).sum = k := by
    intro k
    induction k with
    | zero => rfl
    | succ k ih =>
      simp only [List.replicate_succ, List.map_cons, List.sum_cons, ih, aliveness, workerPot, statePot, IState.isStopped, List.map_nil, List.sum_nil,
        Bool.false_eq_true, if_false]
      omega
  have h2 : (((roots.map Root.dir).map (fun d => IChunk.dirs [d])).map (fun c => 2 + chunkPot c)).sum = (roots.map (fun r => 3 + 15 * countTree r.kids)).sum := by
    rw [List.map_map, List.map_map]
    congr 1
    apply List.map_congr_left
    intro r _
    simp only [Function.comp_apply, chunkPot, dirsPot_cons, dirPot, Root.dir, kidsPot_eq]
    simp only [dirsPot, List.map_nil, List.sum_nil]
    omega
  simp only [hPot, initHalt, h1, h2, Bool.false_eq_true, if_false]
  omega

/-- C92: whatever fails, the number of steps is limited, apart from beginning and ending to wait. -/
theorem C92_bounded (cfg : WalkCfg) (mode : IMode) (halts timely : Bool) (roots : List Root) (n : Nat) {k : Nat} {s : HAll}
    (h : HSteps cfg mode halts timely k (initHalt (roots.map Root.dir) n) s) : k ≤ 1 + n + (roots.map (fun r => 3 + 15 * countTree r.kids)).sum := by
  have := h.pot
  rw [initHalt_pot] at this
  omega

/-- C92: whatever has failed, the program can come to its end. -/
theorem C92_no_deadlock (cfg : WalkCfg) (mode : IMode) (halts timely : Bool) (roots : List Root) {n : Nat} (hn : 0 < n) {k : Nat} {s : HAll}
    (h : HSteps cfg mode halts timely k (initHalt (roots.map Root.dir) n) s) : ∃ m t, HSteps cfg mode halts timely m s t ∧ Ended t := by
  have hl : s.workers.length = n := h.inv (P := fun s => s.workers.length = n) (fun h hs => h.workers.trans hs) (by simp [initHalt])
  refine HSound.ends cfg mode halts timely _ (Nat.le_refl _) (h.inv (fun h => HSound.step h) ?_) (h.inv (fun h => HaltInv.step h) (HaltInv.init _ n)) ?_
  · intro x hx
    simp only [initHalt, List.mem_replicate] at hx
    rw [hx.2]
    exact Or.inr trivial
  · intro h0
    rw [h0] at hl
    simp only [List.length_nil] at hl
    omega

/-! ### Executions -/

/-- The state with a worker, and others, when nothing has failed. -/
def oneWorker (rest : List HWorker) (q : List IChunk) (w : IWorker) (c : Bool) (d : List EntInfo) (r : Bool) (bg : List EntInfo) : HAll :=
  { queue := q, workers := ⟨w, c⟩ :: rest, passed := false, left := false, died := false, stopping := false, exitcode := 0, failures := 0, done := d, hasResult := r, begun := bg }

theorem HSteps.head {cfg : WalkCfg} {mode : IMode} {halts timely work : Bool} {n : Nat} {s t u : HAll} (h : HStep cfg mode halts timely work s t)
    (hs : HSteps cfg mode halts timely n t u) : ∃ m, HSteps cfg mode halts timely m s u := by
  cases work with
  | true => exact ⟨_, (HSteps.work .refl h).trans hs⟩
  | false => exact ⟨_, (HSteps.idle .refl h).trans hs⟩

/-- Steps are put in front of others. -/
theorem HSteps.next {cfg : WalkCfg} {mode : IMode} {halts timely work : Bool} {s t u : HAll} (h : HStep cfg mode halts timely work s t)
    (hs : ∃ n, HSteps cfg mode halts timely n t u) : ∃ m, HSteps cfg mode halts timely m s u := by
  obtain ⟨n, hs⟩ := hs
  exact hs.head h

theorem HStep.single {cfg : WalkCfg} {mode : IMode} {halts timely work : Bool} {rest : List HWorker} {q w r new q' w' r'} (c : Bool) (d bg : List EntInfo)
    (h : IStep cfg mode timely (rest.all (fun x => x.w.st.isWaiting)) work (q, w, r) new (q', w', r')) (hc : w.st.isIdle = true → w'.st.isIdle = false → c = true) (hr : ∀ e, w.st ≠ .running e) :
    HStep cfg mode halts timely work (oneWorker rest q w c d r bg) (oneWorker rest q' w' (c && w.st.isIdle) (d ++ new) r' (bg ++ begins w.st w'.st)) :=
  .act (l := []) (r := rest) (x := ⟨w, c⟩) rfl rfl
    (fun h1 h2 => hc ((isIdle_iff _).2 h1) (by
      cases h : w'.st.isIdle with
      | false => rfl
      | true => exact absurd ((isIdle_iff _).1 h) h2)) (fun _ _ => rfl) (fun e h => absurd h (hr e)) h

/-- A command for everything. -/
def demoExecAll : IMode := ⟨true, fun _ => true⟩

/-- Both commands are in the queue. -/
theorem demo_calls (halts : Bool) (n : Nat) {t : HAll} (h : ∃ k, HSteps demoCfg demoExecAll halts true k (oneWorker (List.replicate n ⟨⟨.idle, []⟩, false⟩) [.call demoA, .call demoB] ⟨.idle, []⟩ false [] true []) t) :
    ∃ k, HSteps demoCfg demoExecAll halts true k (initHalt [demoRoot.dir] (n + 1)) t := by
  generalize hrest : List.replicate n (⟨⟨.idle, []⟩, false⟩ : HWorker) = rest at h
  have hinit : initHalt [demoRoot.dir] (n + 1) = oneWorker rest [.dirs [demoRoot.dir]] ⟨.idle, []⟩ false [] false [] := by
    simp [initHalt, oneWorker, List.replicate_succ, hrest]
  rw [hinit]
  have hs := demo_scan demoCfg.isIgnoreFile rfl
  have scan1 := IStep.scan (cfg := demoCfg) (mode := demoExecAll) (timely := true) (alone := rest.all (fun x => x.w.st.isWaiting)) (d := demoRoot.dir) (todo := []) (q := []) (b := []) (r := false)
  have scan2 := IStep.scan (cfg := demoCfg) (mode := demoExecAll) (timely := true) (alone := rest.all (fun x => x.w.st.isWaiting)) (d := demoDirA) (todo := []) (q := [.call demoA]) (b := []) (r := true)
  rw [hs.1] at scan1
  rw [hs.2] at scan2
  refine HSteps.next (HStep.check (l := []) (r := rest) (b := []) rfl rfl) ?_
  refine HSteps.next (HStep.single true [] [] (IStep.getDirs (ds := [demoRoot.dir]) (b := []) (r := false)) (fun _ _ => rfl) (by simp)) ?_
  refine HSteps.next (HStep.single _ [] [] scan1 (fun h => by cases h) (by simp)) ?_
  refine HSteps.next (HStep.single _ [] [] (IStep.test (e := demoEntA) (es := []) (todo := []) (search := []) (process := []) (q := []) (b := [])) (fun h => by cases h) (by simp)) ?_
  refine HSteps.next (HStep.single _ [] [] (IStep.put (search := [demoDirA]) (process := [demoA]) (q := []) (b := []) (by simp)) (fun h => by cases h) (by simp)) ?_
  refine HSteps.next (HStep.single _ [] [] (IStep.hand (process := [demoA]) (by simp)) (fun h => by cases h) (by simp)) ?_
  refine HSteps.next (HStep.single _ [] [] (IStep.call (e := demoA) (batch := []) rfl rfl) (fun h => by cases h) (by simp)) ?_
  refine HSteps.next (HStep.single _ [] [] (IStep.finish (b := [.dirs [demoDirA], .call demoA])) (fun h => by cases h) (by simp)) ?_
  refine HSteps.next (HStep.single _ [] [] (IStep.flush (c := .dirs [demoDirA]) (q := [])) (fun _ h => by cases h) (by simp)) ?_
  refine HSteps.next (HStep.single _ [] [] (IStep.flush (c := .call demoA) (q := [.dirs [demoDirA]])) (fun _ h => by cases h) (by simp)) ?_
  refine HSteps.next (HStep.check (l := []) (r := rest) (b := []) rfl rfl) ?_
  refine HSteps.next (HStep.single true [] [] (IStep.getDirs (ds := [demoDirA]) (q := [.call demoA]) (b := []) (r := true)) (fun _ _ => rfl) (by simp)) ?_
  refine HSteps.next (HStep.single _ [] [] scan2 (fun h => by cases h) (by simp)) ?_
  refine HSteps.next (HStep.single _ [] [] (IStep.test (e := demoEntB) (es := []) (todo := []) (search := []) (process := []) (b := [])) (fun h => by cases h) (by simp)) ?_
  refine HSteps.next (HStep.single _ [] [] (IStep.hand (process := [demoB]) (by simp)) (fun h => by cases h) (by simp)) ?_
  refine HSteps.next (HStep.single _ [] [] (IStep.call (e := demoB) (batch := []) rfl rfl) (fun h => by cases h) (by simp)) ?_
  refine HSteps.next (HStep.single _ [] [] (IStep.finish (b := [.call demoB])) (fun h => by cases h) (by simp)) ?_
  refine HSteps.next (HStep.single _ [] [] (IStep.flush (c := .call demoB) (q := [.call demoA])) (fun _ h => by cases h) (by simp)) ?_
  exact h

/-- With --halt soon the second command is not run after the first one has failed, and the exit status is 3. This is a case of `C92_halt` too: the step that
stops the program is `HStep.ran`. -/
example : ∃ k s, HSteps demoCfg demoExecAll true true k (initHalt ([demoRoot].map Root.dir) 1) s ∧ Ended s ∧ s.done = [demoA] ∧ s.begun = [demoA] ∧
    s.exitcode = 3 ∧ s.stopping = true := by
  have h := demo_calls true 0 (HSteps.next (HStep.check (l := []) (r := []) (b := []) rfl rfl)
    (HSteps.next (HStep.single true [] [] (IStep.getCall (b := []) (r := true)) (fun _ _ => rfl) (by simp))
    (HSteps.next (HStep.ran (l := []) (r := []) false rfl) (HSteps.next (HStep.leave (l := []) (r := []) rfl rfl)
    (HSteps.next (HStep.mainStop rfl rfl) ⟨0, .refl⟩)))))
  obtain ⟨k, h⟩ := h
  exact ⟨k, _, h, ⟨rfl, by intro x hx; simp only [List.nil_append, List.mem_singleton] at hx; subst hx; rfl⟩, rfl, rfl, rfl, rfl⟩

/-- With --halt never both commands are run although the first one fails, and the exit status is 3 as well: the hypotheses of `C92_complete_partial` are met. -/
example : ∃ k s, HSteps demoCfg demoExecAll false true k (initHalt ([demoRoot].map Root.dir) 1) s ∧ Ended s ∧ s.done = [demoA, demoB] ∧ s.begun = [demoA, demoB] ∧
    s.exitcode = 3 ∧ s.stopping = false ∧ s.failures = 1 := by
  have h := demo_calls false 0 (HSteps.next (HStep.check (l := []) (r := []) (b := []) rfl rfl)
    (HSteps.next (HStep.single true [] [] (IStep.getCall (b := []) (r := true)) (fun _ _ => rfl) (by simp))
    (HSteps.next (HStep.ran (l := []) (r := []) false rfl)
    (HSteps.next (HStep.check (l := []) (r := []) (b := []) rfl rfl)
    (HSteps.next (HStep.act (l := []) (r := []) (x := ⟨⟨.idle, []⟩, true⟩) rfl rfl (fun _ _ => rfl) (fun h => by cases h) (fun e h => by cases h) (IStep.getCall (e := demoB) (q := []) (b := [])))
    (HSteps.next (HStep.ran (l := []) (r := []) true rfl)
    (HSteps.next (HStep.check (l := []) (r := []) (b := []) rfl rfl)
    (HSteps.next (HStep.act (l := []) (r := []) (x := ⟨⟨.idle, []⟩, true⟩) rfl rfl (fun _ _ => rfl) (fun h => by cases h) (fun e h => by cases h) (IStep.empty (b := []) (fun _ => ⟨rfl, fun _ => rfl⟩)))
    (HSteps.next (HStep.barrier rfl rfl (by intro x hx; simp only [List.nil_append, List.mem_singleton] at hx; subst hx; rfl)) ⟨0, .refl⟩)))))))))
  obtain ⟨k, h⟩ := h
  exact ⟨k, _, h, ⟨rfl, by intro x hx; simp only [List.nil_append, List.map_cons, List.map_nil, List.mem_singleton] at hx; subst hx; rfl⟩, rfl, rfl, rfl, rfl, rfl⟩

/-- If everything succeeds the status is 0: the hypotheses of `C92_success_partial` are met. -/
example : ∃ k s, HSteps demoCfg demoExecAll true true k (initHalt ([demoRoot].map Root.dir) 1) s ∧ Ended s ∧ s.done = [demoA, demoB] ∧ s.exitcode = 0 := by
  have h := demo_calls true 0 (HSteps.next (HStep.check (l := []) (r := []) (b := []) rfl rfl)
    (HSteps.next (HStep.single true [] [] (IStep.getCall (b := []) (r := true)) (fun _ _ => rfl) (by simp))
    (HSteps.next (HStep.ran (l := []) (r := []) true rfl)
    (HSteps.next (HStep.check (l := []) (r := []) (b := []) rfl rfl)
    (HSteps.next (HStep.act (l := []) (r := []) (x := ⟨⟨.idle, []⟩, true⟩) rfl rfl (fun _ _ => rfl) (fun h => by cases h) (fun e h => by cases h) (IStep.getCall (e := demoB) (q := []) (b := [])))
    (HSteps.next (HStep.ran (l := []) (r := []) true rfl)
    (HSteps.next (HStep.check (l := []) (r := []) (b := []) rfl rfl)
    (HSteps.next (HStep.act (l := []) (r := []) (x := ⟨⟨.idle, []⟩, true⟩) rfl rfl (fun _ _ => rfl) (fun h => by cases h) (fun e h => by cases h) (IStep.empty (b := []) (fun _ => ⟨rfl, fun _ => rfl⟩)))
    (HSteps.next (HStep.barrier rfl rfl (by intro x hx; simp only [List.nil_append, List.mem_singleton] at hx; subst hx; rfl)) ⟨0, .refl⟩)))))))))
  obtain ⟨k, h⟩ := h
  exact ⟨k, _, h, ⟨rfl, by intro x hx; simp only [List.nil_append, List.map_cons, List.map_nil, List.mem_singleton] at hx; subst hx; rfl⟩, rfl, rfl⟩

/-- C92 cannot be made stricter: with two jobs a further command may be started after one has failed, although --halt is soon or now. The other job has looked for
the stop signal before. -/
theorem C92_none_false : ∃ j k s t u, HSteps demoCfg demoExecAll true true j (initHalt ([demoRoot].map Root.dir) 2) s ∧ HStep demoCfg demoExecAll true true true s t ∧
    s.stopping = false ∧ t.stopping = true ∧ HSteps demoCfg demoExecAll true true k t u ∧ Ended u ∧ t.begun = [demoA] ∧ u.begun = [demoA, demoB] := by
  have h1 := demo_calls true 1 (HSteps.next (HStep.check (l := []) (r := [⟨⟨.idle, []⟩, false⟩]) (b := []) rfl rfl)
    (HSteps.next (HStep.single true [] [] (IStep.getCall (e := demoA) (q := [.call demoB]) (b := []) (r := true)) (fun _ _ => rfl) (by simp))
    (HSteps.next (HStep.check (l := [⟨⟨.running demoA, []⟩, true⟩]) (r := []) (b := []) rfl rfl) ⟨0, .refl⟩)))
  obtain ⟨j, h1⟩ := h1
  have h2 := HStep.ran (cfg := demoCfg) (mode := demoExecAll) (halts := true) (timely := true) (l := []) (r := [⟨⟨.idle, []⟩, true⟩]) (e := demoA) (b := []) (c := true) false
    (s := { oneWorker [⟨⟨.idle, []⟩, true⟩] [.call demoB] ⟨.running demoA, []⟩ true [] true [demoA] with hasResult := true }) rfl
  have h4 := HSteps.next (HStep.act (cfg := demoCfg) (mode := demoExecAll) (halts := true) (timely := true)
      (s := HAll.ended (HAll.failed (oneWorker [⟨⟨.idle, []⟩, true⟩] [.call demoB] ⟨.running demoA, []⟩ true [] true [demoA]) true) demoA [⟨⟨.idle, []⟩, false⟩, ⟨⟨.idle, []⟩, true⟩])
      (l := [⟨⟨.idle, []⟩, false⟩]) (r := []) (x := ⟨⟨.idle, []⟩, true⟩) rfl rfl (fun _ _ => rfl) (fun h => by cases h) (fun e h => by cases h)
      (IStep.getCall (e := demoB) (q := []) (b := [])))
    (HSteps.next (HStep.ran (l := [⟨⟨.idle, []⟩, false⟩]) (r := []) true rfl)
    (HSteps.next (HStep.leave (l := []) (r := [⟨⟨.idle, []⟩, false⟩]) rfl rfl) (HSteps.next (HStep.leave (l := [⟨⟨.stopped, []⟩, false⟩]) (r := []) rfl rfl)
    (HSteps.next (HStep.mainStop rfl rfl) ⟨0, .refl⟩))))
  obtain ⟨k, h4⟩ := h4
  refine ⟨j, k, _, _, _, h1, h2, rfl, rfl, h4, ⟨rfl, ?_⟩, rfl, rfl⟩
  intro x hx
  simp only [List.cons_append, List.nil_append, List.mem_cons, List.not_mem_nil, or_false] at hx
  rcases hx with rfl | rfl <;> rfl

end FF
