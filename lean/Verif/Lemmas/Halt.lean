import Verif.Lemmas.TerminateAll
import Verif.Spec.Halt
namespace FF
open Spec

theorem HSteps.inv {cfg : WalkCfg} {mode : IMode} {halts timely : Bool} {P : HAll → Prop} (hstep : ∀ {work s t}, HStep cfg mode halts timely work s t → P s → P t)
    {n : Nat} {s t : HAll} (h : HSteps cfg mode halts timely n s t) (hs : P s) : P t := by
  induction h with
  | refl => exact hs
  | work _ h ih => exact hstep h (ih hs)
  | idle _ h ih => exact hstep h (ih hs)

theorem HSteps.trans {cfg : WalkCfg} {mode : IMode} {halts timely : Bool} {m n : Nat} {s t u : HAll} (h1 : HSteps cfg mode halts timely m s t)
    (h2 : HSteps cfg mode halts timely n t u) : HSteps cfg mode halts timely (m + n) s u := by
  induction h2 with
  | refl => exact h1
  | work _ h ih => exact .work (ih h1) h
  | idle _ h ih => exact .idle (ih h1) h

/-! ### Steps of workers -/

theorem IStep.loose {cfg : WalkCfg} {mode : IMode} {timely alone alone' work : Bool} {x new y} (h : IStep cfg mode timely alone work x new y) :
    IStep cfg mode false alone' work x new y := by
  cases h with
  | getDirs => exact .getDirs
  | getEnts => exact .getEnts
  | getCall => exact .getCall
  | empty _ => exact .empty (fun h => by cases h)
  | timeout => exact .timeout
  | scan => exact .scan
  | test => exact .test
  | share h1 h2 => exact .share h1 h2
  | put h => exact .put h
  | hand h => exact .hand h
  | print h => exact .print h
  | call h1 h2 => exact .call h1 h2
  | skip h1 h2 => exact .skip h1 h2
  | run => exact .run
  | finish => exact .finish
  | flush => exact .flush

theorem IStep.stopped {cfg : WalkCfg} {mode : IMode} {timely alone work : Bool} {q w r new q' w' r'}
    (h : IStep cfg mode timely alone work (q, w, r) new (q', w', r')) (hw : w.st = .stopped) :
    ∃ c b, w.buf = c :: b ∧ q' = q ++ [c] ∧ w' = ⟨.stopped, b⟩ ∧ r' = r ∧ new = [] ∧ work = true := by
  generalize hx : (q, w, r) = x at h
  generalize hy : (q', w', r') = y at h
  cases h <;> simp only [Prod.mk.injEq] at hx hy <;> obtain ⟨rfl, rfl, rfl⟩ := hx <;> obtain ⟨rfl, rfl, rfl⟩ := hy <;> simp only [reduceCtorEq] at hw
  exact ⟨_, _, rfl, rfl, by simp [hw], rfl, rfl, rfl⟩

theorem IStep.stops {cfg : WalkCfg} {mode : IMode} {timely alone work : Bool} {q w r new q' w' r'}
    (h : IStep cfg mode timely alone work (q, w, r) new (q', w', r')) : w'.st = .stopped ↔ w.st = .stopped := by
  generalize hx : (q, w, r) = x at h
  generalize hy : (q', w', r') = y at h
  cases h <;> simp only [Prod.mk.injEq] at hx hy <;> obtain ⟨rfl, rfl, rfl⟩ := hx <;> obtain ⟨rfl, rfl, rfl⟩ := hy <;> simp

/-! ### Without stopping: as before -/

/-- The same without the stop signal. -/
def HAll.toI (s : HAll) : IAll := ⟨s.queue, s.workers.map HWorker.w, s.passed, s.done, s.hasResult⟩

theorem map_all (l : List HWorker) : (l.map HWorker.w).all (fun w => w.st.isWaiting) = l.all (fun x => x.w.st.isWaiting) := by
  induction l with
  | nil => rfl
  | cons x l ih => simp only [List.map_cons, List.all_cons, ih]

/-- Neither stopped by --halt or an error, nor has a worker been killed. -/
def HAll.calm (s : HAll) : Bool := !s.stopping && !s.died

theorem HStep.calm {cfg : WalkCfg} {mode : IMode} {halts timely work : Bool} {s t : HAll} (h : HStep cfg mode halts timely work s t) (ht : t.calm = true) :
    s.calm = true := by
  cases h with
  | ran ok _ => cases ok <;> simp_all [HAll.calm, HAll.ended, HAll.failed]
  | _ => simp_all [HAll.calm]

theorem HStep.toI {cfg : WalkCfg} {mode : IMode} {halts timely work : Bool} {s t : HAll} (h : HStep cfg mode halts timely work s t) (ht : t.calm = true)
    (hp : s.passed = true → ∀ x ∈ s.workers, x.w.st = .stopped) :
    t.toI = s.toI ∨ ∃ work', AStep cfg mode timely work' s.toI t.toI := by
  have hs := h.calm ht
  cases h with
  | check hw _ => left; simp [HAll.toI, hw]
  | leave _ h => simp [HAll.calm, h] at hs
  | quit _ h => simp [HAll.calm, h] at hs
  | @act work s l x r q' w' res' new hw hps _ _ _ hstep =>
    right
    refine ⟨work, ?_⟩
    have h1 := AStep.worker (l := l.map HWorker.w) (r := r.map HWorker.w) (d := s.done) (by rw [← List.map_append, map_all]; exact hstep)
    simpa [HAll.toI, hw, hps] using h1
  | @ran s l e b c r ok hw =>
    right
    have hps : s.passed = false := by
      cases h : s.passed with
      | false => rfl
      | true => have := hp h ⟨⟨.running e, b⟩, c⟩ (by simp [hw]); cases this
    have h1 := AStep.worker (timely := timely) (l := l.map HWorker.w) (r := r.map HWorker.w) (d := s.done)
      (IStep.run (cfg := cfg) (mode := mode) (timely := timely) (e := e) (q := s.queue) (b := b) (r := s.hasResult))
    refine ⟨true, ?_⟩
    cases ok <;> simpa [HAll.toI, hw, hps, HAll.ended, HAll.failed] using h1
  | crash _ _ => simp [HAll.calm] at ht
  | die _ _ => simp [HAll.calm] at ht
  | notice h _ => simp [HAll.calm, h] at hs
  | mainStop h _ => simp [HAll.calm, h] at hs
  | @barrier s hps _ hall =>
    right
    have h1 := AStep.barrier (cfg := cfg) (mode := mode) (timely := timely) (q := s.queue) (ws := s.workers.map HWorker.w) (d := s.done) (res := s.hasResult)
      (by intro w hw; obtain ⟨x, hx, rfl⟩ := List.mem_map.1 hw; exact hall x hx)
    exact ⟨true, by simpa [HAll.toI, hps, Function.comp_def] using h1⟩

/-! ### What holds in every state -/

/-- When the barrier has been passed all workers have stopped. Main leaves its loop only then, or when the program stops. Workers stop only then, when the
program stops, or when they are killed. -/
structure HaltInv (s : HAll) : Prop where
  passed : s.passed = true → ∀ x ∈ s.workers, x.w.st = .stopped
  left : s.left = true → s.stopping = true ∨ s.passed = true
  stop : ∀ x ∈ s.workers, x.w.st = .stopped → s.stopping = true ∨ s.passed = true ∨ s.died = true
  died : s.died = true → ∃ x ∈ s.workers, x.w.st = .stopped
  calm : s.died = true → s.passed = false
  both : s.passed = true → s.left = true

theorem mem_replace {x y z : HWorker} {l r : List HWorker} (h : y ∈ l ++ z :: r) : y = z ∨ y ∈ l ++ x :: r := by
  simp only [List.mem_append, List.mem_cons] at *
  rcases h with h | h | h <;> simp [h]

/-- A worker is replaced by one that has not stopped. -/
theorem HaltInv.replace {s t : HAll} {l r : List HWorker} {x y : HWorker} (hs : HaltInv s) (h1 : s.workers = l ++ x :: r) (h2 : t.workers = l ++ y :: r)
    (hx : x.w.st = .stopped ↔ y.w.st = .stopped) (hp : t.passed = s.passed) (hl : t.left = s.left) (hd : t.died = s.died)
    (hst : s.stopping = true → t.stopping = true) : HaltInv t := by
  have hxm : x ∈ s.workers := by simp [h1]
  refine ⟨?_, ?_, ?_, ?_, ?_, ?_⟩
  · rw [hp, h2]
    intro h z hz
    rcases mem_replace (x := x) hz with rfl | hz
    · exact hx.1 (hs.passed h x hxm)
    · exact hs.passed h z (h1 ▸ hz)
  · rw [hp, hl]
    intro h
    rcases hs.left h with h | h
    · exact Or.inl (hst h)
    · exact Or.inr h
  · rw [hp, hd, h2]
    intro z hz hzs
    have : s.stopping = true ∨ s.passed = true ∨ s.died = true := by
      rcases mem_replace (x := x) hz with rfl | hz
      · exact hs.stop x hxm (hx.2 hzs)
      · exact hs.stop z (h1 ▸ hz) hzs
    rcases this with h | h
    · exact Or.inl (hst h)
    · exact Or.inr h
  · rw [hd, h2]
    intro h
    obtain ⟨z, hz, hzs⟩ := hs.died h
    rw [h1] at hz
    rcases mem_replace (x := y) hz with rfl | hz
    · exact ⟨y, by simp, hx.1 hzs⟩
    · exact ⟨z, hz, hzs⟩
  · rw [hd, hp]; exact hs.calm
  · rw [hp, hl]; exact hs.both

/-- A worker stops. -/
theorem HaltInv.stopped {s t : HAll} {l r : List HWorker} {x : HWorker} {b : List IChunk} (hs : HaltInv s) (h1 : s.workers = l ++ x :: r) (hx : x.w.st ≠ .stopped)
    (h2 : t.workers = l ++ ⟨⟨.stopped, b⟩, false⟩ :: r) (hp : t.passed = s.passed) (hl : t.left = s.left) (hd : s.died = true → t.died = true)
    (hst : s.stopping = true → t.stopping = true) (hd' : t.stopping = true ∨ t.died = true) : HaltInv t := by
  have hxm : x ∈ s.workers := by simp [h1]
  have hnp : s.passed = false := by
    cases h : s.passed with
    | false => rfl
    | true => exact absurd (hs.passed h x hxm) hx
  refine ⟨?_, ?_, ?_, ?_, ?_, ?_⟩
  · rw [hp, hnp]; intro h; cases h
  · rw [hl]
    intro h
    rcases hs.left h with h | h
    · exact Or.inl (hst h)
    · rw [hnp] at h; cases h
  · intro _ _ _
    rcases hd' with h | h
    · exact Or.inl h
    · exact Or.inr (Or.inr h)
  · intro _
    exact ⟨⟨⟨.stopped, b⟩, false⟩, by simp [h2], rfl⟩
  · intro _; rw [hp, hnp]
  · rw [hp, hnp]; intro h; cases h

theorem HaltInv.step {cfg : WalkCfg} {mode : IMode} {halts timely work : Bool} {s t : HAll} (h : HStep cfg mode halts timely work s t) (hs : HaltInv s) : HaltInv t := by
  cases h with
  | check hw _ => exact hs.replace hw rfl (by simp) rfl rfl rfl id
  | leave hw h => exact hs.stopped hw (by simp) rfl rfl rfl id id (Or.inl h)
  | quit hw h => exact hs.stopped hw (by simp) rfl rfl rfl id id (Or.inl h)
  | act hw _ _ _ _ hstep => exact hs.replace hw rfl hstep.stops.symm rfl rfl rfl id
  | ran ok hw => exact hs.replace hw rfl (by simp) (by cases ok <;> rfl) (by cases ok <;> rfl) (by cases ok <;> rfl) (by cases ok <;> simp_all [HAll.ended, HAll.failed])
  | crash hw hx => exact hs.stopped hw hx rfl rfl rfl id (fun _ => rfl) (Or.inl rfl)
  | die hw hx => exact hs.stopped hw hx rfl rfl rfl (fun _ => rfl) id (Or.inr rfl)
  | notice _ _ => exact ⟨hs.passed, fun _ => Or.inl rfl, fun _ _ _ => Or.inl rfl, hs.died, hs.calm, fun _ => rfl⟩
  | mainStop h _ => exact ⟨hs.passed, fun _ => Or.inl h, hs.stop, hs.died, hs.calm, fun _ => rfl⟩
  | @barrier s _ _ hall =>
    refine ⟨?_, fun _ => Or.inr rfl, fun _ _ _ => Or.inr (Or.inl rfl), ?_, ?_, fun _ => rfl⟩
    · intro _ x hx
      obtain ⟨y, _, rfl⟩ := List.mem_map.1 hx
      rfl
    · intro h
      obtain ⟨x, hx, hxs⟩ := hs.died h
      have := hall x hx
      rw [hxs] at this
      cases this
    · intro h
      obtain ⟨x, hx, hxs⟩ := hs.died h
      have := hall x hx
      rw [hxs] at this
      cases this

theorem HaltInv.init (roots : List DirT) (n : Nat) : HaltInv (initHalt roots n) := by
  refine ⟨?_, ?_, ?_, ?_, ?_, ?_⟩ <;> simp [initHalt]

theorem init_toI (roots : List DirT) (n : Nat) : (initHalt roots n).toI = initAll roots n := by simp [initHalt, initAll, HAll.toI]

/-- An execution in which nothing stops the program is one without the stop signal. -/
theorem HSteps.toI {cfg : WalkCfg} {mode : IMode} {halts timely : Bool} {n : Nat} {s t : HAll} (h : HSteps cfg mode halts timely n s t) (hs : HaltInv s)
    (ht : t.calm = true) : ∃ k, ASteps cfg mode timely k s.toI t.toI := by
  have key : ∀ {m s t u work}, HSteps cfg mode halts timely m s t → HStep cfg mode halts timely work t u → HaltInv s → u.calm = true →
      (t.calm = true → ∃ k, ASteps cfg mode timely k s.toI t.toI) → ∃ k, ASteps cfg mode timely k s.toI u.toI := by
    intro m s t u work h0 h hs ht ih
    obtain ⟨k, ih⟩ := ih (h.calm ht)
    rcases h.toI ht (h0.inv (fun h => HaltInv.step h) hs).passed with h1 | ⟨w, h1⟩
    · exact ⟨k, h1 ▸ ih⟩
    · cases w with
      | true => exact ⟨_, .work ih h1⟩
      | false => exact ⟨_, .idle ih h1⟩
  induction h with
  | refl => exact ⟨0, .refl⟩
  | work h0 h ih => exact key h0 h hs ht (ih hs)
  | idle h0 h ih => exact key h0 h hs ht (ih hs)

/-! ### In any case: a worker that has stopped may also be seen as one that just does not go on -/

/-- A worker and the same one that just does not go on. -/
def FitsWorker (x : HWorker) (w : IWorker) : Prop := x.w.buf = w.buf ∧ (x.w.st = .stopped ∨ x.w.st = w.st)

inductive FitsAll : List HWorker → List IWorker → Prop
  | nil : FitsAll [] []
  | cons {x w xs ws} : FitsWorker x w → FitsAll xs ws → FitsAll (x :: xs) (w :: ws)

/-- The commands that are running. -/
def runningI (ws : List IWorker) : List EntInfo := ws.flatMap (fun w => w.st.calls)

theorem runningI_replace (p : EntInfo → Bool) (l : List IWorker) (w : IWorker) (r : List IWorker) :
    (runningI (l ++ w :: r)).countP p = (runningI (l ++ r)).countP p + w.st.calls.countP p := by
  simp only [runningI, List.flatMap_append, List.flatMap_cons, List.countP_append]; omega

theorem IStep.calls {cfg : WalkCfg} {mode : IMode} {timely alone work : Bool} {q w r new q' w' r'}
    (h : IStep cfg mode timely alone work (q, w, r) new (q', w', r')) (p : EntInfo → Bool) :
    (begins w.st w'.st).countP p + w.st.calls.countP p ≤ new.countP p + w'.st.calls.countP p := by
  generalize hx : (q, w, r) = x at h
  generalize hy : (q', w', r') = y at h
  cases h <;> simp only [Prod.mk.injEq] at hx hy <;> obtain ⟨rfl, rfl, rfl⟩ := hx <;> obtain ⟨rfl, rfl, rfl⟩ := hy
  case flush s _ => cases s <;> simp [begins, IState.calls]
  all_goals simp [begins, IState.calls]

theorem FitsAll.split {l : List HWorker} {x : HWorker} {r : List HWorker} : ∀ {ws}, FitsAll (l ++ x :: r) ws →
    ∃ l' w r', ws = l' ++ w :: r' ∧ FitsAll l l' ∧ FitsWorker x w ∧ FitsAll r r' := by
  induction l with
  | nil =>
    intro ws h
    cases h with
    | cons h1 h2 => exact ⟨[], _, _, rfl, .nil, h1, h2⟩
  | cons y l ih =>
    intro ws h
    cases h with
    | cons h1 h2 =>
      obtain ⟨l', w, r', rfl, h3, h4, h5⟩ := ih h2
      exact ⟨_ :: l', w, r', rfl, .cons h1 h3, h4, h5⟩

theorem FitsAll.join {l : List HWorker} {l' : List IWorker} (h : FitsAll l l') {x w r r'} (hx : FitsWorker x w) (hr : FitsAll r r') :
    FitsAll (l ++ x :: r) (l' ++ w :: r') := by
  induction h with
  | nil => exact .cons hx hr
  | cons h1 _ ih => exact .cons h1 ih

/-- States that correspond to each other. -/
def FitsState (s : HAll) (a : IAll) : Prop :=
  a.queue = s.queue ∧ a.done = s.done ∧ a.hasResult = s.hasResult ∧ a.finished = s.passed ∧ FitsAll s.workers a.workers ∧
  ∀ p, s.begun.countP p ≤ a.done.countP p + (runningI a.workers).countP p

theorem FitsState.replaced {s t : HAll} {a : IAll} (h : FitsState s a) {l r : List HWorker} {x y : HWorker} (h1 : s.workers = l ++ x :: r)
    (h2 : t.workers = l ++ y :: r) (hq : t.queue = s.queue) (hd : t.done = s.done) (hr : t.hasResult = s.hasResult) (hp : t.passed = s.passed)
    (hb : t.begun = s.begun) (hxy : ∀ w, FitsWorker x w → FitsWorker y w) : FitsState t a := by
  obtain ⟨a1, a2, a3, a4, a5, a6⟩ := h
  rw [h1] at a5
  obtain ⟨l', w, r', e, f1, f2, f3⟩ := a5.split
  refine ⟨a1.trans hq.symm, a2.trans hd.symm, a3.trans hr.symm, a4.trans hp.symm, ?_, hb ▸ a6⟩
  rw [h2, e]
  exact f1.join (hxy w f2) f3

theorem HStep.fits {cfg : WalkCfg} {mode : IMode} {halts timely work : Bool} {s t : HAll} (h : HStep cfg mode halts timely work s t) (hs : HaltInv s) {a : IAll}
    (ha : FitsState s a) : FitsState t a ∨ ∃ work' a', AStep cfg mode false work' a a' ∧ FitsState t a' := by
  cases h with
  | check hw _ => exact Or.inl (ha.replaced hw rfl rfl rfl rfl rfl rfl (fun _ h => h))
  | leave hw _ => exact Or.inl (ha.replaced hw rfl rfl rfl rfl rfl rfl (fun _ h => ⟨h.1, Or.inl rfl⟩))
  | quit hw _ => exact Or.inl (ha.replaced hw rfl rfl rfl rfl rfl rfl (fun _ h => ⟨h.1, Or.inl rfl⟩))
  | crash hw _ => exact Or.inl (ha.replaced hw rfl rfl rfl rfl rfl rfl (fun _ h => ⟨h.1, Or.inl rfl⟩))
  | die hw _ => exact Or.inl (ha.replaced hw rfl rfl rfl rfl rfl rfl (fun _ h => ⟨h.1, Or.inl rfl⟩))
  | notice _ _ => exact Or.inl ha
  | mainStop _ _ => exact Or.inl ha
  | @act work s l x r q' w' res' new hw hps _ _ _ hstep =>
    right
    obtain ⟨q, ws, fin, d, res⟩ := a
    obtain ⟨a1, a2, a3, a4, a5, a6⟩ := ha
    simp only at a1 a2 a3 a4 a5 a6
    rw [hw] at a5
    obtain ⟨l', w, r', rfl, f1, f2, f3⟩ := a5.split
    rw [hps] at a4
    subst a1 a2 a3 a4
    by_cases hx : x.w.st = .stopped
    · obtain ⟨c, b, e1, rfl, rfl, rfl, rfl, rfl⟩ := hstep.stopped hx
      obtain ⟨st, wb⟩ := w
      have e2 : wb = c :: b := f2.1.symm.trans e1
      subst e2
      refine ⟨true, _, .worker .flush, rfl, rfl, rfl, hps.symm, f1.join ⟨rfl, Or.inl rfl⟩ f3, fun p => ?_⟩
      have := a6 p
      rw [runningI_replace] at this ⊢
      simp only [hx, begins, List.append_nil]
      exact this
    · have e : x.w = w := by
        obtain ⟨⟨xs, xb⟩, c⟩ := x
        obtain ⟨st, wb⟩ := w
        obtain ⟨rfl, h | h⟩ := f2
        · exact absurd h hx
        · simp only at h; rw [h]
      subst e
      refine ⟨work, _, .worker hstep.loose, rfl, rfl, rfl, hps.symm, f1.join ⟨rfl, Or.inr rfl⟩ f3, fun p => ?_⟩
      have h1 := a6 p
      have h2 := hstep.calls p
      rw [runningI_replace] at h1 ⊢
      simp only [List.countP_append]
      omega
  | @ran s l e b c r ok hw =>
    right
    have hps : s.passed = false := by
      cases h : s.passed with
      | false => rfl
      | true => have := hs.passed h ⟨⟨.running e, b⟩, c⟩ (by simp [hw]); cases this
    obtain ⟨q, ws, fin, d, res⟩ := a
    obtain ⟨a1, a2, a3, a4, a5, a6⟩ := ha
    simp only at a1 a2 a3 a4 a5 a6
    rw [hw] at a5
    obtain ⟨l', w, r', rfl, f1, f2, f3⟩ := a5.split
    rw [hps] at a4
    subst a1 a2 a3 a4
    obtain ⟨st, wb⟩ := w
    obtain ⟨rfl, h | h⟩ := f2
    · cases h
    · simp only at h
      subst h
      refine ⟨true, _, .worker .run, ?_⟩
      have hc : ∀ p, s.begun.countP p ≤ (s.done ++ [e]).countP p + (runningI (l' ++ ⟨.idle, b⟩ :: r')).countP p := by
        intro p
        have h1 := a6 p
        rw [runningI_replace] at h1 ⊢
        simp only [IState.calls, List.countP_append, List.countP_nil] at h1 ⊢
        omega
      cases ok <;> exact ⟨rfl, rfl, rfl, hps.symm, f1.join ⟨rfl, Or.inr rfl⟩ f3, hc⟩
  | @barrier s hps _ hall =>
    right
    obtain ⟨q, ws, fin, d, res⟩ := a
    obtain ⟨a1, a2, a3, a4, a5, a6⟩ := ha
    simp only at a1 a2 a3 a4 a5 a6
    rw [hps] at a4
    subst a1 a2 a3 a4
    have hall' : ∀ {xs : List HWorker} {ws : List IWorker}, FitsAll xs ws → (∀ x ∈ xs, x.w.st.isWaiting = true) →
        (∀ w ∈ ws, w.st.isWaiting = true) ∧ FitsAll (xs.map (fun x => ⟨⟨.stopped, x.w.buf⟩, false⟩)) (ws.map (fun w => { w with st := .stopped })) := by
      intro xs ws h
      induction h with
      | nil => intro _; exact ⟨by simp, .nil⟩
      | @cons x w xs ws h1 h2 ih =>
        intro h
        obtain ⟨i1, i2⟩ := ih (fun x hx => h x (by simp [hx]))
        have hx := h x (by simp)
        have hw : w.st.isWaiting = true := by
          rcases h1.2 with h | h
          · rw [h] at hx; cases hx
          · rw [← h]; exact hx
        refine ⟨?_, .cons ⟨h1.1, Or.inl rfl⟩ i2⟩
        intro v hv
        rcases List.mem_cons.1 hv with rfl | hv
        · exact hw
        · exact i1 v hv
    obtain ⟨h1, h2⟩ := hall' a5 hall
    refine ⟨true, _, .barrier h1, rfl, rfl, rfl, rfl, h2, fun p => ?_⟩
    have h3 : ∀ ws : List IWorker, (∀ w ∈ ws, w.st.isWaiting = true) → runningI ws = [] := by
      intro ws h
      simp only [runningI, List.flatMap_eq_nil_iff]
      intro w hw
      have := h w hw
      generalize w.st = st at this
      cases st <;> simp [IState.isWaiting] at this
      rfl
    have h4 := a6 p
    rw [h3 _ h1] at h4
    simp only [List.countP_nil] at h4
    simp only
    omega

theorem HSteps.fits {cfg : WalkCfg} {mode : IMode} {halts timely : Bool} {n : Nat} {s t : HAll} (h : HSteps cfg mode halts timely n s t) (hs : HaltInv s) {a : IAll}
    (ha : FitsState s a) : ∃ k b, ASteps cfg mode false k a b ∧ FitsState t b := by
  have key : ∀ {m s t u work}, HSteps cfg mode halts timely m s t → HStep cfg mode halts timely work t u → HaltInv s →
      (∃ k b, ASteps cfg mode false k a b ∧ FitsState t b) → ∃ k b, ASteps cfg mode false k a b ∧ FitsState u b := by
    intro m s t u work h0 h hs ih
    obtain ⟨k, b, ih, hb⟩ := ih
    rcases h.fits (h0.inv (fun h => HaltInv.step h) hs) hb with h1 | ⟨w, b', h1, h2⟩
    · exact ⟨k, b, ih, h1⟩
    · cases w with
      | true => exact ⟨_, _, .work ih h1, h2⟩
      | false => exact ⟨_, _, .idle ih h1, h2⟩
  induction h with
  | refl => exact ⟨0, a, .refl, ha⟩
  | work h0 h ih => exact key h0 h hs (ih hs ha)
  | idle h0 h ih => exact key h0 h hs (ih hs ha)

theorem init_fits (roots : List DirT) (n : Nat) : FitsState (initHalt roots n) (initAll roots n) := by
  refine ⟨rfl, rfl, rfl, rfl, ?_, fun p => by simp [initHalt]⟩
  simp only [initHalt, initAll]
  induction n with
  | zero => exact .nil
  | succ n ih => exact .cons ⟨rfl, Or.inr rfl⟩ ih

end FF
