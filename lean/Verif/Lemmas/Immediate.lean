import Verif.Model.Immediate
import Verif.Lemmas.Walk
namespace FF
open Spec

/-! ### Conservation -/

def resIChunk (cfg : WalkCfg) : IChunk → List EntInfo
  | .dirs ds => ds.flatMap (resDir cfg)
  | .ents es => es.flatMap (resEnt cfg)
  | .call e => [e]

def resIState (cfg : WalkCfg) : IState → List EntInfo
  | .busy todo entries search process batch =>
    todo.flatMap (resDir cfg) ++ entries.flatMap (resEnt cfg) ++ search.flatMap (resDir cfg) ++ process ++ batch
  | .running e => [e]
  | _ => []

/-- What a worker still has to do. -/
def resIWorker (cfg : WalkCfg) (w : IWorker) : List EntInfo := resIState cfg w.st ++ w.buf.flatMap (resIChunk cfg)

/-- What is not done yet. -/
def pendingI (cfg : WalkCfg) (s : IAll) : List EntInfo := s.queue.flatMap (resIChunk cfg) ++ s.workers.flatMap (resIWorker cfg)

theorem flatMap_idirs (cfg : WalkCfg) (l : List (List DirT)) : (l.map IChunk.dirs).flatMap (resIChunk cfg) = l.flatten.flatMap (resDir cfg) := by
  induction l with
  | nil => rfl
  | cons a l ih => simp [resIChunk, ih]

/-- Entries that are printed or whose command is run if they are selected. -/
def IMode.delivers (mode : IMode) (e : EntInfo) : Bool := !mode.exec || mode.renders e

theorem IStep.conserve {cfg : WalkCfg} {mode : IMode} {timely alone work : Bool} {q w r new q' w' r'}
    (h : IStep cfg mode timely alone work (q, w, r) new (q', w', r')) (p : EntInfo → Bool) (hp : ∀ e, p e = true → mode.delivers e = true) :
    List.countP p new + List.countP p (q'.flatMap (resIChunk cfg)) + List.countP p (resIWorker cfg w') =
    List.countP p (q.flatMap (resIChunk cfg)) + List.countP p (resIWorker cfg w) := by
  generalize hx : (q, w, r) = x at h
  generalize hy : (q', w', r') = y at h
  cases h <;> simp only [Prod.mk.injEq] at hx hy <;> obtain ⟨rfl, rfl, rfl⟩ := hx <;> obtain ⟨rfl, rfl, rfl⟩ := hy
  case getDirs => simp [resIWorker, resIState, resIChunk, List.countP_append]; omega
  case getEnts => simp [resIWorker, resIState, resIChunk, List.countP_append]; omega
  case getCall => simp [resIWorker, resIState, resIChunk, List.countP_append, List.countP_cons]; omega
  case empty => simp [resIWorker, resIState]
  case timeout => simp [resIWorker, resIState]
  case scan =>
    simp only [resIWorker, resIState, List.countP_append, scan_results, List.flatMap_cons, List.flatMap_nil, List.countP_nil]; omega
  case test e es todo search process b =>
    have := testEntry_count cfg e search process p
    simp only [resIWorker, resIState, List.countP_append, List.flatMap_cons, List.countP_nil]; omega
  case share es todo search process b h1 h2 =>
    have : List.countP p (es.flatMap (resEnt cfg)) = List.countP p ((splitAtHalf es).1.flatMap (resEnt cfg)) + List.countP p ((splitAtHalf es).2.flatMap (resEnt cfg)) := by
      conv => lhs; rw [← splitAtHalf_append es]
      rw [List.flatMap_append, List.countP_append]
    simp only [resIWorker, resIState, List.countP_append, List.flatMap_append, List.flatMap_cons, List.flatMap_nil, List.append_nil, List.countP_nil, resIChunk]; omega
  case put todo search process b h1 =>
    simp only [resIWorker, resIState, List.countP_append, List.flatMap_append, flatMap_idirs, chunksOf_flatten _ (chunkSize_pos _ _), List.flatMap_nil, List.countP_nil]; omega
  case hand todo process b h1 =>
    have : List.countP p process = List.countP p (process.take 100) + List.countP p (process.drop 100) := by
      rw [← List.countP_append, List.take_append_drop]
    simp only [resIWorker, resIState, List.countP_append, List.countP_nil]; omega
  case print => simp only [resIWorker, resIState, List.countP_append, List.countP_cons, List.countP_nil]; omega
  case call => simp only [resIWorker, resIState, List.countP_append, List.countP_cons, List.countP_nil, List.flatMap_append, List.flatMap_cons, List.flatMap_nil, resIChunk]; omega
  case skip todo process e batch b h1 h2 =>
    have : p e = false := by
      rw [← Bool.not_eq_true]
      intro hpe
      have := hp e hpe
      simp [IMode.delivers, h1, h2] at this
    simp [resIWorker, resIState, List.countP_append, List.countP_cons, this]
  case run => simp [resIWorker, resIState, List.countP_append, List.countP_cons]; omega
  case finish => simp [resIWorker, resIState]
  case flush =>
    simp only [resIWorker, List.countP_append, List.flatMap_append, List.flatMap_cons, List.flatMap_nil, List.countP_nil, List.append_nil]; omega

/-- Nothing comes from nowhere, and as long as no result is reported nothing is lost. -/
theorem IStep.loses {cfg : WalkCfg} {mode : IMode} {timely alone work : Bool} {q w r new q' w' r'}
    (h : IStep cfg mode timely alone work (q, w, r) new (q', w', r')) (p : EntInfo → Bool) :
    List.countP p new + List.countP p (q'.flatMap (resIChunk cfg)) + List.countP p (resIWorker cfg w') ≤
    List.countP p (q.flatMap (resIChunk cfg)) + List.countP p (resIWorker cfg w) := by
  by_cases hs : mode.exec = true
  · generalize hx : (q, w, r) = x at h
    generalize hy : (q', w', r') = y at h
    cases h
    case skip todo process e batch b h1 h2 =>
      simp only [Prod.mk.injEq] at hx hy
      obtain ⟨rfl, rfl, rfl⟩ := hx
      obtain ⟨rfl, rfl, rfl⟩ := hy
      simp only [resIWorker, resIState, List.countP_append, List.countP_cons, List.countP_nil]; omega
    all_goals
      simp only [Prod.mk.injEq] at hx hy
      obtain ⟨rfl, rfl, rfl⟩ := hx
      obtain ⟨rfl, rfl, rfl⟩ := hy
    case getDirs => simp [resIWorker, resIState, resIChunk, List.countP_append]; omega
    case getEnts => simp [resIWorker, resIState, resIChunk, List.countP_append]; omega
    case getCall => simp [resIWorker, resIState, resIChunk, List.countP_append, List.countP_cons]; omega
    case empty => simp [resIWorker, resIState]
    case timeout => simp [resIWorker, resIState]
    case scan =>
      simp only [resIWorker, resIState, List.countP_append, scan_results, List.flatMap_cons, List.flatMap_nil, List.countP_nil]; omega
    case test e es todo search process b =>
      have := testEntry_count cfg e search process p
      simp only [resIWorker, resIState, List.countP_append, List.flatMap_cons, List.countP_nil]; omega
    case share es todo search process b h1 h2 =>
      have : List.countP p (es.flatMap (resEnt cfg)) = List.countP p ((splitAtHalf es).1.flatMap (resEnt cfg)) + List.countP p ((splitAtHalf es).2.flatMap (resEnt cfg)) := by
        conv => lhs; rw [← splitAtHalf_append es]
        rw [List.flatMap_append, List.countP_append]
      simp only [resIWorker, resIState, List.countP_append, List.flatMap_append, List.flatMap_cons, List.flatMap_nil, List.append_nil, List.countP_nil, resIChunk]; omega
    case put todo search process b h1 =>
      simp only [resIWorker, resIState, List.countP_append, List.flatMap_append, flatMap_idirs, chunksOf_flatten _ (chunkSize_pos _ _), List.flatMap_nil, List.countP_nil]; omega
    case hand todo process b h1 =>
      have : List.countP p process = List.countP p (process.take 100) + List.countP p (process.drop 100) := by
        rw [← List.countP_append, List.take_append_drop]
      simp only [resIWorker, resIState, List.countP_append, List.countP_nil]; omega
    case print => simp only [resIWorker, resIState, List.countP_append, List.countP_cons, List.countP_nil]; omega
    case call => simp only [resIWorker, resIState, List.countP_append, List.countP_cons, List.countP_nil, List.flatMap_append, List.flatMap_cons, List.flatMap_nil, resIChunk]; omega
    case run => simp [resIWorker, resIState, List.countP_append, List.countP_cons]; omega
    case finish => simp [resIWorker, resIState]
    case flush =>
      simp only [resIWorker, List.countP_append, List.flatMap_append, List.flatMap_cons, List.flatMap_nil, List.countP_nil, List.append_nil]; omega
  · exact Nat.le_of_eq (h.conserve p (fun e _ => by simp [IMode.delivers, hs]))

theorem stop_pending (cfg : WalkCfg) {ws : List IWorker} (h : ∀ w ∈ ws, w.st.isWaiting = true) :
    (ws.map (fun w : IWorker => { w with st := .stopped })).flatMap (resIWorker cfg) = ws.flatMap (resIWorker cfg) := by
  induction ws with
  | nil => rfl
  | cons w ws ih =>
    have hw := h w (by simp)
    obtain ⟨st, b⟩ := w
    cases st <;> simp [IState.isWaiting] at hw
    simp only [List.map_cons, List.flatMap_cons, ih (fun x hx => h x (by simp [hx]))]
    rfl

theorem AStep.conserve {cfg : WalkCfg} {mode : IMode} {timely work : Bool} {s t : IAll} (h : AStep cfg mode timely work s t)
    (p : EntInfo → Bool) (hp : ∀ e, p e = true → mode.delivers e = true) :
    List.countP p t.done + List.countP p (pendingI cfg t) = List.countP p s.done + List.countP p (pendingI cfg s) := by
  cases h with
  | worker hw =>
    have := hw.conserve p hp
    simp only [pendingI, List.flatMap_append, List.flatMap_cons, List.countP_append]; omega
  | barrier hws => simp only [pendingI, stop_pending cfg hws]

theorem AStep.loses {cfg : WalkCfg} {mode : IMode} {timely work : Bool} {s t : IAll} (h : AStep cfg mode timely work s t) (p : EntInfo → Bool) :
    List.countP p t.done + List.countP p (pendingI cfg t) ≤ List.countP p s.done + List.countP p (pendingI cfg s) := by
  cases h with
  | worker hw =>
    have := hw.loses p
    simp only [pendingI, List.flatMap_append, List.flatMap_cons, List.countP_append]; omega
  | barrier hws => simp only [pendingI, stop_pending cfg hws]; omega

/-- An invariant of all executions. -/
theorem ASteps.inv {cfg : WalkCfg} {mode : IMode} {timely : Bool} {P : IAll → Prop} (hstep : ∀ {work s t}, AStep cfg mode timely work s t → P s → P t)
    {n : Nat} {s t : IAll} (h : ASteps cfg mode timely n s t) (h0 : P s) : P t := by
  induction h with
  | refl => exact h0
  | work _ h ih => exact hstep h (ih h0)
  | idle _ h ih => exact hstep h (ih h0)

theorem ASteps.conserve {cfg : WalkCfg} {mode : IMode} {timely : Bool} {n : Nat} {s t : IAll} (h : ASteps cfg mode timely n s t)
    (p : EntInfo → Bool) (hp : ∀ e, p e = true → mode.delivers e = true) :
    List.countP p t.done + List.countP p (pendingI cfg t) = List.countP p s.done + List.countP p (pendingI cfg s) :=
  h.inv (P := fun t => List.countP p t.done + List.countP p (pendingI cfg t) = List.countP p s.done + List.countP p (pendingI cfg s))
    (fun hs ih => by rw [hs.conserve p hp, ih]) rfl

theorem ASteps.loses {cfg : WalkCfg} {mode : IMode} {timely : Bool} {n : Nat} {s t : IAll} (h : ASteps cfg mode timely n s t) (p : EntInfo → Bool) :
    List.countP p t.done + List.countP p (pendingI cfg t) ≤ List.countP p s.done + List.countP p (pendingI cfg s) :=
  h.inv (P := fun t => List.countP p t.done + List.countP p (pendingI cfg t) ≤ List.countP p s.done + List.countP p (pendingI cfg s))
    (fun hs ih => Nat.le_trans (hs.loses p) ih) (Nat.le_refl _)

/-! ### Commands are only queued for entries that render -/

/-- The entries of calls in a chunk. -/
def IChunk.calls : IChunk → List EntInfo
  | .call e => [e]
  | _ => []

def IState.calls : IState → List EntInfo
  | .running e => [e]
  | _ => []

/-- Everything done and all calls are for entries that deliver. -/
structure Deliverable (mode : IMode) (s : IAll) : Prop where
  done : ∀ e ∈ s.done, mode.delivers e = true
  queue : ∀ c ∈ s.queue, ∀ e ∈ c.calls, mode.delivers e = true
  workers : ∀ w ∈ s.workers, (∀ e ∈ w.st.calls, mode.delivers e = true) ∧ ∀ c ∈ w.buf, ∀ e ∈ c.calls, mode.delivers e = true

theorem dirs_calls (l : List (List DirT)) : ∀ c ∈ l.map IChunk.dirs, ∀ e ∈ c.calls, False := by
  intro c hc e he
  obtain ⟨d, _, rfl⟩ := List.mem_map.1 hc
  cases he

theorem IStep.renders {cfg : WalkCfg} {mode : IMode} {timely alone work : Bool} {q w r new q' w' r'}
    (h : IStep cfg mode timely alone work (q, w, r) new (q', w', r'))
    (hq : ∀ c ∈ q, ∀ e ∈ c.calls, mode.delivers e = true) (hw : (∀ e ∈ w.st.calls, mode.delivers e = true) ∧ ∀ c ∈ w.buf, ∀ e ∈ c.calls, mode.delivers e = true) :
    (∀ e ∈ new, mode.delivers e = true) ∧ (∀ c ∈ q', ∀ e ∈ c.calls, mode.delivers e = true) ∧
    (∀ e ∈ w'.st.calls, mode.delivers e = true) ∧ ∀ c ∈ w'.buf, ∀ e ∈ c.calls, mode.delivers e = true := by
  have nil : ∀ e ∈ ([] : List EntInfo), mode.delivers e = true := fun e he => by cases he
  have app : ∀ {b cs : List IChunk}, (∀ c ∈ b, ∀ e ∈ c.calls, mode.delivers e = true) → (∀ c ∈ cs, ∀ e ∈ c.calls, mode.delivers e = true) →
      ∀ c ∈ b ++ cs, ∀ e ∈ c.calls, mode.delivers e = true := by
    intro b cs h1 h2 c hc
    rcases List.mem_append.1 hc with hc | hc
    · exact h1 c hc
    · exact h2 c hc
  have tl : ∀ {c : IChunk} {b : List IChunk}, (∀ x ∈ c :: b, ∀ e ∈ x.calls, mode.delivers e = true) → ∀ x ∈ b, ∀ e ∈ x.calls, mode.delivers e = true :=
    fun h x hx => h x (List.mem_cons_of_mem _ hx)
  generalize hx : (q, w, r) = x at h
  generalize hy : (q', w', r') = y at h
  cases h <;> simp only [Prod.mk.injEq] at hx hy <;> obtain ⟨rfl, rfl, rfl⟩ := hx <;> obtain ⟨rfl, rfl, rfl⟩ := hy
  case getDirs => exact ⟨nil, tl hq, nil, hw.2⟩
  case getEnts => exact ⟨nil, tl hq, nil, hw.2⟩
  case getCall e b => exact ⟨nil, tl hq, hq (.call e) (by simp), hw.2⟩
  case empty => exact ⟨nil, hq, nil, hw.2⟩
  case timeout => exact ⟨nil, hq, nil, hw.2⟩
  case scan => exact ⟨nil, hq, nil, hw.2⟩
  case test => exact ⟨nil, hq, nil, hw.2⟩
  case share => exact ⟨nil, hq, nil, app hw.2 (by intro c hc e he; simp only [List.mem_singleton] at hc; subst hc; cases he)⟩
  case put => exact ⟨nil, hq, nil, app hw.2 (fun c hc e he => (dirs_calls _ c hc e he).elim)⟩
  case hand => exact ⟨nil, hq, nil, hw.2⟩
  case print h => exact ⟨by intro e _; simp [IMode.delivers, h], hq, nil, hw.2⟩
  case call e _ _ h1 h2 => exact ⟨nil, hq, nil, app hw.2 (by
      intro c hc x hx
      simp only [List.mem_singleton] at hc
      subst hc
      simp only [IChunk.calls, List.mem_singleton] at hx
      subst hx
      simp [IMode.delivers, h2])⟩
  case skip => exact ⟨nil, hq, nil, hw.2⟩
  case run e b => exact ⟨hw.1, hq, nil, hw.2⟩
  case finish => exact ⟨nil, hq, nil, hw.2⟩
  case flush c s b => exact ⟨nil, app hq (by intro x hx; simp only [List.mem_singleton] at hx; subst hx; exact hw.2 x (by simp)), hw.1, tl hw.2⟩

theorem Deliverable.step {cfg : WalkCfg} {mode : IMode} {timely work : Bool} {s t : IAll} (h : AStep cfg mode timely work s t) (hs : Deliverable mode s) : Deliverable mode t := by
  cases h with
  | @worker _ q l w r d res q' w' res' new hw =>
    obtain ⟨h1, h2, h3⟩ := hw.renders hs.queue (hs.workers w (by simp))
    refine ⟨?_, h2, ?_⟩
    · intro e he
      rcases List.mem_append.1 he with he | he
      · exact hs.done e he
      · exact h1 e he
    · intro x hx
      simp only [List.mem_append, List.mem_cons] at hx
      rcases hx with hx | rfl | hx
      · exact hs.workers x (by simp [hx])
      · exact h3
      · exact hs.workers x (by simp [hx])
  | barrier _ =>
    refine ⟨hs.done, hs.queue, ?_⟩
    intro x hx
    obtain ⟨w, hw, rfl⟩ := List.mem_map.1 hx
    exact ⟨fun e he => (by cases he), (hs.workers w hw).2⟩

/-! ### The end of the search -/

/-- What timely queues ensure. -/
structure ICalm (s : IAll) : Prop where
  buf : ∀ w ∈ s.workers, w.st.isWaiting = true → w.buf = []
  queue : (∀ w ∈ s.workers, w.st.isWaiting = true) → s.finished = false → s.queue = []
  fin : s.finished = true → s.queue = [] ∧ ∀ w ∈ s.workers, w.st = .stopped ∧ w.buf = []

theorem ICalm.step {cfg : WalkCfg} {mode : IMode} {work : Bool} {s t : IAll} (h : AStep cfg mode true work s t) (hs : ICalm s) : ICalm t := by
  cases h with
  | @worker _ q l w r d res q' w' res' new hw =>
    have hbuf : w'.st.isWaiting = true → w'.buf = [] ∧ ((∀ x ∈ l ++ r, x.st.isWaiting = true) → q' = []) := by
      intro hw'
      have hwb := hs.buf w (by simp)
      generalize hx : (q, w, res) = x at hw
      generalize hy : (q', w', res') = y at hw
      cases hw <;> simp only [Prod.mk.injEq] at hx hy <;> obtain ⟨rfl, rfl, rfl⟩ := hx <;> obtain ⟨rfl, rfl, rfl⟩ := hy
      case empty hcond =>
        obtain ⟨hb, hq⟩ := hcond rfl
        exact ⟨hb, fun hall => hq (List.all_eq_true.2 hall)⟩
      case flush => have := hwb hw'; cases this
      all_goals (simp [IState.isWaiting] at hw'; done)
    refine ⟨?_, ?_, fun h => by cases h⟩
    · intro x hx hxw
      simp only [List.mem_append, List.mem_cons] at hx
      rcases hx with hx | rfl | hx
      · exact hs.buf x (by simp [hx]) hxw
      · exact (hbuf hxw).1
      · exact hs.buf x (by simp [hx]) hxw
    · intro hall _
      exact (hbuf (hall w' (by simp))).2 (fun x hx => hall x (by
        simp only [List.mem_append, List.mem_cons] at hx ⊢
        rcases hx with hx | hx
        · exact Or.inl hx
        · exact Or.inr (Or.inr hx)))
  | @barrier q ws d res hws =>
    have hq : q = [] := hs.queue hws rfl
    have hst : ∀ w ∈ ws.map (fun w : IWorker => { w with st := .stopped }), w.st = .stopped ∧ w.buf = [] := by
      intro w hw
      obtain ⟨v, hv, rfl⟩ := List.mem_map.1 hw
      exact ⟨rfl, hs.buf v hv (hws v hv)⟩
    exact ⟨fun w hw h => (hst w hw).2, fun _ h => (by cases h), fun _ => ⟨hq, hst⟩⟩

theorem ICalm.init (roots : List DirT) {n : Nat} (hn : 0 < n) : ICalm (initAll roots n) := by
  refine ⟨?_, ?_, fun h => by cases h⟩
  · intro w hw h
    simp only [initAll, List.mem_replicate] at hw
    rw [hw.2]
  · intro h
    have := h ⟨.idle, []⟩ (by simp [initAll]; omega)
    cases this

theorem initAll_pending (cfg : WalkCfg) (roots : List DirT) (n : Nat) : pendingI cfg (initAll roots n) = roots.flatMap (resDir cfg) := by
  have h1 : ∀ k, (List.replicate k (⟨.idle, []⟩ : IWorker)).flatMap (resIWorker cfg) = [] := by
    intro k
    induction k with
    | zero => rfl
    | succ k ih => simp [List.replicate_succ, ih, resIWorker, resIState]
  simp only [pendingI, initAll, h1, List.append_nil]
  induction roots with
  | nil => rfl
  | cons d ds ih => simp [resIChunk, ih]

theorem ICalm.pending {s : IAll} (h : ICalm s) (hf : s.finished = true) (cfg : WalkCfg) : pendingI cfg s = [] := by
  obtain ⟨hq, hw⟩ := h.fin hf
  unfold pendingI
  rw [hq]
  simp only [List.flatMap_nil, List.nil_append, List.flatMap_eq_nil_iff]
  intro w hw'
  obtain ⟨h1, h2⟩ := hw w hw'
  simp [resIWorker, h1, h2, resIState]

/-! ### Whether there are results -/

def IState.batch : IState → List EntInfo
  | .busy _ _ _ _ b => b
  | _ => []

def IWorker.calls (w : IWorker) : List EntInfo := w.st.calls ++ w.st.batch ++ w.buf.flatMap IChunk.calls

/-- As long as no result is reported, nothing is done or about to be done, and nothing is lost. -/
def Unreported (cfg : WalkCfg) (all : List EntInfo) (s : IAll) : Prop :=
  s.hasResult = false → s.done = [] ∧ s.queue.flatMap IChunk.calls = [] ∧ (∀ w ∈ s.workers, w.calls = []) ∧
    ∀ p, List.countP p (pendingI cfg s) = List.countP p all

theorem dirs_flatMap_calls (l : List (List DirT)) : (l.map IChunk.dirs).flatMap IChunk.calls = [] := by
  simp [List.flatMap_eq_nil_iff, IChunk.calls]

theorem IStep.unreported {cfg : WalkCfg} {mode : IMode} {timely alone work : Bool} {q w r new q' w' r'}
    (h : IStep cfg mode timely alone work (q, w, r) new (q', w', r')) (hr : r' = false) :
    r = false ∧ (q.flatMap IChunk.calls = [] → w.calls = [] → new = [] ∧ q'.flatMap IChunk.calls = [] ∧ w'.calls = [] ∧
    ∀ p, List.countP p new + List.countP p (q'.flatMap (resIChunk cfg)) + List.countP p (resIWorker cfg w') =
    List.countP p (q.flatMap (resIChunk cfg)) + List.countP p (resIWorker cfg w)) := by
  have key : r = false ∧ (q.flatMap IChunk.calls = [] → w.calls = [] → new = [] ∧ q'.flatMap IChunk.calls = [] ∧ w'.calls = [] ∧
      IStep cfg ⟨false, mode.renders⟩ timely alone work (q, w, r) new (q', w', r')) := by
    generalize hx : (q, w, r) = x at h ⊢
    generalize hy : (q', w', r') = y at h ⊢
    cases h <;> simp only [Prod.mk.injEq] at hx hy <;> obtain ⟨rfl, rfl, rfl⟩ := hx <;> obtain ⟨rfl, rfl, rfl⟩ := hy
    case getDirs => exact ⟨hr, fun hq hw => ⟨rfl, hq, hw, .getDirs⟩⟩
    case getEnts => exact ⟨hr, fun hq hw => ⟨rfl, hq, hw, .getEnts⟩⟩
    case getCall => exact ⟨hr, fun hq hw => by cases hq⟩
    case empty h => exact ⟨hr, fun hq hw => ⟨rfl, hq, hw, .empty h⟩⟩
    case timeout => exact ⟨hr, fun hq hw => ⟨rfl, hq, hw, .timeout⟩⟩
    case scan => exact ⟨hr, fun hq hw => ⟨rfl, hq, hw, .scan⟩⟩
    case test => exact ⟨hr, fun hq hw => ⟨rfl, hq, hw, .test⟩⟩
    case share h1 h2 => exact ⟨hr, fun hq hw => ⟨rfl, hq, by simpa [IWorker.calls, IState.calls, IState.batch, IChunk.calls] using hw, .share h1 h2⟩⟩
    case put h => exact ⟨hr, fun hq hw => ⟨rfl, hq, by
      simp only [IWorker.calls, IState.calls, IState.batch, List.nil_append] at hw ⊢
      rw [List.flatMap_append, hw, dirs_flatMap_calls]; rfl, .put h⟩⟩
    case hand => cases hr
    case print => exact ⟨hr, fun hq hw => by cases hw⟩
    case call => exact ⟨hr, fun hq hw => by cases hw⟩
    case skip => exact ⟨hr, fun hq hw => by cases hw⟩
    case run => exact ⟨hr, fun hq hw => by cases hw⟩
    case finish => exact ⟨hr, fun hq hw => ⟨rfl, hq, hw, .finish⟩⟩
    case flush c s b =>
      refine ⟨hr, fun hq hw => ?_⟩
      simp only [IWorker.calls, List.flatMap_cons, List.append_eq_nil_iff] at hw
      refine ⟨rfl, ?_, ?_, .flush⟩
      · rw [List.flatMap_append, hq]; simpa using hw.2.1
      · simp only [IWorker.calls, List.append_eq_nil_iff]; exact ⟨hw.1, hw.2.2⟩
  exact ⟨key.1, fun hq hw => ⟨(key.2 hq hw).1, (key.2 hq hw).2.1, (key.2 hq hw).2.2.1, fun p => (key.2 hq hw).2.2.2.conserve p (fun e _ => rfl)⟩⟩

theorem Unreported.step {cfg : WalkCfg} {mode : IMode} {timely work : Bool} {all : List EntInfo} {s t : IAll} (h : AStep cfg mode timely work s t)
    (hs : Unreported cfg all s) : Unreported cfg all t := by
  intro hr
  cases h with
  | @worker _ q l w r d res q' w' res' new hw =>
    obtain ⟨h1, h2⟩ := hw.unreported hr
    obtain ⟨hd, hq, h3, h4⟩ := hs h1
    obtain ⟨hnew, hq', h5, h6⟩ := h2 hq (h3 w (by simp))
    subst hnew
    refine ⟨by simpa using hd, hq', ?_, fun p => ?_⟩
    · intro x hx
      simp only [List.mem_append, List.mem_cons] at hx
      rcases hx with hx | rfl | hx
      · exact h3 x (by simp [hx])
      · exact h5
      · exact h3 x (by simp [hx])
    · have := h4 p
      have := h6 p
      simp only [pendingI, List.flatMap_append, List.flatMap_cons, List.countP_append, List.countP_nil] at *; omega
  | barrier hws =>
    obtain ⟨hd, hq, h3, h4⟩ := hs hr
    refine ⟨hd, hq, ?_, fun p => ?_⟩
    · intro x hx
      obtain ⟨w, hw, rfl⟩ := List.mem_map.1 hx
      have := h3 w hw
      simp only [IWorker.calls, List.append_eq_nil_iff] at this ⊢
      exact ⟨⟨rfl, rfl⟩, this.2⟩
    · have := h4 p
      simp only [pendingI, stop_pending cfg hws] at *
      exact this

theorem Unreported.init (cfg : WalkCfg) (roots : List DirT) (n : Nat) : Unreported cfg (roots.flatMap (resDir cfg)) (initAll roots n) := by
  intro _
  refine ⟨rfl, by simp [initAll, List.flatMap_eq_nil_iff, IChunk.calls], ?_, fun p => by rw [initAll_pending]⟩
  intro w hw
  simp only [initAll, List.mem_replicate] at hw
  rw [hw.2]
  rfl

/-- Results are only reported if there is one. -/
theorem AStep.reported {cfg : WalkCfg} {mode : IMode} {timely work : Bool} {s t : IAll} (h : AStep cfg mode timely work s t) (h0 : s.hasResult = false)
    (h1 : t.hasResult = true) : ∃ e, e ∈ pendingI cfg s := by
  cases h with
  | @worker _ q l w r d res q' w' res' new hw =>
    generalize hx : (q, w, res) = x at hw
    generalize hy : (q', w', res') = y at hw
    cases hw <;> simp only [Prod.mk.injEq] at hx hy <;> obtain ⟨rfl, rfl, rfl⟩ := hx <;> obtain ⟨rfl, rfl, rfl⟩ := hy
    case hand todo process b hne =>
      obtain ⟨e, es, rfl⟩ := List.exists_cons_of_ne_nil hne
      exact ⟨e, by simp [pendingI, resIWorker, resIState]⟩
    all_goals (simp only at h0 h1; rw [h0] at h1; cases h1)
  | barrier _ => simp only at h0 h1; rw [h0] at h1; cases h1

end FF
