import Verif.Lemmas.Halt
namespace FF
open Spec

/-! ### How many commands are started after the program has been told to stop -/

/-- Workers that will still ask for something to do. -/
def HWorker.asks (x : HWorker) : Bool := x.checked && x.w.st.isIdle

/-- The commands that have been started, and those that may still be although the program stops. -/
def mayStart (s : HAll) : Nat := s.begun.length + s.workers.countP HWorker.asks

theorem count_replace (p : HWorker → Bool) (l : List HWorker) (x : HWorker) (r : List HWorker) :
    (l ++ x :: r).countP p = (l ++ r).countP p + if p x then 1 else 0 := by
  simp only [List.countP_append, List.countP_cons]; omega

theorem begins_cases (a b : IState) : begins a b = [] ∨ a.isIdle = true ∧ b.isIdle = false ∧ (begins a b).length = 1 := by
  cases a <;> cases b <;> simp [begins, IState.isIdle]

theorem isIdle_iff (st : IState) : st.isIdle = true ↔ st = .idle := by cases st <;> simp [IState.isIdle]

/-- When the program stops no more commands are started than may still be. -/
theorem HStep.starts {cfg : WalkCfg} {mode : IMode} {halts timely work : Bool} {s t : HAll}
    (h : HStep cfg mode halts timely work s t) (hs : s.stopping = true) : mayStart t ≤ mayStart s ∧ t.stopping = true := by
  have key : ∀ (l : List HWorker) (x y : HWorker) (r : List HWorker), y.asks = false → s.workers = l ++ x :: r →
      (l ++ y :: r).countP HWorker.asks ≤ s.workers.countP HWorker.asks := by
    intro l x y r hy he
    rw [he, count_replace, count_replace, hy]
    simp
  cases h with
  | check _ h => rw [h] at hs; cases hs
  | leave hw _ => exact ⟨Nat.add_le_add_left (key _ _ _ _ rfl hw) _, hs⟩
  | quit hw _ => exact ⟨Nat.add_le_add_left (key _ _ _ _ rfl hw) _, hs⟩
  | @act _ _ l x r q' w' res' new hw _ h1 _ h3 hstep =>
    refine ⟨?_, hs⟩
    simp only [mayStart, hw, count_replace, List.length_append]
    rcases begins_cases x.w.st w'.st with hb | ⟨a1, a2, a3⟩
    · have : (if HWorker.asks ⟨w', x.checked && x.w.st.isIdle⟩ = true then 1 else 0) ≤ if HWorker.asks x = true then 1 else 0 := by
        split
        · rename_i h
          simp only [HWorker.asks, Bool.and_eq_true] at h
          rw [if_pos (by simp [HWorker.asks, h.1.1, h.1.2])]
          exact Nat.le_refl _
        · omega
      rw [hb]
      simp only [List.length_nil]
      omega
    · have hc := h1 ((isIdle_iff _).1 a1) (by intro h; rw [h] at a2; cases a2)
      simp only [a3, HWorker.asks, hc, a1, a2, Bool.and_true, Bool.and_false, if_true, Bool.false_eq_true, if_false]
      omega
  | ran ok hw =>
    refine ⟨?_, by cases ok <;> simp_all [HAll.ended, HAll.failed]⟩
    cases ok <;> exact Nat.add_le_add_left (key _ _ _ _ rfl hw) _
  | crash hw _ => exact ⟨Nat.add_le_add_left (key _ _ _ _ rfl hw) _, rfl⟩
  | die hw _ => exact ⟨Nat.add_le_add_left (key _ _ _ _ rfl hw) _, hs⟩
  | notice _ _ => exact ⟨Nat.le_refl _, rfl⟩
  | mainStop _ _ => exact ⟨Nat.le_refl _, hs⟩
  | barrier _ _ hall =>
    refine ⟨?_, hs⟩
    simp only [mayStart, List.countP_map]
    have h1 : ∀ l : List HWorker, List.countP (HWorker.asks ∘ fun x => (⟨⟨.stopped, x.w.buf⟩, false⟩ : HWorker)) l = 0 := by
      intro l; rw [List.countP_eq_zero]; intro x _; simp [HWorker.asks]
    rw [h1]
    omega

theorem HSteps.starts {cfg : WalkCfg} {mode : IMode} {halts timely : Bool} {n : Nat} {s t : HAll}
    (h : HSteps cfg mode halts timely n s t) (hs : s.stopping = true) : mayStart t ≤ mayStart s ∧ t.stopping = true := by
  induction h with
  | refl => exact ⟨Nat.le_refl _, hs⟩
  | work _ h ih => have h1 := h.starts (ih hs).2; exact ⟨Nat.le_trans h1.1 (ih hs).1, h1.2⟩
  | idle _ h ih => have h1 := h.starts (ih hs).2; exact ⟨Nat.le_trans h1.1 (ih hs).1, h1.2⟩

/-- The worker, or main, that stops the program does not ask anymore. -/
theorem HStep.first {cfg : WalkCfg} {mode : IMode} {halts timely work : Bool} {s t : HAll} (h : HStep cfg mode halts timely work s t) (hs : HaltInv s)
    (h0 : s.stopping = false) (h1 : t.stopping = true) : t.workers.countP HWorker.asks + 1 ≤ s.workers.length := by
  have key : ∀ (l : List HWorker) (x y : HWorker) (r : List HWorker), y.asks = false → s.workers = l ++ x :: r →
      (l ++ y :: r).countP HWorker.asks + 1 ≤ s.workers.length := by
    intro l x y r hy he
    have := List.countP_le_length (p := HWorker.asks) (l := l ++ r)
    rw [count_replace, hy, he]
    simp only [List.length_append, List.length_cons, Bool.false_eq_true, if_false] at *
    omega
  cases h with
  | check _ h => rw [h] at h1; cases h1
  | leave _ h => rw [h] at h0; cases h0
  | quit _ h => rw [h] at h0; cases h0
  | act _ _ _ _ _ _ => simp only at h1; rw [h0] at h1; cases h1
  | ran ok hw => exact key _ _ _ _ rfl hw
  | crash hw _ => exact key _ _ _ _ rfl hw
  | die _ _ => simp only at h1; rw [h0] at h1; cases h1
  | notice hd _ =>
    obtain ⟨x, hx, hxs⟩ := hs.died hd
    obtain ⟨l, r, he⟩ := List.append_of_mem hx
    have := key l x x r (by simp [HWorker.asks, hxs, IState.isIdle]) he
    rwa [← he] at this
  | mainStop h _ => rw [h] at h0; cases h0
  | barrier _ _ _ => simp only at h1; rw [h0] at h1; cases h1

/-! ### Commands that have ended have been started -/

structure HBegun (s : HAll) : Prop where
  done : ∀ e ∈ s.done, e ∈ s.begun
  running : ∀ x ∈ s.workers, ∀ e ∈ x.w.st.calls, e ∈ s.begun

theorem IStep.begun {cfg : WalkCfg} {mode : IMode} (hm : mode.exec = true) {timely alone work : Bool} {q w r new q' w' r'}
    (h : IStep cfg mode timely alone work (q, w, r) new (q', w', r')) :
    (∀ e ∈ new, e ∈ w.st.calls) ∧ ∀ e ∈ w'.st.calls, e ∈ w.st.calls ∨ e ∈ begins w.st w'.st := by
  generalize hx : (q, w, r) = x at h
  generalize hy : (q', w', r') = y at h
  cases h <;> simp only [Prod.mk.injEq] at hx hy <;> obtain ⟨rfl, rfl, rfl⟩ := hx <;> obtain ⟨rfl, rfl, rfl⟩ := hy
  case flush s _ => exact ⟨by simp, fun e he => Or.inl he⟩
  all_goals simp_all [begins, IState.calls]

theorem HBegun.replace {s t : HAll} (hs : HBegun s) {l r : List HWorker} {x y : HWorker} (h1 : s.workers = l ++ x :: r) (h2 : t.workers = l ++ y :: r)
    (hb : ∀ e ∈ s.begun, e ∈ t.begun) (hd : ∀ e ∈ t.done, e ∈ s.done ∨ e ∈ x.w.st.calls) (hy : ∀ e ∈ y.w.st.calls, e ∈ x.w.st.calls ∨ e ∈ t.begun) : HBegun t := by
  have hx : ∀ e ∈ x.w.st.calls, e ∈ t.begun := fun e he => hb e (hs.running x (by simp [h1]) e he)
  refine ⟨?_, ?_⟩
  · intro e he
    rcases hd e he with h | h
    · exact hb e (hs.done e h)
    · exact hx e h
  · intro z hz e he
    rw [h2] at hz
    rcases mem_replace (x := x) hz with rfl | hz
    · rcases hy e he with h | h
      · exact hx e h
      · exact h
    · exact hb e (hs.running z (h1 ▸ hz) e he)

theorem HBegun.step {cfg : WalkCfg} {mode : IMode} (hm : mode.exec = true) {halts timely work : Bool} {s t : HAll}
    (h : HStep cfg mode halts timely work s t) (hs : HBegun s) : HBegun t := by
  cases h with
  | check hw _ => exact hs.replace hw rfl (fun _ h => h) (fun _ h => Or.inl h) (fun _ h => Or.inl h)
  | leave hw _ => exact hs.replace hw rfl (fun _ h => h) (fun _ h => Or.inl h) (fun _ h => by cases h)
  | quit hw _ => exact hs.replace hw rfl (fun _ h => h) (fun _ h => Or.inl h) (fun _ h => by cases h)
  | act hw _ _ _ _ hstep =>
    obtain ⟨h1, h2⟩ := hstep.begun hm
    refine hs.replace hw rfl (fun _ h => List.mem_append_left _ h) (fun e h => ?_) (fun e h => ?_)
    · rcases List.mem_append.1 h with h | h
      · exact Or.inl h
      · exact Or.inr (h1 e h)
    · rcases h2 e h with h | h
      · exact Or.inl h
      · exact Or.inr (List.mem_append_right _ h)
  | @ran _ l e b c r ok hw =>
    have hd : ∀ e' ∈ s.done ++ [e], e' ∈ s.done ∨ e' ∈ [e] := fun e' h => List.mem_append.1 h
    cases ok
    · exact hs.replace hw rfl (fun _ h => h) hd (fun _ h => by cases h)
    · exact hs.replace hw rfl (fun _ h => h) hd (fun _ h => by cases h)
  | crash hw _ => exact hs.replace hw rfl (fun _ h => h) (fun _ h => Or.inl h) (fun _ h => by cases h)
  | die hw _ => exact hs.replace hw rfl (fun _ h => h) (fun _ h => Or.inl h) (fun _ h => by cases h)
  | notice _ _ => exact ⟨hs.done, hs.running⟩
  | mainStop _ _ => exact ⟨hs.done, hs.running⟩
  | barrier _ _ _ =>
    refine ⟨hs.done, ?_⟩
    intro x hx e he
    obtain ⟨y, _, rfl⟩ := List.mem_map.1 hx
    cases he

/-! ### The exit status -/

/-- What the exit status says. -/
structure HCode (s : HAll) : Prop where
  zero : s.exitcode = 0 ↔ s.failures = 0
  values : s.exitcode = 0 ∨ s.exitcode = 3 ∨ s.exitcode = 4
  stop : s.stopping = true → s.failures ≠ 0

theorem HCode.step {cfg : WalkCfg} {mode : IMode} {halts timely work : Bool} {s t : HAll} (h : HStep cfg mode halts timely work s t) (hs : HCode s) : HCode t := by
  cases h with
  | ran ok _ =>
    cases ok with
    | true => exact ⟨hs.zero, hs.values, hs.stop⟩
    | false => exact ⟨by simp [HAll.ended, HAll.failed], by simp [HAll.ended, HAll.failed], by simp [HAll.ended, HAll.failed]⟩
  | crash _ _ => exact ⟨by simp, by simp, by simp⟩
  | notice _ _ => exact ⟨by simp, by simp, by simp⟩
  | _ => exact ⟨hs.zero, hs.values, hs.stop⟩

/-! ### The end -/

def IState.isStopped : IState → Bool
  | .stopped => true
  | _ => false

theorem isStopped_iff (st : IState) : st.isStopped = true ↔ st = .stopped := by cases st <;> simp [IState.isStopped]

def aliveness (x : HWorker) : Nat := workerPot x.w + if x.w.st.isStopped then 0 else 1

def hPot (s : HAll) : Nat := (if s.left then 0 else 1) + (s.queue.map (fun c => 2 + chunkPot c)).sum + (s.workers.map aliveness).sum

theorem sum_replace (l : List HWorker) (x : HWorker) (r : List HWorker) :
    ((l ++ x :: r).map aliveness).sum = ((l ++ r).map aliveness).sum + aliveness x := by
  simp only [List.map_append, List.map_cons, List.sum_append, List.sum_cons]; omega

theorem stop_alive (x : HWorker) (c : Bool) : aliveness ⟨⟨.stopped, x.w.buf⟩, c⟩ ≤ aliveness x := by
  simp only [aliveness, workerPot, statePot, IState.isStopped, if_true]; omega

theorem stop_less (x : HWorker) (c : Bool) (h : x.w.st ≠ .stopped) : 1 + aliveness ⟨⟨.stopped, x.w.buf⟩, c⟩ ≤ aliveness x := by
  have : x.w.st.isStopped = false := by
    cases h' : x.w.st.isStopped with
    | false => rfl
    | true => exact absurd ((isStopped_iff _).1 h') h
  simp only [aliveness, workerPot, statePot, this, IState.isStopped, if_true, Bool.false_eq_true, if_false]; omega

theorem HStep.pot {cfg : WalkCfg} {mode : IMode} {halts timely work : Bool} {s t : HAll} (h : HStep cfg mode halts timely work s t) :
    (if work then 1 else 0) + hPot t ≤ hPot s := by
  cases h with
  | check hw _ => simp [hPot, hw, aliveness]
  | @leave _ l b r hw _ =>
    have := stop_less ⟨⟨.idle, b⟩, false⟩ false (by simp)
    simp only at this
    simp only [hPot, hw, sum_replace, if_true]; omega
  | @quit _ l b c r hw _ =>
    have := stop_less ⟨⟨.waiting, b⟩, c⟩ false (by simp)
    simp only at this
    simp only [hPot, hw, sum_replace, if_true]; omega
  | @act _ _ l x r q' w' res' new hw _ _ _ _ hstep =>
    have h1 := hstep.pot
    have h2 : w'.st.isStopped = x.w.st.isStopped := by
      rw [Bool.eq_iff_iff, isStopped_iff, isStopped_iff]; exact hstep.stops
    simp only [hPot, hw, sum_replace, aliveness, h2]; omega
  | @ran _ l e b c r ok hw =>
    have h1 : 1 + aliveness ⟨⟨.idle, b⟩, false⟩ = aliveness ⟨⟨.running e, b⟩, c⟩ := by
      simp only [aliveness, workerPot, statePot, IState.isStopped, Bool.false_eq_true, if_false]; omega
    cases ok <;> simp only [hPot, hw, sum_replace, HAll.ended, HAll.failed, if_true, Bool.false_eq_true, if_false] <;> omega
  | @crash _ l x r hw hx =>
    have := stop_less x false hx
    simp only [hPot, hw, sum_replace, if_true]; omega
  | @die _ l x r hw hx =>
    have := stop_less x false hx
    simp only [hPot, hw, sum_replace, if_true]; omega
  | notice _ h => simp only [hPot, h, if_true, Bool.false_eq_true, if_false]; omega
  | mainStop _ h => simp only [hPot, h, if_true, Bool.false_eq_true, if_false]; omega
  | @barrier _ _ h _ =>
    have : ∀ l : List HWorker, ((l.map (fun x : HWorker => (⟨⟨.stopped, x.w.buf⟩, false⟩ : HWorker))).map aliveness).sum ≤ (l.map aliveness).sum := by
      intro l
      induction l with
      | nil => simp
      | cons x l ih =>
        have := stop_alive x false
        simp only [List.map_cons, List.sum_cons]; omega
    have := this s.workers
    simp only [hPot, h, if_true, Bool.false_eq_true, if_false]; omega

theorem HSteps.pot {cfg : WalkCfg} {mode : IMode} {halts timely : Bool} {n : Nat} {s t : HAll} (h : HSteps cfg mode halts timely n s t) : n + hPot t ≤ hPot s := by
  induction h with
  | refl => omega
  | work _ h ih => have := h.pot; simp only [if_true] at this; omega
  | idle _ h ih => have := h.pot; simp only [Bool.false_eq_true, if_false] at this; omega

/-- Workers process results only after the entries. -/
def HSound (s : HAll) : Prop := ∀ x ∈ s.workers, x.w.st = .stopped ∨ x.w.st.Sound

theorem HSound.replace {s t : HAll} (hs : HSound s) {l r : List HWorker} {x y : HWorker} (h1 : s.workers = l ++ x :: r) (h2 : t.workers = l ++ y :: r)
    (hy : (x.w.st = .stopped ∨ x.w.st.Sound) → y.w.st = .stopped ∨ y.w.st.Sound) : HSound t := by
  intro z hz
  rw [h2] at hz
  rcases mem_replace (x := x) hz with rfl | hz
  · exact hy (hs x (by simp [h1]))
  · exact hs z (h1 ▸ hz)

theorem HSound.step {cfg : WalkCfg} {mode : IMode} {halts timely work : Bool} {s t : HAll} (h : HStep cfg mode halts timely work s t) (hs : HSound s) : HSound t := by
  cases h with
  | check hw _ => exact hs.replace hw rfl id
  | leave hw _ => exact hs.replace hw rfl (fun _ => Or.inl rfl)
  | quit hw _ => exact hs.replace hw rfl (fun _ => Or.inl rfl)
  | act hw _ _ _ _ hstep =>
    refine hs.replace hw rfl (fun h => ?_)
    rcases h with h | h
    · exact Or.inl (hstep.stops.2 h)
    · exact Or.inr (hstep.sound h)
  | ran ok hw => exact hs.replace hw rfl (fun _ => Or.inr trivial)
  | crash hw _ => exact hs.replace hw rfl (fun _ => Or.inl rfl)
  | die hw _ => exact hs.replace hw rfl (fun _ => Or.inl rfl)
  | notice _ _ => exact hs
  | mainStop _ _ => exact hs
  | barrier _ _ _ =>
    intro x hx
    obtain ⟨y, _, rfl⟩ := List.mem_map.1 hx
    exact Or.inl rfl

theorem HStep.workers {cfg : WalkCfg} {mode : IMode} {halts timely work : Bool} {s t : HAll} (h : HStep cfg mode halts timely work s t) :
    t.workers.length = s.workers.length := by
  cases h with
  | check hw _ => simp [hw]
  | leave hw _ => simp [hw]
  | quit hw _ => simp [hw]
  | act hw _ _ _ _ hstep => simp [hw]
  | ran ok hw => simp [hw, HAll.ended]
  | crash hw _ => simp [hw]
  | die hw _ => simp [hw]
  | notice _ _ => rfl
  | mainStop _ _ => rfl
  | barrier _ _ _ => simp

theorem HStep.one {cfg : WalkCfg} {mode : IMode} {halts timely : Bool} {s t : HAll} (h : HStep cfg mode halts timely true s t) :
    HSteps cfg mode halts timely 1 s t := .work .refl h

/-- A worker that is neither waiting for something to do nor for the others goes on, and so does one whose feeder thread has something to send. -/
theorem HStep.busy (cfg : WalkCfg) (mode : IMode) (halts timely : Bool) {s : HAll} (hp : s.passed = false) {l r : List HWorker} {x : HWorker}
    (hw : s.workers = l ++ x :: r) (h : (x.w.st.Sound ∧ x.w.st ≠ .idle ∧ x.w.st ≠ .waiting) ∨ x.w.buf ≠ []) :
    ∃ t, HStep cfg mode halts timely true s t := by
  obtain ⟨⟨st, b⟩, c⟩ := x
  rcases h with ⟨h1, h2, h3⟩ | h
  · by_cases hr : ∃ e, st = .running e
    · obtain ⟨e, rfl⟩ := hr
      exact ⟨_, .ran true hw⟩
    · obtain ⟨_, _, _, _, h⟩ := IStep.busy cfg mode timely ((l ++ r).all (fun x => x.w.st.isWaiting)) s.queue s.hasResult (w := ⟨st, b⟩) h1 h2 h3
      exact ⟨_, .act hw hp (fun h => absurd h h2) (fun h => absurd h h3) (fun e h => absurd ⟨e, h⟩ hr) h⟩
  · cases b with
    | nil => exact absurd rfl h
    | cons ch b => exact ⟨_, .act (w' := ⟨st, b⟩) hw hp (fun h h' => absurd h h') (fun h h' => absurd h h') (fun _ h => h) .flush⟩

/-- A worker without anything to do comes to the barrier, or leaves. -/
theorem HSteps.wait (cfg : WalkCfg) (mode : IMode) (halts timely : Bool) {s : HAll} (hp : s.passed = false) (hq : s.queue = []) (hst : s.stopping = false)
    {l r : List HWorker} {x : HWorker} (hw : s.workers = l ++ x :: r) (hx : x.w.st = .idle ∨ x.w.st = .waiting) (hb : x.w.buf = []) :
    ∃ y : HWorker, y.w = ⟨.waiting, []⟩ ∧ HSteps cfg mode halts timely 0 s { s with workers := l ++ y :: r } := by
  obtain ⟨⟨st, b⟩, c⟩ := x
  simp only at hx hb
  subst hb
  rcases hx with rfl | rfl
  · have h1 : HSteps cfg mode halts timely 0 s { s with workers := l ++ ⟨⟨.idle, []⟩, true⟩ :: r } := by
      cases c with
      | true => rw [← hw]; exact .refl
      | false => exact .idle .refl (.check hw hst)
    refine ⟨⟨⟨.waiting, []⟩, true⟩, rfl, ?_⟩
    have h2 := HStep.act (cfg := cfg) (mode := mode) (halts := halts) (timely := timely) (s := { s with workers := l ++ ⟨⟨.idle, []⟩, true⟩ :: r }) (l := l) (r := r)
      (x := ⟨⟨.idle, []⟩, true⟩) rfl hp (fun _ _ => rfl) (fun h => by cases h) (fun e h => by cases h)
      (IStep.empty (b := []) (fun _ => ⟨rfl, fun _ => hq⟩))
    simp only [begins, List.append_nil, IState.isIdle, Bool.and_true] at h2
    exact .idle h1 h2
  · refine ⟨⟨⟨.waiting, []⟩, c⟩, rfl, ?_⟩
    rw [← hw]
    exact .refl

/-- When there is nothing to do all workers come to the barrier. -/
theorem HSteps.gather (cfg : WalkCfg) (mode : IMode) (halts timely : Bool) : ∀ (ws l : List HWorker) {s : HAll}, s.passed = false → s.queue = [] →
    s.stopping = false → s.workers = l ++ ws → (∀ x ∈ ws, (x.w.st = .idle ∨ x.w.st = .waiting) ∧ x.w.buf = []) → (∀ x ∈ l, x.w.st.isWaiting = true) →
    ∃ ws', (∀ x ∈ ws', x.w.st.isWaiting = true) ∧ HSteps cfg mode halts timely 0 s { s with workers := ws' } := by
  intro ws
  induction ws with
  | nil =>
    intro l s _ _ _ hw _ hl
    rw [List.append_nil] at hw
    exact ⟨l, hl, by rw [← hw]; exact .refl⟩
  | cons x ws ih =>
    intro l s hp hq hst hw h hl
    obtain ⟨h1, h2⟩ := h x (by simp)
    obtain ⟨y, hy, hs⟩ := HSteps.wait cfg mode halts timely hp hq hst hw h1 h2
    obtain ⟨ws', h3, h4⟩ := ih (l ++ [y]) (s := { s with workers := l ++ y :: ws }) hp hq hst (by simp) (fun z hz => h z (by simp [hz])) (by
      intro z hz
      rcases List.mem_append.1 hz with hz | hz
      · exact hl z hz
      · rw [List.mem_singleton.1 hz, hy]; rfl)
    exact ⟨ws', h3, hs.trans h4⟩

/-- From every state the program can go on until it has ended. -/
theorem HSound.progress (cfg : WalkCfg) (mode : IMode) (halts timely : Bool) {s : HAll} (hs : HSound s) (hi : HaltInv s) (hn : s.workers ≠ []) (he : ¬ Ended s) :
    ∃ m t, HSteps cfg mode halts timely (m + 1) s t := by
  have hp : s.passed = false ∨ s.left = false := by
    cases hp : s.passed with
    | false => exact Or.inl rfl
    | true =>
      right
      cases hl : s.left with
      | false => rfl
      | true => exact absurd ⟨hl, hi.passed hp⟩ he
  by_cases hb : s.passed = false ∧ ∃ x ∈ s.workers, (x.w.st.Sound ∧ x.w.st ≠ .idle ∧ x.w.st ≠ .waiting) ∨ x.w.buf ≠ []
  · obtain ⟨hp, x, hx, hb⟩ := hb
    obtain ⟨l, r, hw⟩ := List.append_of_mem hx
    obtain ⟨t, ht⟩ := HStep.busy cfg mode halts timely hp hw hb
    exact ⟨0, t, ht.one⟩
  · have hall : s.passed = false → ∀ x ∈ s.workers, (x.w.st = .stopped ∨ x.w.st = .idle ∨ x.w.st = .waiting) ∧ x.w.buf = [] := by
      intro hp x hx
      refine ⟨?_, Classical.byContradiction (fun h => hb ⟨hp, x, hx, Or.inr h⟩)⟩
      rcases hs x hx with h | h
      · exact Or.inl h
      · right
        refine Classical.byContradiction (fun h' => hb ⟨hp, x, hx, Or.inl ⟨h, ?_, ?_⟩⟩)
        · intro h; exact h' (Or.inl h)
        · intro h; exact h' (Or.inr h)
    cases hst : s.stopping with
    | true =>
      cases hl : s.left with
      | false => exact ⟨0, _, (HStep.mainStop hst hl).one⟩
      | true =>
        have hp : s.passed = false := by
          rcases hp with h | h
          · exact h
          · rw [hl] at h; cases h
        have : ∃ x ∈ s.workers, x.w.st ≠ .stopped := by
          refine Classical.byContradiction (fun h => he ⟨hl, fun x hx => ?_⟩)
          exact Classical.byContradiction (fun h' => h ⟨x, hx, h'⟩)
        obtain ⟨x, hx, hxs⟩ := this
        obtain ⟨l, r, hw⟩ := List.append_of_mem hx
        have h1 := hall hp x hx
        obtain ⟨⟨st, b⟩, c⟩ := x
        simp only at h1 hxs
        obtain ⟨h1, rfl⟩ := h1
        rcases h1 with h1 | rfl | rfl
        · exact absurd h1 hxs
        · cases c with
          | false => exact ⟨0, _, (HStep.leave hw hst).one⟩
          | true =>
            cases hq : s.queue with
            | nil =>
              have h2 := HStep.act (cfg := cfg) (mode := mode) (halts := halts) (timely := timely) hw hp (fun _ _ => rfl) (fun h => by cases h) (fun e h => by cases h)
                (IStep.empty (b := []) (fun _ => ⟨rfl, fun _ => hq⟩))
              exact ⟨0, _, .work (.idle .refl h2) (.quit rfl hst)⟩
            | cons ch q =>
              have hget : ∃ w' r', IStep cfg mode timely ((l ++ r).all (fun x => x.w.st.isWaiting)) true (ch :: q, ⟨.idle, []⟩, s.hasResult) [] (q, w', r') ∧ w'.st ≠ .idle := by
                cases ch with
                | dirs ds => exact ⟨_, _, .getDirs, by simp⟩
                | ents es => exact ⟨_, _, .getEnts, by simp⟩
                | call e => exact ⟨_, _, .getCall, by simp⟩
              obtain ⟨w', r', hg, _⟩ := hget
              rw [← hq] at hg
              exact ⟨0, _, (HStep.act hw hp (fun _ _ => rfl) (fun h => by cases h) (fun e h => by cases h) hg).one⟩
        · exact ⟨0, _, (HStep.quit hw hst).one⟩
    | false =>
      have hl : s.left = false := by
        cases hl : s.left with
        | false => rfl
        | true =>
          rcases hi.left hl with h | h
          · rw [hst] at h; cases h
          · exact absurd ⟨hl, hi.passed h⟩ he
      cases hd : s.died with
      | true => exact ⟨0, _, (HStep.notice hd hl).one⟩
      | false =>
        cases hps : s.passed with
        | true =>
          have := hi.both hps
          rw [hl] at this
          cases this
        | false =>
          have hall' : ∀ x ∈ s.workers, (x.w.st = .idle ∨ x.w.st = .waiting) ∧ x.w.buf = [] := by
            intro x hx
            obtain ⟨h1, h2⟩ := hall hps x hx
            refine ⟨?_, h2⟩
            rcases h1 with h1 | h1
            · rcases hi.stop x hx h1 with h | h | h
              · rw [hst] at h; cases h
              · rw [hps] at h; cases h
              · rw [hd] at h; cases h
            · exact h1
          cases hq : s.queue with
          | nil =>
            obtain ⟨ws', h1, h2⟩ := HSteps.gather cfg mode halts timely s.workers [] hps hq hst rfl hall' (by simp)
            exact ⟨0, _, .work h2 (.barrier hps hl h1)⟩
          | cons ch q =>
            obtain ⟨x, r, hw⟩ := List.exists_cons_of_ne_nil hn
            have hx := hall' x (by simp [hw])
            obtain ⟨⟨st, b⟩, c⟩ := x
            simp only at hx
            obtain ⟨h1, rfl⟩ := hx
            have h1 : HSteps cfg mode halts timely 0 s { s with workers := ⟨⟨.idle, []⟩, true⟩ :: r } := by
              have hc : ∀ {s' : HAll}, s'.stopping = false → s'.workers = ⟨⟨.idle, []⟩, c⟩ :: r →
                  HSteps cfg mode halts timely 0 s' { s' with workers := ⟨⟨.idle, []⟩, true⟩ :: r } := by
                intro s' h1 h2
                cases c with
                | true => rw [← h2]; exact .refl
                | false => exact .idle .refl (.check (l := []) h2 h1)
              rcases h1 with rfl | rfl
              · exact hc hst hw
              · have h2 := HStep.act (cfg := cfg) (mode := mode) (halts := halts) (timely := timely) (l := []) hw hps (fun h => by cases h) (fun _ _ => hst) (fun e h => by cases h)
                  (IStep.timeout (b := []))
                simp only [begins, List.append_nil, List.nil_append, IState.isIdle, Bool.and_false] at h2
                exact .idle (.idle .refl h2) (.check (l := []) rfl hst)
            have hget : ∃ w' r', IStep cfg mode timely (([] ++ r).all (fun x => x.w.st.isWaiting)) true (ch :: q, ⟨.idle, []⟩, s.hasResult) [] (q, w', r') := by
              cases ch with
              | dirs ds => exact ⟨_, _, .getDirs⟩
              | ents es => exact ⟨_, _, .getEnts⟩
              | call e => exact ⟨_, _, .getCall⟩
            obtain ⟨w', r', hg⟩ := hget
            rw [← hq] at hg
            exact ⟨0, _, .work h1 (.act (s := { s with workers := ⟨⟨.idle, []⟩, true⟩ :: r }) (l := []) rfl hps (fun _ _ => rfl) (fun h => by cases h) (fun e h => by cases h) hg)⟩

/-- From every state the program can come to its end. -/
theorem HSound.ends (cfg : WalkCfg) (mode : IMode) (halts timely : Bool) : ∀ (k : Nat) {s : HAll}, hPot s ≤ k → HSound s → HaltInv s → s.workers ≠ [] →
    ∃ m t, HSteps cfg mode halts timely m s t ∧ Ended t := by
  intro k
  induction k with
  | zero =>
    intro s hk hs hi hn
    by_cases he : Ended s
    · exact ⟨0, s, .refl, he⟩
    · obtain ⟨m, t, h⟩ := hs.progress cfg mode halts timely hi hn he
      have := h.pot
      omega
  | succ k ih =>
    intro s hk hs hi hn
    by_cases he : Ended s
    · exact ⟨0, s, .refl, he⟩
    · obtain ⟨m, t, h⟩ := hs.progress cfg mode halts timely hi hn he
      have hp := h.pot
      obtain ⟨m', u, h', hu⟩ := ih (s := t) (by omega) (h.inv (fun h => HSound.step h) hs) (h.inv (fun h => HaltInv.step h) hi)
        (h.inv (P := fun s => s.workers ≠ []) (fun h hs => by
          have := h.workers
          intro h0
          rw [h0] at this
          exact hs (List.eq_nil_of_length_eq_zero this.symm)) hn)
      exact ⟨_, u, h.trans h', hu⟩

end FF
