import Verif.Lemmas.Immediate
namespace FF
open Spec

/-! ### What is left to do, as a number -/

mutual
def nodePot : FNode → Nat
  | .mk _ _ kids => 15 + kidsPot kids
def kidsPot : List FNode → Nat
  | [] => 0
  | n :: ns => nodePot n + kidsPot ns
end

def dirPot (d : DirT) : Nat := 1 + kidsPot d.kids
def entPot (e : EntT) : Nat := 15 + kidsPot e.kids
def dirsPot (ds : List DirT) : Nat := (ds.map dirPot).sum
def entsPot (es : List EntT) : Nat := (es.map entPot).sum

def chunkPot : IChunk → Nat
  | .dirs ds => dirsPot ds
  | .ents es => entsPot es - 4
  | .call _ => 0

def statePot : IState → Nat
  | .busy todo entries search process batch =>
    1 + dirsPot todo + (entsPot entries - 4) + dirsPot search + 4 * search.length + 5 * process.length + 4 * batch.length
  | .running _ => 1
  | _ => 0

def workerPot (w : IWorker) : Nat := statePot w.st + (w.buf.map (fun c => 3 + chunkPot c)).sum

def allPot (s : IAll) : Nat :=
  (if s.finished then 0 else 1) + (s.queue.map (fun c => 2 + chunkPot c)).sum + (s.workers.map workerPot).sum

theorem scan_pot (isIgn : Str → Bool) (d : DirT) : entsPot (scanDirectory isIgn d) = kidsPot d.kids := by
  rw [scanDirectory_eq]
  generalize d.ignorePaths ++ addIgnores isIgn d.start d.relpath d.kids = ign
  unfold entsPot
  induction d.kids with
  | nil => rfl
  | cons n ns ih =>
    obtain ⟨a, b, k⟩ := n
    simp only [List.map_cons, List.sum_cons, kidsPot, nodePot, ih]
    rfl

theorem dirsPot_cons (d : DirT) (ds : List DirT) : dirsPot (d :: ds) = dirPot d + dirsPot ds := by simp [dirsPot]
theorem dirsPot_append (a b : List DirT) : dirsPot (a ++ b) = dirsPot a + dirsPot b := by simp [dirsPot]
theorem entsPot_cons (e : EntT) (es : List EntT) : entsPot (e :: es) = entPot e + entsPot es := by simp [entsPot]
theorem entsPot_append (a b : List EntT) : entsPot (a ++ b) = entsPot a + entsPot b := by simp [entsPot]

theorem entsPot_ge (es : List EntT) : 15 * es.length ≤ entsPot es := by
  induction es with
  | nil => simp
  | cons e es ih => simp only [List.length_cons, entsPot_cons, entPot]; omega

theorem testEntry_pot (cfg : WalkCfg) (e : EntT) (search : List DirT) (process : List EntInfo) :
    dirsPot (testEntry cfg e search process).1 + 4 * (testEntry cfg e search process).1.length + 5 * (testEntry cfg e search process).2.length + 5 ≤
    dirsPot search + 4 * search.length + 5 * process.length + entPot e := by
  have h : dirPot e.toDir = 1 + kidsPot e.kids := rfl
  unfold testEntry entPot
  split
  · simp only; omega
  · split <;> split <;> simp only [dirsPot_append, dirsPot_cons, List.length_append, List.length_cons, List.length_nil, h] <;>
      simp only [dirsPot, List.map_nil, List.sum_nil] <;> omega

theorem chunksFrom_length (l : List α) (n i fuel : Nat) : (chunksFrom l n i fuel).length ≤ fuel := by
  induction fuel generalizing i with
  | zero => simp [chunksFrom]
  | succ fuel ih =>
    unfold chunksFrom
    split
    · have := ih (i + n); simp only [List.length_cons]; omega
    · simp

theorem chunks_pot (l : List (List DirT)) : ((l.map IChunk.dirs).map (fun c => 3 + chunkPot c)).sum = 3 * l.length + dirsPot l.flatten := by
  induction l with
  | nil => rfl
  | cons a l ih =>
    have hc : chunkPot (.dirs a) = dirsPot a := rfl
    rw [List.map_cons, List.map_cons, List.sum_cons, ih, hc, List.length_cons, List.flatten_cons, dirsPot_append]; omega

theorem IStep.pot {cfg : WalkCfg} {mode : IMode} {timely alone work : Bool} {q w r new q' w' r'}
    (h : IStep cfg mode timely alone work (q, w, r) new (q', w', r')) :
    (if work then 1 else 0) + ((q'.map (fun c => 2 + chunkPot c)).sum + workerPot w') ≤ (q.map (fun c => 2 + chunkPot c)).sum + workerPot w := by
  generalize hx : (q, w, r) = x at h
  generalize hy : (q', w', r') = y at h
  have e0 : entsPot [] = 0 := rfl
  have d0 : dirsPot [] = 0 := rfl
  cases h <;> simp only [Prod.mk.injEq] at hx hy <;> obtain ⟨rfl, rfl, rfl⟩ := hx <;> obtain ⟨rfl, rfl, rfl⟩ := hy
  case getDirs => simp [workerPot, statePot, chunkPot, e0, d0]; omega
  case getEnts => simp [workerPot, statePot, chunkPot, e0, d0]; omega
  case getCall => simp [workerPot, statePot, chunkPot]; omega
  case empty => simp [workerPot, statePot]
  case timeout => simp [workerPot, statePot]
  case scan d todo b =>
    simp only [workerPot, statePot, scan_pot, dirsPot_cons, dirPot, e0, d0, List.length_nil, if_true]; omega
  case test e es todo search process b =>
    have := testEntry_pot cfg e search process
    simp only [workerPot, statePot, entsPot_cons, List.length_nil, if_true] at *
    have h15 : 15 ≤ entPot e := by unfold entPot; omega
    omega
  case share es todo search process b h1 h2 =>
    have h3 := entsPot_append (splitAtHalf es).1 (splitAtHalf es).2
    rw [splitAtHalf_append] at h3
    have h4 := entsPot_ge (splitAtHalf es).1
    have h5 := entsPot_ge (splitAtHalf es).2
    have h6 : (splitAtHalf es).1.length = es.length / 2 + 1 := by simp only [splitAtHalf, List.length_take]; omega
    have h7 : (splitAtHalf es).2.length = es.length - (es.length / 2 + 1) := by simp [splitAtHalf]
    simp only [workerPot, statePot, List.map_append, List.sum_append, List.map_cons, List.map_nil, List.sum_cons, List.sum_nil, chunkPot, List.length_nil, if_true]
    omega
  case put todo search process b h1 =>
    have h2 := chunksFrom_length search (chunkSize cfg.jobs search.length) 0 search.length
    have h3 : 0 < search.length := List.length_pos_iff.2 h1
    simp only [workerPot, statePot, List.map_append, List.sum_append, chunks_pot, chunksOf_flatten _ (chunkSize_pos _ _), e0, d0, List.length_nil, if_true]
    simp only [chunksOf]
    omega
  case hand todo process b h1 =>
    have h3 : 0 < process.length := List.length_pos_iff.2 h1
    simp only [workerPot, statePot, List.length_take, List.length_drop, List.length_nil, e0, d0, if_true]; omega
  case print => simp only [workerPot, statePot, List.length_cons, if_true]; omega
  case call => simp only [workerPot, statePot, List.length_cons, List.map_append, List.sum_append, List.map_cons, List.map_nil, List.sum_cons, List.sum_nil, chunkPot, if_true]; omega
  case skip => simp only [workerPot, statePot, List.length_cons, if_true]; omega
  case run => simp [workerPot, statePot]; omega
  case finish => simp only [workerPot, statePot, e0, d0, List.length_nil, if_true]; omega
  case flush => simp only [workerPot, List.map_append, List.sum_append, List.map_cons, List.map_nil, List.sum_cons, List.sum_nil, if_true]; omega

theorem stop_pot {ws : List IWorker} (h : ∀ w ∈ ws, w.st.isWaiting = true) :
    (ws.map (fun w : IWorker => { w with st := .stopped })).map workerPot = ws.map workerPot := by
  rw [List.map_map]
  apply List.map_congr_left
  intro w hw
  have := h w hw
  obtain ⟨st, b⟩ := w
  cases st <;> simp [IState.isWaiting] at this
  rfl

theorem AStep.pot {cfg : WalkCfg} {mode : IMode} {timely work : Bool} {s t : IAll} (h : AStep cfg mode timely work s t) :
    (if work then 1 else 0) + allPot t ≤ allPot s := by
  cases h with
  | worker hw =>
    have := hw.pot
    simp only [allPot, List.map_append, List.map_cons, List.sum_append, List.sum_cons, Bool.false_eq_true, if_false]; omega
  | barrier hws => simp only [allPot, stop_pot hws, if_true, Bool.false_eq_true, if_false]; omega

theorem ASteps.pot {cfg : WalkCfg} {mode : IMode} {timely : Bool} {n : Nat} {s t : IAll} (h : ASteps cfg mode timely n s t) : n + allPot t ≤ allPot s := by
  induction h with
  | refl => omega
  | work _ h ih => have := h.pot; simp only [if_true] at this; omega
  | idle _ h ih => have := h.pot; simp only [Bool.false_eq_true, if_false] at this; omega

/-! ### There is always something to do -/

def IState.Sound : IState → Prop
  | .stopped => False
  | .busy _ entries search _ batch => batch = [] ∨ entries = [] ∧ search = []
  | _ => True

/-- No worker has stopped before the end, and workers process results only after the entries. -/
def SoundAll (s : IAll) : Prop := s.finished = false → ∀ w ∈ s.workers, w.st.Sound

theorem IStep.sound {cfg : WalkCfg} {mode : IMode} {timely alone work : Bool} {q w r new q' w' r'}
    (h : IStep cfg mode timely alone work (q, w, r) new (q', w', r')) (hw : w.st.Sound) : w'.st.Sound := by
  generalize hx : (q, w, r) = x at h
  generalize hy : (q', w', r') = y at h
  cases h <;> simp only [Prod.mk.injEq] at hx hy <;> obtain ⟨rfl, rfl, rfl⟩ := hx <;> obtain ⟨rfl, rfl, rfl⟩ := hy
  case flush => exact hw
  all_goals simp [IState.Sound]

theorem SoundAll.step {cfg : WalkCfg} {mode : IMode} {timely work : Bool} {s t : IAll} (h : AStep cfg mode timely work s t) (hs : SoundAll s) : SoundAll t := by
  cases h with
  | @worker _ q l w r d res q' w' res' new hw =>
    intro _ x hx
    simp only [List.mem_append, List.mem_cons] at hx
    rcases hx with hx | rfl | hx
    · exact hs rfl x (by simp [hx])
    · exact hw.sound (hs rfl w (by simp))
    · exact hs rfl x (by simp [hx])
  | barrier _ => intro h; cases h

theorem ASteps.trans {cfg : WalkCfg} {mode : IMode} {timely : Bool} {m n : Nat} {s t u : IAll} (h1 : ASteps cfg mode timely m s t)
    (h2 : ASteps cfg mode timely n t u) : ASteps cfg mode timely (m + n) s u := by
  induction h2 with
  | refl => exact h1
  | work _ h ih => exact .work (ih h1) h
  | idle _ h ih => exact .idle (ih h1) h

theorem AStep.one {cfg : WalkCfg} {mode : IMode} {timely : Bool} {s t : IAll} (h : AStep cfg mode timely true s t) : ASteps cfg mode timely 1 s t := .work .refl h

/-- A worker that is busy can go on. -/
theorem IStep.busy (cfg : WalkCfg) (mode : IMode) (timely alone : Bool) (q : List IChunk) (r : Bool) {w : IWorker} (hw : w.st.Sound) (h1 : w.st ≠ .idle) (h2 : w.st ≠ .waiting) :
    ∃ new q' w' r', IStep cfg mode timely alone true (q, w, r) new (q', w', r') := by
  obtain ⟨st, b⟩ := w
  cases st with
  | idle => exact absurd rfl h1
  | waiting => exact absurd rfl h2
  | stopped => exact hw.elim
  | running e => exact ⟨_, _, _, _, .run⟩
  | busy todo entries search process batch =>
    cases batch with
    | cons e batch =>
      simp only [IState.Sound] at hw
      rcases hw with hw | ⟨rfl, rfl⟩
      · cases hw
      · cases h3 : mode.exec with
        | false => exact ⟨_, _, _, _, .print h3⟩
        | true =>
          cases h4 : mode.renders e with
          | false => exact ⟨_, _, _, _, .skip h3 h4⟩
          | true => exact ⟨_, _, _, _, .call h3 h4⟩
    | nil =>
      cases entries with
      | cons e es => exact ⟨_, _, _, _, .test⟩
      | nil =>
        cases search with
        | cons d ds => exact ⟨_, _, _, _, .put (by simp)⟩
        | nil =>
          cases process with
          | cons e es => exact ⟨_, _, _, _, .hand (by simp)⟩
          | nil =>
            cases todo with
            | cons d ds => exact ⟨_, _, _, _, .scan⟩
            | nil => exact ⟨_, _, _, _, .finish⟩

/-- When there is nothing to do all workers come to the barrier. -/
theorem ASteps.gather {cfg : WalkCfg} {mode : IMode} {timely : Bool} {d : List EntInfo} {res : Bool} :
    ∀ (ws l : List IWorker), (∀ w ∈ ws, (w.st = .idle ∨ w.st = .waiting) ∧ w.buf = []) →
      ASteps cfg mode timely 0 ⟨[], l ++ ws, false, d, res⟩ ⟨[], l ++ ws.map (fun w => { w with st := .waiting }), false, d, res⟩ := by
  intro ws
  induction ws with
  | nil => intro l _; simpa using ASteps.refl
  | cons w ws ih =>
    intro l h
    obtain ⟨h1, h2⟩ := h w (by simp)
    obtain ⟨st, b⟩ := w
    simp only at h1 h2
    subst h2
    have ih := ih (l ++ [⟨.waiting, []⟩]) (fun x hx => h x (by simp [hx]))
    simp only [List.append_assoc, List.singleton_append] at ih
    rcases h1 with rfl | rfl
    · have h0 : ASteps cfg mode timely 0 ⟨[], l ++ ⟨.idle, []⟩ :: ws, false, d, res⟩ ⟨[], l ++ ⟨.waiting, []⟩ :: ws, false, d ++ [], res⟩ :=
        .idle .refl (.worker (.empty (fun _ => ⟨rfl, fun _ => rfl⟩)))
      rw [List.append_nil] at h0
      exact h0.trans ih
    · exact ih

theorem waiting_replaced {l r : List IWorker} {w : IWorker} {ws : List IWorker} (h : ws = l ++ w :: r) : w ∈ ws := by simp [h]

/-- From every state the search can go on. -/
theorem SoundAll.progress (cfg : WalkCfg) (mode : IMode) (timely : Bool) {s : IAll} (hs : SoundAll s) (hf : s.finished = false) (hn : s.workers ≠ []) :
    ∃ m t, ASteps cfg mode timely (m + 1) s t := by
  obtain ⟨q, ws, fin, d, res⟩ := s
  simp only at hf hn
  subst hf
  have hs := hs rfl
  simp only at hs
  by_cases hb : ∃ w ∈ ws, (w.st ≠ .idle ∧ w.st ≠ .waiting) ∨ w.buf ≠ []
  · obtain ⟨w, hw, hb⟩ := hb
    obtain ⟨l, r, rfl⟩ := List.append_of_mem hw
    rcases hb with ⟨h1, h2⟩ | h1
    · obtain ⟨_, _, _, _, h⟩ := IStep.busy cfg mode timely ((l ++ r).all (fun w => w.st.isWaiting)) q res (hs w hw) h1 h2
      exact ⟨0, _, AStep.one (.worker h)⟩
    · obtain ⟨st, b⟩ := w
      cases b with
      | nil => exact absurd rfl h1
      | cons c b => exact ⟨0, _, AStep.one (.worker .flush)⟩
  · have hall : ∀ w ∈ ws, (w.st = .idle ∨ w.st = .waiting) ∧ w.buf = [] := by
      intro w hw
      refine Classical.byContradiction (fun hc => hb ⟨w, hw, ?_⟩)
      by_cases h1 : w.buf = []
      · left
        constructor
        · intro h; exact hc ⟨Or.inl h, h1⟩
        · intro h; exact hc ⟨Or.inr h, h1⟩
      · exact Or.inr h1
    cases q with
    | cons c q =>
      obtain ⟨w, r, rfl⟩ := List.exists_cons_of_ne_nil hn
      obtain ⟨h1, h2⟩ := hall w (by simp)
      obtain ⟨st, b⟩ := w
      simp only at h1 h2
      subst h2
      have hidle : ASteps cfg mode timely 0 ⟨c :: q, ⟨st, []⟩ :: r, false, d, res⟩ ⟨c :: q, ⟨.idle, []⟩ :: r, false, d, res⟩ := by
        rcases h1 with rfl | rfl
        · exact .refl
        · have h0 : ASteps cfg mode timely 0 ⟨c :: q, ⟨.waiting, []⟩ :: r, false, d, res⟩ ⟨c :: q, ⟨.idle, []⟩ :: r, false, d ++ [], res⟩ :=
            .idle .refl (.worker (l := []) .timeout)
          rwa [List.append_nil] at h0
      have hget : ∃ t, AStep cfg mode timely true ⟨c :: q, ⟨.idle, []⟩ :: r, false, d, res⟩ t := by
        cases c with
        | dirs ds => exact ⟨_, .worker (l := []) .getDirs⟩
        | ents es => exact ⟨_, .worker (l := []) .getEnts⟩
        | call e => exact ⟨_, .worker (l := []) .getCall⟩
      obtain ⟨t, ht⟩ := hget
      exact ⟨0, t, .work hidle ht⟩
    | nil =>
      have h0 := ASteps.gather (cfg := cfg) (mode := mode) (timely := timely) (d := d) (res := res) ws [] hall
      simp only [List.nil_append] at h0
      exact ⟨0, _, .work h0 (.barrier (by
        intro w hw
        obtain ⟨v, _, rfl⟩ := List.mem_map.1 hw
        rfl))⟩

theorem AStep.workers {cfg : WalkCfg} {mode : IMode} {timely work : Bool} {s t : IAll} (h : AStep cfg mode timely work s t) (hs : s.workers ≠ []) : t.workers ≠ [] := by
  cases h with
  | worker _ => simp
  | barrier _ => simpa using hs

/-- From every state the search can come to its end. -/
theorem SoundAll.ends (cfg : WalkCfg) (mode : IMode) (timely : Bool) : ∀ (k : Nat) {s : IAll}, allPot s ≤ k → SoundAll s → s.workers ≠ [] →
    ∃ m t, ASteps cfg mode timely m s t ∧ t.finished = true := by
  intro k
  induction k with
  | zero =>
    intro s hk hs hn
    cases hf : s.finished with
    | true => exact ⟨0, s, .refl, hf⟩
    | false => simp [allPot, hf] at hk
  | succ k ih =>
    intro s hk hs hn
    cases hf : s.finished with
    | true => exact ⟨0, s, .refl, hf⟩
    | false =>
      obtain ⟨m, t, h⟩ := hs.progress cfg mode timely hf hn
      have hp := h.pot
      obtain ⟨m', u, h', hu⟩ := ih (s := t) (by omega) (h.inv (fun h => SoundAll.step h) hs) (h.inv (P := fun s => s.workers ≠ []) (fun h => h.workers) hn)
      exact ⟨_, u, h.trans h', hu⟩

theorem SoundAll.init (roots : List DirT) (n : Nat) : SoundAll (initAll roots n) := by
  intro _ w hw
  simp only [initAll, List.mem_replicate] at hw
  rw [hw.2]
  trivial

end FF
