import Verif.Lemmas.Terminate
import Verif.Spec.Immediate
namespace FF
open Spec

/-! ### Collective processing: what is left to do, as a number -/

def chunkPotC : Chunk → Nat
  | .dirs ds => dirsPot ds
  | .ents es => entsPot es - 4

def statePotC : WState → Nat
  | .busy todo entries search process => 1 + dirsPot todo + (entsPot entries - 4) + dirsPot search + 4 * search.length + 5 * process.length
  | _ => 0

def workerPotC (w : Worker) : Nat := statePotC w.st + (w.buf.map (fun c => 3 + chunkPotC c)).sum + 3 * w.outbuf.length

def MState.pot : MState → Nat
  | .finished => 0
  | _ => 1

def statesPot (s : PState) : Nat :=
  s.main.pot + (s.queue.map (fun c => 2 + chunkPotC c)).sum + 2 * s.outq.length + (s.workers.map workerPotC).sum

theorem disturb_pot (m : MState) : m.disturb.pot = m.pot := by cases m <;> rfl

theorem chunks_potC (l : List (List DirT)) : ((l.map Chunk.dirs).map (fun c => 3 + chunkPotC c)).sum = 3 * l.length + dirsPot l.flatten := by
  induction l with
  | nil => rfl
  | cons a l ih =>
    have hc : chunkPotC (.dirs a) = dirsPot a := rfl
    rw [List.map_cons, List.map_cons, List.sum_cons, ih, hc, List.length_cons, List.flatten_cons, dirsPot_append]; omega

theorem WStep.pot {cfg : WalkCfg} {fair : Fair} {alone : Bool} {q m w new q' m' w'} (h : WStep cfg fair alone (q, m, w) new (q', m', w')) :
    m'.pot + (q'.map (fun c => 2 + chunkPotC c)).sum + workerPotC w' < m.pot + (q.map (fun c => 2 + chunkPotC c)).sum + workerPotC w ∨
    (m' = m ∧ q' = q ∧ new = [] ∧ awake w' = awake w ∧ workerPotC w' = workerPotC w) := by
  generalize hx : (q, m, w) = x at h
  generalize hy : (q', m', w') = y at h
  have e0 : entsPot [] = 0 := rfl
  have d0 : dirsPot [] = 0 := rfl
  cases h <;> simp only [Prod.mk.injEq] at hx hy <;> obtain ⟨rfl, rfl, rfl⟩ := hx <;> obtain ⟨rfl, rfl, rfl⟩ := hy
  case getDirs => left; simp [workerPotC, statePotC, chunkPotC, e0, d0, disturb_pot]; omega
  case getEnts => left; simp [workerPotC, statePotC, chunkPotC, d0, disturb_pot]; omega
  case empty => exact Or.inr ⟨rfl, rfl, rfl, rfl, rfl⟩
  case timeout => exact Or.inr ⟨rfl, rfl, rfl, rfl, rfl⟩
  case scan d todo b =>
    left
    simp only [workerPotC, statePotC, scan_pot, dirsPot_cons, dirPot, e0, d0, List.length_nil]; omega
  case test e es todo search process b o =>
    left
    have := testEntry_pot cfg e search process
    simp only [workerPotC, statePotC, entsPot_cons] at *
    have h15 : 15 ≤ entPot e := by unfold entPot; omega
    omega
  case share es todo search process b o h1 h2 =>
    left
    have h3 := entsPot_append (splitAtHalf es).1 (splitAtHalf es).2
    rw [splitAtHalf_append] at h3
    have h4 := entsPot_ge (splitAtHalf es).1
    have h5 := entsPot_ge (splitAtHalf es).2
    have h6 : (splitAtHalf es).1.length = es.length / 2 + 1 := by simp only [splitAtHalf, List.length_take]; omega
    have h7 : (splitAtHalf es).2.length = es.length - (es.length / 2 + 1) := by simp [splitAtHalf]
    simp only [workerPotC, statePotC, List.map_append, List.sum_append, List.map_cons, List.map_nil, List.sum_cons, List.sum_nil, chunkPotC]
    omega
  case put todo search process b o h1 =>
    left
    have h2 := chunksFrom_length search (chunkSize cfg.jobs search.length) 0 search.length
    have h3 : 0 < search.length := List.length_pos_iff.2 h1
    simp only [workerPotC, statePotC, List.map_append, List.sum_append, chunks_potC, chunksOf_flatten _ (chunkSize_pos _ _), e0, d0, List.length_nil]
    simp only [chunksOf]
    omega
  case hand todo process b o h1 =>
    left
    have h3 : 0 < process.length := List.length_pos_iff.2 h1
    simp only [workerPotC, statePotC, List.length_drop, List.length_nil, List.length_append, List.length_cons, e0, d0]; omega
  case finish => left; simp only [workerPotC, statePotC, e0, d0, List.length_nil]; omega
  case flush => left; simp only [workerPotC, List.map_append, List.sum_append, List.map_cons, List.map_nil, List.sum_cons, List.sum_nil]; omega

theorem stop_potC {ws : List Worker} (h : ∀ w ∈ ws, ∃ b o, w = ⟨.waiting, b, o⟩) :
    (ws.map (fun w : Worker => { w with st := .stopped })).map workerPotC = ws.map workerPotC := by
  rw [List.map_map]
  apply List.map_congr_left
  intro w hw
  obtain ⟨b, o, rfl⟩ := h w hw
  rfl

theorem PStep.pot {cfg : WalkCfg} {fair : Fair} {s t : PState} (h : PStep cfg fair s t) : statesPot t < statesPot s ∨ (statesPot t = statesPot s ∧ OnlyWaits s t) := by
  cases h with
  | worker hw =>
    rcases hw.pot with hp | ⟨rfl, rfl, rfl, h1, h2⟩
    · left; simp only [statesPot, List.map_append, List.map_cons, List.sum_append, List.sum_cons]; omega
    · right
      exact ⟨by simp [statesPot, h2], rfl, rfl, rfl, by simp, Iff.rfl, by simp [h1]⟩
  | flushOut => left; simp only [statesPot, List.map_append, List.map_cons, List.sum_append, List.sum_cons, workerPotC, List.length_append, List.length_cons, List.length_nil]; omega
  | collect => left; simp only [statesPot, List.length_cons]; omega
  | mainEmpty _ => exact Or.inr ⟨rfl, rfl, rfl, rfl, rfl, by simp, rfl⟩
  | mainTimeout => exact Or.inr ⟨rfl, rfl, rfl, rfl, rfl, by simp, rfl⟩
  | barrier hws _ => left; simp only [statesPot, stop_potC hws, MState.pot]; omega

/-! ### There is always something to do -/

theorem PSteps.trans {cfg : WalkCfg} {fair : Fair} {s t u : PState} (h1 : PSteps cfg fair s t) (h2 : PSteps cfg fair t u) : PSteps cfg fair s u := by
  induction h2 with
  | refl => exact h1
  | step _ h ih => exact .step ih h

/-- No worker has stopped before the end. -/
def NoneStopped (s : PState) : Prop := s.workers ≠ [] ∧ (s.main ≠ .finished → ∀ w ∈ s.workers, w.st ≠ .stopped)

theorem WStep.stopped {cfg : WalkCfg} {fair : Fair} {alone : Bool} {q m w new q' m' w'} (h : WStep cfg fair alone (q, m, w) new (q', m', w')) (hw : w.st ≠ .stopped) :
    w'.st ≠ .stopped ∧ (m' ≠ .finished → m ≠ .finished) := by
  generalize hx : (q, m, w) = x at h
  generalize hy : (q', m', w') = y at h
  cases h <;> simp only [Prod.mk.injEq] at hx hy <;> obtain ⟨rfl, rfl, rfl⟩ := hx <;> obtain ⟨rfl, rfl, rfl⟩ := hy
  case flush => exact ⟨hw, fun h => h⟩
  case getDirs => exact ⟨by simp, fun h hc => h (by rw [hc]; rfl)⟩
  case getEnts => exact ⟨by simp, fun h hc => h (by rw [hc]; rfl)⟩
  all_goals exact ⟨by simp, fun h => h⟩

theorem WStep.main {cfg : WalkCfg} {fair : Fair} {alone : Bool} {q m w new q' m' w'} (h : WStep cfg fair alone (q, m, w) new (q', m', w')) (hm : m' ≠ .finished) :
    m ≠ .finished := by
  generalize hx : (q, m, w) = x at h
  generalize hy : (q', m', w') = y at h
  cases h <;> simp only [Prod.mk.injEq] at hx hy <;> obtain ⟨rfl, rfl, rfl⟩ := hx <;> obtain ⟨rfl, rfl, rfl⟩ := hy
  case getDirs => exact fun hc => hm (by rw [hc]; rfl)
  case getEnts => exact fun hc => hm (by rw [hc]; rfl)
  all_goals exact hm

theorem NoneStopped.step {cfg : WalkCfg} {fair : Fair} {s t : PState} (h : PStep cfg fair s t) (hs : NoneStopped s) : NoneStopped t := by
  obtain ⟨h0, h1⟩ := hs
  cases h with
  | @worker q outq l w r m col handed q' m' w' new hw =>
    refine ⟨by simp, fun hm x hx => ?_⟩
    have h1 := h1 (hw.main hm)
    simp only [List.mem_append, List.mem_cons] at hx
    rcases hx with hx | rfl | hx
    · exact h1 x (by simp [hx])
    · exact (hw.stopped (h1 w (by simp))).1
    · exact h1 x (by simp [hx])
  | @flushOut q outq l s b c o r m col handed =>
    refine ⟨by simp, fun hm x hx => ?_⟩
    simp only [List.mem_append, List.mem_cons] at hx
    rcases hx with hx | rfl | hx
    · exact h1 hm x (by simp [hx])
    · exact h1 hm ⟨s, b, c :: o⟩ (by simp)
    · exact h1 hm x (by simp [hx])
  | collect => exact ⟨h0, h1⟩
  | mainEmpty _ => exact ⟨h0, fun _ => h1 (by simp)⟩
  | mainTimeout => exact ⟨h0, fun _ => h1 (by simp)⟩
  | barrier _ _ => exact ⟨by simpa using h0, fun h => absurd rfl h⟩

theorem NoneStopped.steps {cfg : WalkCfg} {fair : Fair} {s t : PState} (h : PSteps cfg fair s t) (hs : NoneStopped s) : NoneStopped t := by
  induction h with
  | refl => exact hs
  | step _ h ih => exact ih.step h

/-- A worker that is busy can go on. -/
theorem WStep.busy (cfg : WalkCfg) (fair : Fair) (alone : Bool) (q : List Chunk) (m : MState) {w : Worker} (h1 : w.st.isBusy = true) :
    ∃ new q' m' w', WStep cfg fair alone (q, m, w) new (q', m', w') ∧ awake w' ≠ awake w := by
  obtain ⟨st, b, o⟩ := w
  cases st with
  | idle => cases h1
  | waiting => cases h1
  | stopped => cases h1
  | busy todo entries search process =>
    cases entries with
    | cons e es => exact ⟨_, _, _, _, .test, by simp [awake]⟩
    | nil =>
      cases search with
      | cons d ds => exact ⟨_, _, _, _, .put (by simp), by simp [awake]⟩
      | nil =>
        cases process with
        | cons e es => exact ⟨_, _, _, _, .hand (by simp), by simp [awake]⟩
        | nil =>
          cases todo with
          | cons d ds => exact ⟨_, _, _, _, .scan, by simp [awake]⟩
          | nil => exact ⟨_, _, _, _, .finish, by simp [awake]⟩

/-- When there is nothing to do all workers come to the barrier. -/
theorem PSteps.gather {cfg : WalkCfg} {fair : Fair} {m : MState} {col handed : List EntInfo} :
    ∀ (ws l : List Worker), (∀ w ∈ ws, (w.st = .idle ∨ w.st = .waiting) ∧ w.buf = [] ∧ w.outbuf = []) →
      PSteps cfg fair ⟨[], [], l ++ ws, m, col, handed⟩ ⟨[], [], l ++ ws.map (fun _ => ⟨.waiting, [], []⟩), m, col, handed⟩ := by
  intro ws
  induction ws with
  | nil => intro l _; simpa using PSteps.refl
  | cons w ws ih =>
    intro l h
    obtain ⟨h1, h2, h3⟩ := h w (by simp)
    obtain ⟨st, b, o⟩ := w
    simp only at h1 h2 h3
    subst h2 h3
    have ih := ih (l ++ [⟨.waiting, [], []⟩]) (fun x hx => h x (by simp [hx]))
    simp only [List.append_assoc, List.singleton_append] at ih
    rcases h1 with rfl | rfl
    · have h0 : PSteps cfg fair ⟨[], [], l ++ ⟨.idle, [], []⟩ :: ws, m, col, handed⟩ ⟨[], [], l ++ ⟨.waiting, [], []⟩ :: ws, m, col, handed ++ []⟩ :=
        .step .refl (.worker (.empty (fun _ => ⟨rfl, fun _ => rfl⟩)))
      rw [List.append_nil] at h0
      exact h0.trans ih
    · exact ih

/-- From every state the search can go on. -/
theorem NoneStopped.progress (cfg : WalkCfg) (fair : Fair) {s : PState} (hs : NoneStopped s) (hf : s.main ≠ .finished) :
    ∃ t u, PSteps cfg fair s t ∧ PStep cfg fair t u ∧ statesPot u < statesPot t := by
  have strict : ∀ {s t : PState}, PStep cfg fair s t → ¬ OnlyWaits s t → statesPot t < statesPot s := by
    intro s t h hn
    rcases h.pot with h | h
    · exact h
    · exact absurd h.2 hn
  obtain ⟨q, outq, ws, m, col, handed⟩ := s
  obtain ⟨hn, hs⟩ := hs
  have hs := hs hf
  simp only at hf hn hs
  by_cases hb : ∃ w ∈ ws, w.st.isBusy = true ∨ w.buf ≠ [] ∨ w.outbuf ≠ []
  · obtain ⟨w, hw, hb⟩ := hb
    obtain ⟨l, r, rfl⟩ := List.append_of_mem hw
    rcases hb with h1 | h1 | h1
    · obtain ⟨_, _, _, _, h, hne⟩ := WStep.busy cfg fair ((l ++ r).all (fun w => w.st.isWaiting)) q m h1
      exact ⟨_, _, .refl, .worker h, strict (.worker h) (by rintro ⟨_, _, _, _, _, h6⟩; simp at h6; exact hne h6)⟩
    · obtain ⟨st, b, o⟩ := w
      cases b with
      | nil => exact absurd rfl h1
      | cons c b => exact ⟨_, _, .refl, .worker .flush, strict (.worker .flush) (by rintro ⟨h6, _⟩; simp at h6)⟩
    · obtain ⟨st, b, o⟩ := w
      cases o with
      | nil => exact absurd rfl h1
      | cons c o => exact ⟨_, _, .refl, .flushOut, strict .flushOut (by rintro ⟨_, h6, _⟩; simp at h6)⟩
  · have hall : ∀ w ∈ ws, (w.st = .idle ∨ w.st = .waiting) ∧ w.buf = [] ∧ w.outbuf = [] := by
      intro w hw
      have h1 := hs w hw
      have h2 : ¬ (w.st.isBusy = true ∨ w.buf ≠ [] ∨ w.outbuf ≠ []) := fun h => hb ⟨w, hw, h⟩
      refine ⟨?_, Classical.byContradiction (fun h => h2 (Or.inr (Or.inl h))), Classical.byContradiction (fun h => h2 (Or.inr (Or.inr h)))⟩
      obtain ⟨st, b, o⟩ := w
      cases st with
      | idle => exact Or.inl rfl
      | waiting => exact Or.inr rfl
      | stopped => exact absurd rfl h1
      | busy _ _ _ _ => exact absurd (Or.inl rfl) h2
    cases q with
    | cons c q =>
      obtain ⟨w, r, rfl⟩ := List.exists_cons_of_ne_nil hn
      obtain ⟨h1, h2, h3⟩ := hall w (by simp)
      obtain ⟨st, b, o⟩ := w
      simp only at h1 h2 h3
      subst h2 h3
      have hidle : PSteps cfg fair ⟨c :: q, outq, ⟨st, [], []⟩ :: r, m, col, handed⟩ ⟨c :: q, outq, ⟨.idle, [], []⟩ :: r, m, col, handed⟩ := by
        rcases h1 with rfl | rfl
        · exact .refl
        · have h0 : PSteps cfg fair ⟨c :: q, outq, ⟨.waiting, [], []⟩ :: r, m, col, handed⟩ ⟨c :: q, outq, ⟨.idle, [], []⟩ :: r, m, col, handed ++ []⟩ :=
            .step .refl (.worker (l := []) .timeout)
          rwa [List.append_nil] at h0
      have hget : ∃ t, PStep cfg fair ⟨c :: q, outq, ⟨.idle, [], []⟩ :: r, m, col, handed⟩ t ∧ t.queue = q := by
        cases c with
        | dirs ds => exact ⟨_, .worker (l := []) .getDirs, rfl⟩
        | ents es => exact ⟨_, .worker (l := []) .getEnts, rfl⟩
      obtain ⟨t, ht, hq⟩ := hget
      exact ⟨_, t, hidle, ht, strict ht (by rintro ⟨h6, _⟩; rw [hq] at h6; simp at h6)⟩
    | nil =>
      have hpoll : PSteps cfg fair ⟨[], outq, ws, m, col, handed⟩ ⟨[], outq, ws, .polling, col, handed⟩ := by
        cases m with
        | polling => exact .refl
        | waiting b => exact .step .refl .mainTimeout
        | finished => exact absurd rfl hf
      cases outq with
      | cons c outq => exact ⟨_, _, hpoll, .collect, strict .collect (by rintro ⟨_, h6, _⟩; simp at h6)⟩
      | nil =>
        have h0 := PSteps.gather (cfg := cfg) (fair := fair) (m := .polling) (col := col) (handed := handed) ws [] hall
        simp only [List.nil_append] at h0
        have hquiet : (ws.map (fun _ => (⟨.waiting, [], []⟩ : Worker))).all (fun w => !w.st.isBusy) = true := by
          simp [List.all_eq_true, WState.isBusy]
        have h1 : PSteps cfg fair ⟨[], [], ws, .polling, col, handed⟩ ⟨[], [], ws.map (fun _ => ⟨.waiting, [], []⟩), .waiting true, col, handed⟩ := by
          have h2 := PSteps.step h0 (.mainEmpty (fun _ => ⟨rfl, fun w hw _ => by obtain ⟨v, _, rfl⟩ := List.mem_map.1 hw; rfl⟩))
          rwa [hquiet] at h2
        refine ⟨_, _, hpoll.trans h1, .barrier ?_ (fun _ => rfl), strict (.barrier ?_ (fun _ => rfl)) (by rintro ⟨_, _, _, _, h6, _⟩; simp at h6)⟩ <;>
        · intro w hw
          obtain ⟨v, _, rfl⟩ := List.mem_map.1 hw
          exact ⟨_, _, rfl⟩

theorem PSteps.pot {cfg : WalkCfg} {fair : Fair} {s t : PState} (h : PSteps cfg fair s t) : statesPot t ≤ statesPot s := by
  induction h with
  | refl => omega
  | step _ h ih => rcases h.pot with h | h <;> omega

theorem NoneStopped.ends (cfg : WalkCfg) (fair : Fair) : ∀ (k : Nat) {s : PState}, statesPot s ≤ k → NoneStopped s →
    ∃ t, PSteps cfg fair s t ∧ t.main = .finished := by
  intro k
  induction k with
  | zero =>
    intro s hk hs
    by_cases hf : s.main = .finished
    · exact ⟨s, .refl, hf⟩
    · obtain ⟨t, u, h1, _, h3⟩ := hs.progress cfg fair hf
      have := h1.pot
      omega
  | succ k ih =>
    intro s hk hs
    by_cases hf : s.main = .finished
    · exact ⟨s, .refl, hf⟩
    · obtain ⟨t, u, h1, h2, h3⟩ := hs.progress cfg fair hf
      have := h1.pot
      obtain ⟨v, h4, h5⟩ := ih (s := u) (by omega) ((hs.steps h1).step h2)
      exact ⟨v, (PSteps.step h1 h2).trans h4, h5⟩

end FF
