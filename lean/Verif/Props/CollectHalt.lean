import Verif.Spec.CollectHalt
import Verif.Props.Immediate
import Verif.Props.Pool
namespace FF
open Spec

/-! ### The processes with failures and without -/

theorem WStep.untimed {cfg : WalkCfg} {fair : Fair} {alone alone' : Bool} {x y new} (h : WStep cfg fair alone x new y) : WStep cfg ⟨false, false⟩ alone' x new y := by
  cases h with
  | getDirs => exact .getDirs
  | getEnts => exact .getEnts
  | empty _ => exact .empty (fun h => (by cases h))
  | timeout => exact .timeout
  | scan => exact .scan
  | test => exact .test
  | share h1 h2 => exact .share h1 h2
  | put h => exact .put h
  | hand h => exact .hand h
  | finish => exact .finish
  | flush => exact .flush

/-- No process has ended. -/
def KAll.Whole (s : KAll) : Prop := ∀ x ∈ s.workers, x.gone = false

theorem KStep.plain {cfg : WalkCfg} {fair : Fair} {s t : KAll} (h : KStep cfg fair s t) :
    (t.calm = s.calm ∨ PStep cfg ⟨false, false⟩ s.calm t.calm) ∧ (t.Whole → s.Whole ∧ (t.calm = s.calm ∨ PStep cfg fair s.calm t.calm)) := by
  cases h with
  | @act l x r q' m' w' new hw hg hs h =>
    obtain ⟨q, oq, ws, m, col, hd, left, st, ec, f⟩ := s
    simp only at hw h
    subst hw
    refine ⟨.inr ?_, fun hn => ⟨?_, .inr ?_⟩⟩
    · simp only [KAll.calm, List.map_append, List.map_cons]
      exact .worker h.untimed
    · intro y hy
      simp only [List.mem_append, List.mem_cons] at hy
      rcases hy with hy | rfl | hy
      · exact hn y (by simp [hy])
      · exact hn ⟨w', y.gone⟩ (by simp)
      · exact hn y (by simp [hy])
    · simp only [KAll.calm, List.map_append, List.map_cons]
      refine .worker ?_
      have e : (l.map KWorker.w ++ r.map KWorker.w).all (fun w => w.st.isWaiting) = (l ++ r).all (fun x => x.gone || x.w.st.isWaiting) := by
        rw [← List.map_append, List.all_map, Bool.eq_iff_iff]
        simp only [List.all_eq_true, Function.comp_apply]
        refine forall_congr' fun y => forall_congr' fun hy => ?_
        have : y.gone = false := hn y (by
          simp only [List.mem_append, List.mem_cons] at hy ⊢
          exact hy.imp_right .inr)
        rw [this, Bool.false_or]
      rw [e]
      exact h
  | @flushOut l st b c o g r hw =>
    obtain ⟨q, oq, ws, m, col, hd, left, sp, ec, f⟩ := s
    simp only at hw
    subst hw
    refine ⟨.inr ?_, fun hn => ⟨?_, .inr ?_⟩⟩
    · simp only [KAll.calm, List.map_append, List.map_cons]
      exact .flushOut
    · intro y hy
      simp only [List.mem_append, List.mem_cons] at hy
      rcases hy with hy | rfl | hy
      · exact hn y (by simp [hy])
      · exact hn ⟨⟨st, b, o⟩, g⟩ (by simp)
      · exact hn y (by simp [hy])
    · simp only [KAll.calm, List.map_append, List.map_cons]
      exact .flushOut
  | @leave l x r hw _ _ _ => exact ⟨.inl (by simp [KAll.calm, hw]), fun hn => absurd (hn ⟨x.w, true⟩ (by simp)) (by simp)⟩
  | @crash l x r hw _ _ => exact ⟨.inl (by simp [KAll.calm, hw]), fun hn => absurd (hn ⟨x.w, true⟩ (by simp)) (by simp)⟩
  | @die l x r hw _ _ _ => exact ⟨.inl (by simp [KAll.calm, hw]), fun hn => absurd (hn ⟨x.w, true⟩ (by simp)) (by simp)⟩
  | collect _ hm ho =>
    simp only [KAll.calm, hm, ho]
    exact ⟨.inr .collect, fun hn => ⟨hn, .inr .collect⟩⟩
  | mainEmpty _ hm h =>
    have e : s.workers.all (fun x => !x.w.st.isBusy) = (s.workers.map KWorker.w).all (fun w => !w.st.isBusy) := by rw [List.all_map]; rfl
    simp only [KAll.calm, hm, e]
    refine ⟨.inr (.mainEmpty (fun h => (by cases h))), fun hn => ⟨hn, .inr (.mainEmpty (fun ht => ⟨(h ht).1, ?_⟩))⟩⟩
    intro w hw hb
    obtain ⟨x, hx, rfl⟩ := List.mem_map.1 hw
    exact (h ht).2 x hx (hn x hx) hb
  | mainTimeout _ hm _ =>
    simp only [KAll.calm, hm]
    exact ⟨.inr .mainTimeout, fun hn => ⟨hn, .inr .mainTimeout⟩⟩
  | mainStop _ _ _ => exact ⟨.inl rfl, fun hn => ⟨hn, .inl rfl⟩⟩
  | notice _ _ _ => exact ⟨.inl rfl, fun hn => ⟨hn, .inl rfl⟩⟩
  | @barrier quiet _ hm hall hp =>
    have e : (s.workers.map (fun x => (⟨{ x.w with st := .stopped }, x.gone⟩ : KWorker))).map KWorker.w = (s.workers.map KWorker.w).map (fun w => { w with st := .stopped }) := by
      rw [List.map_map, List.map_map]; rfl
    have hall' : ∀ w ∈ s.workers.map KWorker.w, ∃ b o, w = ⟨.waiting, b, o⟩ := by
      intro w hw
      obtain ⟨x, hx, rfl⟩ := List.mem_map.1 hw
      obtain ⟨⟨st, b, o⟩, g⟩ := x
      have := (hall _ hx).2
      simp only at this
      subst this
      exact ⟨b, o, rfl⟩
    simp only [KAll.calm, hm, e]
    exact ⟨.inr (.barrier hall' (fun h => (by cases h))), fun _ => ⟨fun x hx => (hall x hx).1, .inr (.barrier hall' hp)⟩⟩

theorem initCollect_calm (roots : List DirT) (n : Nat) : (initCollect roots n).calm = initState roots n := by
  simp [KAll.calm, initCollect, initState]

theorem KSteps.plain {cfg : WalkCfg} {fair : Fair} {s0 s : KAll} (h : KSteps cfg fair s0 s) :
    PSteps cfg ⟨false, false⟩ s0.calm s.calm ∧ (s.Whole → PSteps cfg fair s0.calm s.calm) := by
  induction h with
  | refl => exact ⟨.refl, fun _ => .refl⟩
  | step _ h ih =>
    obtain ⟨h1, h2⟩ := h.plain
    constructor
    · rcases h1 with h1 | h1
      · rw [h1]; exact ih.1
      · exact .step ih.1 h1
    · intro hn
      obtain ⟨h3, h4⟩ := h2 hn
      rcases h4 with h4 | h4
      · rw [h4]; exact ih.2 h3
      · exact .step (ih.2 h3) h4

theorem KSteps.inv {cfg : WalkCfg} {fair : Fair} {P : KAll → Prop} (hP : ∀ {s t}, KStep cfg fair s t → P s → P t) {s t : KAll} (h : KSteps cfg fair s t) (hs : P s) : P t := by
  induction h with
  | refl => exact hs
  | step _ h ih => exact hP h ih

theorem KSteps.trans {cfg : WalkCfg} {fair : Fair} {s t u : KAll} (h1 : KSteps cfg fair s t) (h2 : KSteps cfg fair t u) : KSteps cfg fair s u := by
  induction h2 with
  | refl => exact h1
  | step _ h ih => exact .step ih h

theorem KSteps.head {cfg : WalkCfg} {fair : Fair} {s t u : KAll} (h : KStep cfg fair s t) (hs : KSteps cfg fair t u) : KSteps cfg fair s u :=
  (KSteps.step .refl h).trans hs

/-! ### The failures -/

/-- What is known about the failures. -/
structure Notes (s : KAll) : Prop where
  whole : s.failures = 0 ↔ s.Whole
  stops : s.stopping = true → s.exitcode = 4
  codes : s.exitcode = 0 ∨ s.exitcode = 4
  four : s.exitcode = 4 → s.failures ≠ 0 ∧ s.stopping = true
  finished : s.main = .finished → s.left = true ∧ s.Whole ∧ ∀ x ∈ s.workers, x.w.st = .stopped
  left : s.left = true → s.main = .finished ∨ s.exitcode = 4

theorem Notes.init (roots : List DirT) (n : Nat) : Notes (initCollect roots n) := by
  refine ⟨⟨fun _ x hx => ?_, fun _ => rfl⟩, fun h => (by cases h), .inl rfl, fun h => (by cases h), fun h => (by cases h), fun h => (by cases h)⟩
  simp only [initCollect, List.mem_replicate] at hx
  rw [hx.2]

theorem WStep.notFinished {cfg : WalkCfg} {fair : Fair} {alone : Bool} {q m w new q' m' w'} (h : WStep cfg fair alone (q, m, w) new (q', m', w')) (hm : m' = .finished) :
    m = .finished := by
  cases m with
  | finished => rfl
  | polling => exact absurd hm (fun hc => (by cases h <;> cases hc))
  | waiting b => exact absurd hm (fun hc => (by cases h <;> cases hc))

theorem WStep.fromStopped {cfg : WalkCfg} {fair : Fair} {alone : Bool} {q m w new q' m' w'} (h : WStep cfg fair alone (q, m, w) new (q', m', w')) (hw : w.st = .stopped) :
    m' = m ∧ w'.st = .stopped := by
  cases h <;> simp_all

theorem Notes.step {cfg : WalkCfg} {fair : Fair} {s t : KAll} (h : KStep cfg fair s t) (hs : Notes s) : Notes t := by
  have hcalm := h.plain.2
  cases h with
  | @act l x r q' m' w' new hw hg hst h =>
    have hmem : x ∈ s.workers := by rw [hw]; simp
    have hwhole : KAll.Whole { s with queue := q', main := m', workers := l ++ ⟨w', x.gone⟩ :: r, handed := s.handed ++ new } ↔ s.Whole := by
      refine ⟨fun hn => (hcalm hn).1, fun hn y hy => ?_⟩
      simp only [List.mem_append, List.mem_cons] at hy
      rcases hy with hy | rfl | hy
      · exact hn y (by rw [hw]; simp [hy])
      · exact hn x hmem
      · exact hn y (by rw [hw]; simp [hy])
    refine ⟨hs.whole.trans hwhole.symm, hs.stops, hs.codes, hs.four, fun hm => ?_, fun hl => ?_⟩
    · obtain ⟨h1, h2, h3⟩ := hs.finished (h.notFinished hm)
      refine ⟨h1, hwhole.2 h2, fun y hy => ?_⟩
      simp only [List.mem_append, List.mem_cons] at hy
      rcases hy with hy | rfl | hy
      · exact h3 y (by rw [hw]; simp [hy])
      · exact (h.fromStopped (h3 x hmem)).2
      · exact h3 y (by rw [hw]; simp [hy])
    · rcases hs.left hl with h1 | h1
      · left
        obtain ⟨_, _, h3⟩ := hs.finished h1
        simp only
        rw [(h.fromStopped (h3 x hmem)).1, h1]
      · exact .inr h1
  | @flushOut l st b c o g r hw =>
    have hwhole : KAll.Whole { s with outq := s.outq ++ [c], workers := l ++ ⟨⟨st, b, o⟩, g⟩ :: r } ↔ s.Whole := by
      refine ⟨fun hn => (hcalm hn).1, fun hn y hy => ?_⟩
      simp only [List.mem_append, List.mem_cons] at hy
      rcases hy with hy | rfl | hy
      · exact hn y (by rw [hw]; simp [hy])
      · exact hn ⟨⟨st, b, c :: o⟩, g⟩ (by rw [hw]; simp)
      · exact hn y (by rw [hw]; simp [hy])
    refine ⟨hs.whole.trans hwhole.symm, hs.stops, hs.codes, hs.four, fun hm => ?_, hs.left⟩
    obtain ⟨h1, h2, h3⟩ := hs.finished hm
    refine ⟨h1, hwhole.2 h2, fun y hy => ?_⟩
    simp only [List.mem_append, List.mem_cons] at hy
    rcases hy with hy | rfl | hy
    · exact h3 y (by rw [hw]; simp [hy])
    · exact h3 ⟨⟨st, b, c :: o⟩, g⟩ (by rw [hw]; simp)
    · exact h3 y (by rw [hw]; simp [hy])
  | @leave l x r hw hg hst hi =>
    have h4 := hs.stops hst
    have hmem : x ∈ s.workers := by rw [hw]; simp
    refine ⟨⟨fun h0 => absurd h0 (hs.four h4).1, fun hn => absurd (hn ⟨x.w, true⟩ (by simp)) (by simp)⟩, hs.stops, hs.codes, hs.four, fun hm => ?_, hs.left⟩
    have := (hs.finished hm).2.2 x hmem
    rw [this] at hi
    rcases hi with hi | hi <;> cases hi
  | @crash l x r hw hg hx =>
    have hmem : x ∈ s.workers := by rw [hw]; simp
    refine ⟨⟨fun h0 => (by simp at h0), fun hn => absurd (hn ⟨x.w, true⟩ (by simp)) (by simp)⟩, fun _ => rfl, .inr rfl, fun _ => ⟨by simp, rfl⟩, fun hm => ?_, fun _ => .inr rfl⟩
    exact absurd ((hs.finished hm).2.2 x hmem) hx
  | @die l x r hw hg hx _ =>
    have hmem : x ∈ s.workers := by rw [hw]; simp
    refine ⟨⟨fun h0 => (by simp at h0), fun hn => absurd (hn ⟨x.w, true⟩ (by simp)) (by simp)⟩, hs.stops, hs.codes, fun h4 => ⟨by simp, (hs.four h4).2⟩, fun hm => ?_, hs.left⟩
    exact absurd ((hs.finished hm).2.2 x hmem) hx
  | collect hl hm _ => exact ⟨hs.whole, hs.stops, hs.codes, hs.four, hs.finished, hs.left⟩
  | mainEmpty hl hm _ => exact ⟨hs.whole, hs.stops, hs.codes, hs.four, fun h => (by cases h), fun h => (by simp only at h; rw [hl] at h; cases h)⟩
  | mainTimeout hl hm _ => exact ⟨hs.whole, hs.stops, hs.codes, hs.four, fun h => (by cases h), fun h => (by simp only at h; rw [hl] at h; cases h)⟩
  | mainStop hl hm hst => exact ⟨hs.whole, hs.stops, hs.codes, hs.four, fun h => (by simp only at h; rw [hm] at h; cases h), fun _ => .inr (hs.stops hst)⟩
  | notice hl hm hg =>
    refine ⟨hs.whole, fun _ => rfl, .inr rfl, fun _ => ⟨fun h0 => ?_, rfl⟩, fun h => (by simp only at h; rw [hm] at h; cases h), fun _ => .inr rfl⟩
    obtain ⟨x, hx, hg⟩ := hg
    rw [hs.whole.1 h0 x hx] at hg
    cases hg
  | barrier hl hm hall _ =>
    have hn : s.Whole := fun x hx => (hall x hx).1
    refine ⟨⟨fun _ y hy => ?_, fun _ => hs.whole.2 hn⟩, hs.stops, hs.codes, hs.four, fun _ => ⟨rfl, ?_, ?_⟩, fun _ => .inl rfl⟩
    · obtain ⟨x, hx, rfl⟩ := List.mem_map.1 hy
      exact hn x hx
    · intro y hy
      obtain ⟨x, hx, rfl⟩ := List.mem_map.1 hy
      exact hn x hx
    · intro y hy
      obtain ⟨x, hx, rfl⟩ := List.mem_map.1 hy
      rfl

theorem KSteps.notes {cfg : WalkCfg} {fair : Fair} {roots : List DirT} {n : Nat} {s : KAll} (h : KSteps cfg fair (initCollect roots n) s) : Notes s :=
  h.inv (fun h => Notes.step h) (Notes.init roots n)

/-! ### C130 -/

/-- C130: whatever has failed, at no time has an entry been received twice, or one that is not asked for. -/
theorem C130_sound (cfg : WalkCfg) (fair : Fair) {roots : List Root} (hok : ∀ r ∈ roots, r.Ok) (hnd : (roots.map Root.start).Nodup) (n : Nat) {s : KAll}
    (h : KSteps cfg fair (initCollect (roots.map Root.dir) n) s) :
    s.collected.Nodup ∧ ∀ i ∈ s.collected, ∃ r ∈ roots, Selected cfg r.start r.base r.kids i := by
  have h1 := h.plain.1
  rw [initCollect_calm] at h1
  exact C11_sound cfg _ hok hnd n h1

/-- C130: when the collection has come to its end the status that ff is going to exit with is 4 if a process has failed, and otherwise 0. -/
theorem C130_status (cfg : WalkCfg) (fair : Fair) (roots : List Root) (n : Nat) {s : KAll} (h : KSteps cfg fair (initCollect (roots.map Root.dir) n) s) (hl : s.left = true) :
    (s.failures = 0 → s.exitcode = 0) ∧ (s.failures ≠ 0 → s.exitcode = 4 ∧ s.stopping = true) := by
  have hn := h.notes
  constructor
  · intro h0
    rcases hn.codes with h1 | h1
    · exact h1
    · exact absurd h0 (hn.four h1).1
  · intro h0
    rcases hn.left hl with h1 | h1
    · exact absurd (hn.whole.2 (hn.finished h1).2.1) h0
    · exact ⟨h1, (hn.four h1).2⟩

/-- C130: if no process has failed everything asked for has been received. Under the same timing assumptions as C11. -/
theorem C130_complete_partial (cfg : WalkCfg) (fair : Fair) (ht : fair.timely = true) (hpr : fair.prompt = true) {roots : List Root} (hok : ∀ r ∈ roots, r.Ok)
    (hnd : (roots.map Root.start).Nodup) {n : Nat} (hn : 0 < n) {s : KAll} (h : KSteps cfg fair (initCollect (roots.map Root.dir) n) s) (hl : s.left = true)
    (h0 : s.exitcode = 0) : s.collected.Nodup ∧ ∀ i, i ∈ s.collected ↔ ∃ r ∈ roots, Selected cfg r.start r.base r.kids i := by
  have hno := h.notes
  have hf : s.main = .finished := by
    rcases hno.left hl with h1 | h1
    · exact h1
    · rw [h0] at h1; cases h1
  have h1 := h.plain.2 (hno.finished hf).2.1
  rw [initCollect_calm] at h1
  exact (C11_complete_partial cfg fair ht hpr hok hnd hn h1 hf).2

/-- C130: the exit status if the results are shown: 4 if a process has failed, also with --fail; otherwise 1 with --fail if nothing has been found, and 0 else. -/
theorem C130_exit (cfg : WalkCfg) (fair : Fair) (roots : List Root) (n : Nat) {s : KAll} (h : KSteps cfg fair (initCollect (roots.map Root.dir) n) s) (hl : s.left = true)
    (fail : Bool) : (s.failures ≠ 0 → exitStatus fail s.ctx = 4) ∧ (s.failures = 0 → exitStatus fail s.ctx = if fail = true ∧ s.collected = [] then 1 else 0) := by
  refine ⟨fun h0 => ?_, fun h0 => ?_⟩
  · simp [exitStatus, KAll.ctx, ((C130_status cfg fair roots n h hl).2 h0).1]
  · have := (C130_status cfg fair roots n h hl).1 h0
    cases hc : s.collected <;> cases fail <;> simp [exitStatus, KAll.ctx, this, hc]

/-- C130: if a process has failed the commands of `-x` are not run, and the exit status is 4. -/
theorem C130_exec {α : Type} (cfg : WalkCfg) (fair : Fair) (roots : List Root) (n : Nat) {s : KAll} (h : KSteps cfg fair (initCollect (roots.map Root.dir) n) s)
    (hl : s.left = true) (h0 : s.failures ≠ 0) (halt : Halt) (render : EntInfo → Option α) (jobs : Nat) (entries : List EntInfo) {p : Pool EntInfo α}
    (hp : Reaches halt render (Pool.start jobs s.ctx entries) p) : p.started = [] ∧ (p.joined = true → ∀ fail, exitStatus fail p.ctx = 4) := by
  obtain ⟨h4, hs⟩ := (C130_status cfg fair roots n h hl).2 h0
  have hst : p.started = [] := by
    obtain ⟨k, hk⟩ := hp
    have h2 := (stopping_steps hk hs).2
    have h3 : ((List.replicate jobs (PThread.top (α := α))).map PThread.waits).sum = 0 := by simp [PThread.waits]
    simp only [Pool.start, h3, List.length_nil] at h2
    exact List.length_eq_zero_iff.1 (by omega)
  refine ⟨hst, fun hj fail => ?_⟩
  obtain ⟨k, hk⟩ := hp
  have hi := poolInv_steps (poolInv_start halt render jobs s.ctx entries) hk
  have he : p.ended = [] := by
    have := hi.run
    rw [hst] at this
    have := this.length_eq
    simp only [List.length_nil, List.length_append, List.length_map] at this
    exact List.length_eq_zero_iff.1 (by omega)
  have hx := hi.exit
  have h3 : p.ctx.exitcode ≠ 3 := by
    intro e
    rcases hx.2.1 (.inl e) with h | ⟨y, hy, _⟩
    · simp only [KAll.ctx] at h; rw [h4] at h; cases h
    · rw [he] at hy; cases hy
  have h4' : p.ctx.exitcode = 4 := by
    rcases hx.1 with h | h
    · rw [h]; exact h4
    · exact absurd h h3
  simp [exitStatus, h4']

/-- C130: if a process has failed the exit status with `-X` is 3 if a command fails or can not be run, and otherwise 4. -/
theorem C130_batch {α : Type} (cfg : WalkCfg) (fair : Fair) (roots : List Root) (n : Nat) {s : KAll} (h : KSteps cfg fair (initCollect (roots.map Root.dir) n) s)
    (hl : s.left = true) (h0 : s.failures ≠ 0) (fail : Bool) (r : List (List α × Int) × BatchEnd) :
    ((r.2 = .failed ∨ ∃ x ∈ r.1, x.2 ≠ 0) → batchStatus fail s.ctx r = 3) ∧ (¬ (r.2 = .failed ∨ ∃ x ∈ r.1, x.2 ≠ 0) → batchStatus fail s.ctx r = 4) := by
  obtain ⟨h4, _⟩ := (C130_status cfg fair roots n h hl).2 h0
  obtain ⟨runs, e⟩ := r
  have key : ∀ (l : List (List α × Int)) (c : Ctx), ((l.map (fun _ => Op.setExit 3)).foldl Ctx.apply c).exitcode = if l = [] then c.exitcode else 3 := by
    intro l
    induction l with
    | nil => intro c; rfl
    | cons a l ih => intro c; simp only [List.map_cons, List.foldl_cons, ih]; split <;> simp [Ctx.apply]
  have hf : (runs.filter (fun x => x.2 ≠ 0) = []) ↔ ¬ ∃ x ∈ runs, x.2 ≠ 0 := by simp [List.filter_eq_nil_iff]
  have hk := key (runs.filter (fun x => x.2 ≠ 0)) s.ctx
  have h4' : s.ctx.exitcode = 4 := h4
  by_cases hr : ∃ x ∈ runs, x.2 ≠ 0
  · rw [if_neg (fun h => hf.1 h hr)] at hk
    refine ⟨fun _ => ?_, fun hn => absurd (Or.inr hr) hn⟩
    cases e <;> simp only [batchStatus, exitStatus] <;> first | rfl | rw [if_pos hk]
  · rw [if_pos (hf.2 hr), h4'] at hk
    constructor
    · rintro (h | h)
      · simp only at h; subst h; rfl
      · exact absurd h hr
    · intro hn
      cases e with
      | failed => exact absurd (Or.inl rfl) hn
      | _ => simp only [batchStatus, exitStatus]; rw [hk]; rfl

/-! ### The end -/

def aliveCount (s : KAll) : Nat := s.workers.countP (fun x => !x.gone)

/-- What is left to do, as a number. -/
def kPot (s : KAll) : Nat := statesPot s.calm + aliveCount s + (if s.left then 0 else 1)

theorem Spec.OnlyWaits.rfl (s : PState) : OnlyWaits s s := ⟨Eq.refl _, Eq.refl _, Eq.refl _, Eq.refl _, Iff.rfl, Eq.refl _⟩

theorem countP_replace {α : Type} (p : α → Bool) (l r : List α) {x y : α} (h : p x = p y) : (l ++ y :: r).countP p = (l ++ x :: r).countP p := by
  simp [List.countP_append, List.countP_cons, h]

theorem KStep.pot {cfg : WalkCfg} {fair : Fair} {s t : KAll} (h : KStep cfg fair s t) : kPot t < kPot s ∨ (kPot t = kPot s ∧ JustWaits s t) := by
  have hp := h.plain.1
  cases h with
  | @act l x r q' m' w' new hw hg hst h =>
    have ha : aliveCount { s with queue := q', main := m', workers := l ++ ⟨w', x.gone⟩ :: r, handed := s.handed ++ new } = aliveCount s := by
      simp only [aliveCount, hw]; exact countP_replace _ _ _ rfl
    have hgone : (l ++ (⟨w', x.gone⟩ : KWorker) :: r).map KWorker.gone = s.workers.map KWorker.gone := by simp [hw]
    simp only [kPot, ha]
    rcases hp with hp | hp
    · right
      rw [hp]
      exact ⟨Eq.refl _, by rw [hp]; exact .rfl _, hgone, Eq.refl _, Eq.refl _, Eq.refl _, Eq.refl _⟩
    · rcases hp.pot with h | ⟨h, h'⟩
      · left; omega
      · right; exact ⟨by omega, h', hgone, Eq.refl _, Eq.refl _, Eq.refl _, Eq.refl _⟩
  | @flushOut l st b c o g r hw =>
    have ha : aliveCount { s with outq := s.outq ++ [c], workers := l ++ ⟨⟨st, b, o⟩, g⟩ :: r } = aliveCount s := by
      simp only [aliveCount, hw]; exact countP_replace _ _ _ rfl
    have hgone : (l ++ (⟨⟨st, b, o⟩, g⟩ : KWorker) :: r).map KWorker.gone = s.workers.map KWorker.gone := by simp [hw]
    simp only [kPot, ha]
    rcases hp with hp | hp
    · right
      rw [hp]
      exact ⟨Eq.refl _, by rw [hp]; exact .rfl _, hgone, Eq.refl _, Eq.refl _, Eq.refl _, Eq.refl _⟩
    · rcases hp.pot with h | ⟨h, h'⟩
      · left; omega
      · right; exact ⟨by omega, h', hgone, Eq.refl _, Eq.refl _, Eq.refl _, Eq.refl _⟩
  | @leave l x r hw hg _ _ =>
    left
    have : KAll.calm { s with workers := l ++ ⟨x.w, true⟩ :: r } = s.calm := by simp [KAll.calm, hw]
    simp only [kPot, this, aliveCount, hw, List.countP_append, List.countP_cons, hg]
    simp
  | @crash l x r hw hg _ =>
    left
    have : KAll.calm { s with workers := l ++ ⟨x.w, true⟩ :: r, exitcode := 4, stopping := true, failures := s.failures + 1 } = s.calm := by simp [KAll.calm, hw]
    simp only [kPot, this, aliveCount, hw, List.countP_append, List.countP_cons, hg]
    simp
  | @die l x r hw hg _ _ =>
    left
    have : KAll.calm { s with workers := l ++ ⟨x.w, true⟩ :: r, failures := s.failures + 1 } = s.calm := by simp [KAll.calm, hw]
    simp only [kPot, this, aliveCount, hw, List.countP_append, List.countP_cons, hg]
    simp
  | collect hl hm ho =>
    left
    simp only [kPot, aliveCount, statesPot, KAll.calm, ho, List.length_cons]
    omega
  | mainEmpty hl hm h =>
    right
    exact ⟨by simp [kPot, aliveCount, statesPot, KAll.calm, hm, MState.pot], ⟨Eq.refl _, Eq.refl _, Eq.refl _, Eq.refl _, by simp [KAll.calm, hm], Eq.refl _⟩, Eq.refl _, Eq.refl _, Eq.refl _, Eq.refl _, Eq.refl _⟩
  | mainTimeout hl hm _ =>
    right
    exact ⟨by simp [kPot, aliveCount, statesPot, KAll.calm, hm, MState.pot], ⟨Eq.refl _, Eq.refl _, Eq.refl _, Eq.refl _, by simp [KAll.calm, hm], Eq.refl _⟩, Eq.refl _, Eq.refl _, Eq.refl _, Eq.refl _, Eq.refl _⟩
  | mainStop hl hm hst => left; simp [kPot, aliveCount, KAll.calm, hl]
  | notice hl hm hg => left; simp [kPot, aliveCount, KAll.calm, hl]
  | barrier hl hm hall _ =>
    left
    have ha : (s.workers.map (fun x => (⟨{ x.w with st := .stopped }, x.gone⟩ : KWorker))).countP (fun x => !x.gone) = s.workers.countP (fun x => !x.gone) := by
      rw [List.countP_map]; rfl
    rcases hp with hp | hp
    · simp only [kPot, aliveCount, hp, ha, hl]; simp
    · have hle := hp.pot.elim Nat.le_of_lt (fun h => Nat.le_of_eq h.1)
      unfold kPot aliveCount
      rw [if_pos rfl, hl, if_neg (by simp), ha]
      omega

/-- C130: the number of steps in which something is done is limited, whatever fails. -/
theorem C130_bounded (cfg : WalkCfg) (fair : Fair) (roots : List Root) (n : Nat) {k : Nat} {s : KAll}
    (h : KCounted cfg fair k (initCollect (roots.map Root.dir) n) s) : k ≤ 2 + n + (roots.map (fun r => 3 + 15 * countTree r.kids)).sum := by
  have h0 : kPot (initCollect (roots.map Root.dir) n) = 2 + n + (roots.map (fun r => 3 + 15 * countTree r.kids)).sum := by
    have ha : aliveCount (initCollect (roots.map Root.dir) n) = n := by simp [aliveCount, initCollect, List.countP_replicate]
    have hl : (initCollect (roots.map Root.dir) n).left = false := rfl
    simp only [kPot, initCollect_calm, initState_pot, ha, hl]
    simp; omega
  have : k + kPot s ≤ kPot (initCollect (roots.map Root.dir) n) := by
    generalize initCollect (roots.map Root.dir) n = s0 at h
    induction h with
    | refl => omega
    | work _ h hw ih =>
      rcases h.pot with h | h
      · omega
      · exact absurd h.2 hw
    | idle _ h _ ih => rcases h.pot with h | h <;> omega
  omega

/-- Every execution is counted. -/
theorem KCounted.of_steps {cfg : WalkCfg} {fair : Fair} {s t : KAll} (h : KSteps cfg fair s t) : ∃ k, KCounted cfg fair k s t := by
  induction h with
  | refl => exact ⟨0, .refl⟩
  | @step t u _ h ih =>
    obtain ⟨k, ih⟩ := ih
    by_cases hw : JustWaits t u
    · exact ⟨k, .idle ih h hw⟩
    · exact ⟨k + 1, .work ih h hw⟩

/-- As long as nothing has failed the processes can do what they can do without failures. -/
theorem KStep.lift {cfg : WalkCfg} {fair : Fair} {s : KAll} {p : PState} (hn : s.Whole) (hst : s.stopping = false) (hl : s.left = false) (h : PStep cfg fair s.calm p) :
    ∃ t, KStep cfg fair s t ∧ (t.left = true ∨ t.calm = p ∧ t.Whole ∧ t.stopping = false ∧ t.left = false) := by
  obtain ⟨q, oq, ws, m, col, hd, left, st, ec, f⟩ := s
  simp only at hst hl
  subst hst hl
  generalize hc : KAll.calm ⟨q, oq, ws, m, col, hd, false, false, ec, f⟩ = c at h
  cases h with
  | @worker q1 oq1 l w r m1 col1 hd1 q' m' w' new hw =>
    simp only [KAll.calm, PState.mk.injEq] at hc
    obtain ⟨rfl, rfl, e, rfl, rfl, rfl⟩ := hc
    obtain ⟨l', r1, rfl, rfl, e1⟩ := List.map_eq_append_iff.1 e
    obtain ⟨x, r', rfl, rfl, rfl⟩ := List.map_eq_cons_iff.1 e1
    clear e e1
    have e : (l'.map KWorker.w ++ r'.map KWorker.w).all (fun w => w.st.isWaiting) = (l' ++ r').all (fun x => x.gone || x.w.st.isWaiting) := by
      rw [← List.map_append, List.all_map, Bool.eq_iff_iff]
      simp only [List.all_eq_true, Function.comp_apply]
      refine forall_congr' fun y => forall_congr' fun hy => ?_
      have : y.gone = false := hn y (by
        simp only [List.mem_append, List.mem_cons] at hy ⊢
        exact hy.imp_right .inr)
      rw [this, Bool.false_or]
    rw [e] at hw
    have hx : x.gone = false := hn x (by simp)
    refine ⟨_, .act rfl (fun h => by rw [hx] at h; cases h) (fun _ _ => rfl) hw, .inr ⟨by simp [KAll.calm], ?_, rfl, rfl⟩⟩
    intro y hy
    simp only [List.mem_append, List.mem_cons] at hy
    rcases hy with hy | rfl | hy
    · exact hn y (by simp [hy])
    · exact hx
    · exact hn y (by simp [hy])
  | @flushOut q1 oq1 l sw b c o r m1 col1 hd1 =>
    simp only [KAll.calm, PState.mk.injEq] at hc
    obtain ⟨rfl, rfl, e, rfl, rfl, rfl⟩ := hc
    obtain ⟨l', r1, rfl, rfl, e1⟩ := List.map_eq_append_iff.1 e
    obtain ⟨⟨w, g⟩, r', rfl, e2, rfl⟩ := List.map_eq_cons_iff.1 e1
    simp only at e2
    subst e2
    refine ⟨_, .flushOut rfl, .inr ⟨by simp [KAll.calm], ?_, rfl, rfl⟩⟩
    intro y hy
    simp only [List.mem_append, List.mem_cons] at hy
    rcases hy with hy | rfl | hy
    · exact hn y (by simp [hy])
    · exact hn ⟨⟨sw, b, c :: o⟩, g⟩ (by simp)
    · exact hn y (by simp [hy])
  | collect =>
    simp only [KAll.calm, PState.mk.injEq] at hc
    obtain ⟨rfl, rfl, rfl, rfl, rfl, rfl⟩ := hc
    exact ⟨_, .collect rfl rfl rfl, .inr ⟨rfl, hn, rfl, rfl⟩⟩
  | mainEmpty h =>
    simp only [KAll.calm, PState.mk.injEq] at hc
    obtain ⟨rfl, rfl, rfl, rfl, rfl, rfl⟩ := hc
    refine ⟨_, .mainEmpty rfl rfl (fun ht => ⟨(h ht).1, fun x hx _ hb => (h ht).2 x.w (List.mem_map_of_mem hx) hb⟩), .inr ⟨?_, hn, rfl, rfl⟩⟩
    simp only [KAll.calm, List.all_map]
    rfl
  | mainTimeout =>
    simp only [KAll.calm, PState.mk.injEq] at hc
    obtain ⟨rfl, rfl, rfl, rfl, rfl, rfl⟩ := hc
    exact ⟨_, .mainTimeout rfl rfl rfl, .inr ⟨rfl, hn, rfl, rfl⟩⟩
  | barrier h hp =>
    simp only [KAll.calm, PState.mk.injEq] at hc
    obtain ⟨rfl, rfl, rfl, rfl, rfl, rfl⟩ := hc
    refine ⟨_, .barrier rfl rfl (fun x hx => ⟨hn x hx, ?_⟩) hp, .inl rfl⟩
    obtain ⟨b, o, e⟩ := h x.w (List.mem_map_of_mem hx)
    rw [e]

theorem KSteps.lift {cfg : WalkCfg} {fair : Fair} {s : KAll} {p0 p : PState} (hc : s.calm = p0) (hn : s.Whole) (hst : s.stopping = false) (hl : s.left = false)
    (h : PSteps cfg fair p0 p) : ∃ t, KSteps cfg fair s t ∧ (t.left = true ∨ t.calm = p ∧ t.Whole ∧ t.stopping = false ∧ t.left = false) := by
  induction h with
  | refl => exact ⟨s, .refl, .inr ⟨hc, hn, hst, hl⟩⟩
  | step _ h ih =>
    obtain ⟨t, h1, h2⟩ := ih
    rcases h2 with h2 | ⟨h2, h3, h4, h5⟩
    · exact ⟨t, h1, .inl h2⟩
    · rw [← h2] at h
      obtain ⟨u, h6, h7⟩ := KStep.lift h3 h4 h5 h
      exact ⟨u, .step h1 h6, h7⟩

/-- What main has not received yet. -/
def outLeft (s : KAll) : Nat := (s.workers.map (fun x => 2 * x.w.outbuf.length)).sum + s.outq.length

theorem gone_ends (cfg : WalkCfg) (fair : Fair) : ∀ (k : Nat) {s : KAll}, outLeft s ≤ k → s.left = false → s.main ≠ .finished → (∃ x ∈ s.workers, x.gone = true) →
    ∃ t, KSteps cfg fair s t ∧ t.left = true := by
  have wait : ∀ {s : KAll} {quiet : Bool}, s.left = false → s.main = .waiting quiet → (∃ x ∈ s.workers, x.gone = true) → ∃ t, KSteps cfg fair s t ∧ t.left = true :=
    fun hl hm hg => ⟨_, .step .refl (.notice hl hm hg), rfl⟩
  intro k
  induction k with
  | zero =>
    intro s hk hl hm hg
    cases e : s.main with
    | finished => exact absurd e hm
    | waiting b => exact wait hl e hg
    | polling =>
      have ho : s.outq = [] := List.length_eq_zero_iff.1 (by simp only [outLeft] at hk; omega)
      have hw : ∀ x ∈ s.workers, x.w.outbuf = [] := by
        intro x hx
        obtain ⟨l, r, hlr⟩ := List.append_of_mem hx
        simp only [outLeft, hlr, List.map_append, List.map_cons, List.sum_append, List.sum_cons] at hk
        exact List.length_eq_zero_iff.1 (by omega)
      obtain ⟨t, h1, h2⟩ := wait (s := { s with main := .waiting (s.workers.all (fun x => !x.w.st.isBusy)) }) hl rfl hg
      exact ⟨t, .head (.mainEmpty hl e (fun _ => ⟨ho, fun x hx _ _ => hw x hx⟩)) h1, h2⟩
  | succ k ih =>
    intro s hk hl hm hg
    cases e : s.main with
    | finished => exact absurd e hm
    | waiting b => exact wait hl e hg
    | polling =>
      cases ho : s.outq with
      | cons c oq =>
        obtain ⟨t, h1, h2⟩ := ih (s := { s with outq := oq, collected := s.collected ++ c })
          (by simp only [outLeft, ho, List.length_cons] at hk ⊢; omega) hl hm hg
        exact ⟨t, .head (.collect hl e ho) h1, h2⟩
      | nil =>
        by_cases hb : ∃ x ∈ s.workers, x.w.outbuf ≠ []
        · obtain ⟨⟨⟨st, b, o⟩, g⟩, hx, hne⟩ := hb
          cases o with
          | nil => exact absurd rfl hne
          | cons c o =>
            obtain ⟨l, r, hlr⟩ := List.append_of_mem hx
            have hg' : ∃ x ∈ (l ++ (⟨⟨st, b, o⟩, g⟩ : KWorker) :: r), x.gone = true := by
              obtain ⟨y, hy, hyg⟩ := hg
              rw [hlr] at hy
              simp only [List.mem_append, List.mem_cons] at hy
              rcases hy with hy | rfl | hy
              · exact ⟨y, by simp [hy], hyg⟩
              · exact ⟨⟨⟨st, b, o⟩, g⟩, by simp, hyg⟩
              · exact ⟨y, by simp [hy], hyg⟩
            obtain ⟨t, h1, h2⟩ := ih (s := { s with outq := s.outq ++ [c], workers := l ++ ⟨⟨st, b, o⟩, g⟩ :: r })
              (by
                simp only [outLeft, hlr, List.map_append, List.map_cons, List.sum_append, List.sum_cons, List.length_cons, List.length_append, List.length_nil] at hk ⊢
                omega) hl hm hg'
            exact ⟨t, .head (.flushOut hlr) h1, h2⟩
        · have hw : ∀ x ∈ s.workers, x.w.outbuf = [] := fun x hx => Classical.byContradiction fun h => hb ⟨x, hx, h⟩
          obtain ⟨t, h1, h2⟩ := wait (s := { s with main := .waiting (s.workers.all (fun x => !x.w.st.isBusy)) }) hl rfl hg
          exact ⟨t, .head (.mainEmpty hl e (fun _ => ⟨ho, fun x hx _ _ => hw x hx⟩)) h1, h2⟩

/-- C130: whatever has failed, the collection can come to its end. -/
theorem C130_no_deadlock (cfg : WalkCfg) (fair : Fair) (roots : List Root) {n : Nat} (hn : 0 < n) {s : KAll} (h : KSteps cfg fair (initCollect (roots.map Root.dir) n) s) :
    ∃ t, KSteps cfg fair s t ∧ t.left = true := by
  have hno := h.notes
  cases hl : s.left with
  | true => exact ⟨s, .refl, hl⟩
  | false =>
    have hm : s.main ≠ .finished := fun hm => by have := (hno.finished hm).1; rw [hl] at this; cases this
    by_cases hw : s.Whole
    · have hst : s.stopping = false := by
        cases e : s.stopping with
        | false => rfl
        | true => exact absurd (hno.whole.2 hw) (hno.four (hno.stops e)).1
      have hp := h.plain.2 hw
      rw [initCollect_calm] at hp
      obtain ⟨p, h1, h2⟩ := C86_collect_no_deadlock cfg fair roots hn hp
      obtain ⟨t, h3, h4⟩ := KSteps.lift rfl hw hst hl h1
      rcases h4 with h4 | ⟨h4, _⟩
      · exact ⟨t, h3, h4⟩
      · refine ⟨t, h3, ((h.trans h3).notes.finished ?_).1⟩
        have : t.calm.main = .finished := by rw [h4]; exact h2
        exact this
    · have hg : ∃ x ∈ s.workers, x.gone = true := by
        refine Classical.byContradiction fun hc => hw fun x hx => ?_
        cases e : x.gone with
        | false => rfl
        | true => exact absurd ⟨x, hx, e⟩ hc
      exact gone_ends cfg fair _ (Nat.le_refl _) hl hm hg

/-- An execution in which the only worker fails by an unexpected error at the beginning. -/
theorem demo_crash (fair : Fair) : KSteps demoCfg fair (initCollect ([demoRoot].map Root.dir) 1)
    { queue := [], outq := [], workers := [⟨⟨.busy [demoRoot.dir] [] [] [], [], []⟩, true⟩], main := .waiting false, collected := [], handed := [], left := true,
      stopping := true, exitcode := 4, failures := 1 } := by
  refine .head (KStep.act (l := []) (r := []) (x := ⟨⟨.idle, [], []⟩, false⟩) rfl (fun h => by cases h) (fun h => by cases h) (WStep.getDirs (ds := [demoRoot.dir]) (q := []))) ?_
  refine .head (KStep.crash (l := []) (r := []) (x := ⟨⟨.busy [demoRoot.dir] [] [] [], [], []⟩, false⟩) rfl rfl (by simp)) ?_
  refine .head (KStep.mainEmpty rfl rfl (fun _ => ⟨rfl, by simp⟩)) ?_
  exact .head (KStep.mainStop (quiet := false) rfl rfl rfl) .refl

/-- The hypotheses of the theorems on failures are met: `C130_status`, `C130_exit`, `C130_exec`, `C130_batch`. -/
example : ∃ s, KSteps demoCfg ⟨true, true⟩ (initCollect ([demoRoot].map Root.dir) 1) s ∧ s.left = true ∧ s.failures ≠ 0 ∧ exitStatus true s.ctx = 4 :=
  ⟨_, demo_crash _, rfl, by simp, rfl⟩

/-- A worker is killed; main notices. -/
example : ∃ s, KSteps demoCfg ⟨true, true⟩ (initCollect ([demoRoot].map Root.dir) 2) s ∧ s.left = true ∧ s.failures = 1 ∧ s.exitcode = 4 := by
  refine ⟨_, .head (KStep.die (l := []) (r := [⟨⟨.idle, [], []⟩, false⟩]) (x := ⟨⟨.idle, [], []⟩, false⟩) rfl rfl (by simp) (by simp))
    (.head (KStep.mainEmpty rfl rfl (fun _ => ⟨rfl, by simp⟩)) (.head (KStep.notice (quiet := true) rfl rfl ⟨⟨⟨.idle, [], []⟩, true⟩, by simp, rfl⟩) .refl)), rfl, rfl, rfl⟩

/-- Without failures: the search of the demo tree comes to its end with both entries. -/
example : ∃ s, KSteps demoCfg ⟨true, true⟩ (initCollect ([demoRoot].map Root.dir) 1) s ∧ s.left = true := C130_no_deadlock demoCfg ⟨true, true⟩ [demoRoot] (by simp) .refl

/-- C130 is false for `Find`: the iteration ends without an exception although the only process has failed and nothing has been found. -/
theorem C130_find_false : ∃ s, KSteps demoCfg ⟨true, true⟩ (initCollect ([demoRoot].map Root.dir) 1) s ∧ s.failures ≠ 0 ∧ s.found = some [] ∧
    Selected demoCfg demoRoot.start demoRoot.base demoRoot.kids demoB := by
  refine ⟨_, demo_crash _, by simp, rfl, ?_⟩
  refine ⟨[.mk "a".toList true [.mk "b".toList false []], .mk "b".toList false []], ?_, ?_, rfl, fun _ _ _ => rfl⟩
  · exact ⟨by simp [demoRoot], rfl, by simp [FNode.kids, Chain]⟩
  · rfl

/-- C130 for `Find`: if no process has failed the iteration yields everything asked for, each once; and in any case only that. -/
theorem C130_find_partial (cfg : WalkCfg) (fair : Fair) (ht : fair.timely = true) (hpr : fair.prompt = true) {roots : List Root} (hok : ∀ r ∈ roots, r.Ok)
    (hnd : (roots.map Root.start).Nodup) {n : Nat} (hn : 0 < n) {s : KAll} (h : KSteps cfg fair (initCollect (roots.map Root.dir) n) s) {es : List EntInfo} (he : s.found = some es) :
    es.Nodup ∧ (∀ i ∈ es, ∃ r ∈ roots, Selected cfg r.start r.base r.kids i) ∧
      (s.failures = 0 → ∀ i, (∃ r ∈ roots, Selected cfg r.start r.base r.kids i) → i ∈ es) := by
  have hl : s.left = true := by
    cases hl : s.left with
    | true => rfl
    | false => simp [KAll.found, hl] at he
  simp only [KAll.found, hl, if_true, Option.some.injEq] at he
  subst he
  obtain ⟨h1, h2⟩ := C130_sound cfg fair hok hnd n h
  exact ⟨h1, h2, fun h0 i hi => ((C130_complete_partial cfg fair ht hpr hok hnd hn h hl ((C130_status cfg fair roots n h hl).1 h0)).2 i).2 hi⟩

end FF
