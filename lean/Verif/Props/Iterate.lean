import Verif.Model.Iterate
import Verif.Props.Walk
/-! C135: iterations over a `Find` object that are given up, and further iterations. -/
namespace FF
open Spec

theorem Passed.len {k : Nat} {ws ws' : List Worker} (h : Passed k ws ws') : ws'.length = ws.length ∧ k ≤ ws.length := by
  induction h with
  | nil => exact ⟨rfl, Nat.le_refl _⟩
  | stay _ ih => simp only [List.length_cons]; omega
  | pass _ ih => simp only [List.length_cons]; omega

theorem Passed.all {k : Nat} {ws ws' : List Worker} (h : Passed k ws ws') (hk : k = ws.length) :
    (∀ w ∈ ws, ∃ b o, w = ⟨.waiting, b, o⟩) ∧ ws' = ws.map (fun w => { w with st := .stopped }) := by
  induction h with
  | nil => exact ⟨by simp, rfl⟩
  | stay h _ => have := h.len; simp only [List.length_cons] at hk; omega
  | @pass k b o ws ws' h ih =>
    simp only [List.length_cons, Nat.add_right_cancel_iff] at hk
    obtain ⟨h1, h2⟩ := ih hk
    refine ⟨?_, by rw [h2]; rfl⟩
    intro w hw
    rcases List.mem_cons.1 hw with rfl | hw
    · exact ⟨b, o, rfl⟩
    · exact h1 w hw

theorem Passed.res {cfg : WalkCfg} {k : Nat} {ws ws' : List Worker} (h : Passed k ws ws') :
    ws'.flatMap (resWorker cfg) = ws.flatMap (resWorker cfg) ∧ ws'.flatMap (fun w => w.outbuf.flatten) = ws.flatMap (fun w => w.outbuf.flatten) := by
  induction h with
  | nil => exact ⟨rfl, rfl⟩
  | stay _ ih => simp only [List.flatMap_cons, ih.1, ih.2, and_self]
  | pass _ ih => simp only [List.flatMap_cons, ih.1, ih.2, resWorker, resState, and_self]

theorem WStep.stops {cfg : WalkCfg} {fair : Fair} {alone : Bool} {q m w new q' m' w'} (h : WStep cfg fair alone (q, m, w) new (q', m', w')) (hw : w'.st = .stopped) :
    w.st = .stopped := by
  generalize hx : (q, m, w) = x at h
  generalize hy : (q', m', w') = y at h
  cases h <;> simp only [Prod.mk.injEq] at hx hy <;> obtain ⟨rfl, rfl, rfl⟩ := hx <;> obtain ⟨rfl, rfl, rfl⟩ := hy <;> first | exact hw | cases hw

theorem WStep.disturbs {cfg : WalkCfg} {fair : Fair} {alone : Bool} {q m w new q' m' w'} (h : WStep cfg fair alone (q, m, w) new (q', m', w')) : m' = m ∨ m' = m.disturb := by
  generalize hx : (q, m, w) = x at h
  generalize hy : (q', m', w') = y at h
  cases h <;> simp only [Prod.mk.injEq] at hx hy <;> obtain ⟨rfl, rfl, rfl⟩ := hx <;> obtain ⟨rfl, rfl, rfl⟩ := hy <;> first | exact .inl rfl | exact .inr rfl

/-- The first iteration: as many workers as were started, and none has stopped while main goes on. -/
structure Alone (n : Nat) (s : PState) : Prop where
  len : s.workers.length = n
  run : s.main ≠ .finished → ∀ w ∈ s.workers, w.st ≠ .stopped

theorem Alone.lstep {cfg : WalkCfg} {fair : Fair} {n : Nat} {s t : PState} (h : RestStep cfg fair (n + 1) s t) (hs : Alone n s) : Alone n t ∧ PStep cfg fair s t := by
  cases h with
  | @worker q outq l w r m col handed q' m' w' new hw =>
    refine ⟨⟨by have := hs.len; simpa using this, ?_⟩, .worker hw⟩
    intro hm x hx hst
    have hm0 : m ≠ .finished := by
      rintro rfl
      rcases hw.disturbs with h | h <;> exact hm h
    rcases List.mem_append.1 hx with hx | hx
    · exact hs.run hm0 x (by simp [hx]) hst
    · rcases List.mem_cons.1 hx with rfl | hx
      · exact hs.run hm0 w (by simp) (hw.stops hst)
      · exact hs.run hm0 x (by simp [hx]) hst
  | @flushOut q outq l st b c o r m col handed =>
    refine ⟨⟨by have := hs.len; simpa using this, ?_⟩, .flushOut⟩
    intro hm x hx hst
    rcases List.mem_append.1 hx with hx | hx
    · exact hs.run hm x (by simp [hx]) hst
    · rcases List.mem_cons.1 hx with rfl | hx
      · exact hs.run hm ⟨st, b, c :: o⟩ (by simp) hst
      · exact hs.run hm x (by simp [hx]) hst
  | pass hp =>
    have := hp.len.2
    have := hs.len
    simp only at this
    omega

theorem Alone.istep {cfg : WalkCfg} {fair : Fair} {n : Nat} {s t : PState} (h : FindStep cfg fair (n + 1) s t) (hs : Alone n s) : Alone n t ∧ PStep cfg fair s t := by
  cases h with
  | other h => exact hs.lstep h
  | collect => exact ⟨⟨hs.len, fun _ => hs.run (fun h => by cases h)⟩, .collect⟩
  | mainEmpty h => exact ⟨⟨hs.len, fun _ => hs.run (fun h => by cases h)⟩, .mainEmpty h⟩
  | mainTimeout => exact ⟨⟨hs.len, fun _ => hs.run (fun h => by cases h)⟩, .mainTimeout⟩
  | @passMain q outq ws ws' k col handed quiet hp hk hf =>
    obtain ⟨h1, h2⟩ := hp.all (by have := hs.len; simp only at this; omega)
    subst h2
    refine ⟨⟨by have := hs.len; simpa using this, fun h => absurd rfl h⟩, .barrier h1 ?_⟩
    intro hpr
    rcases hf hpr with h | ⟨w, hw, hb⟩
    · exact h
    · obtain ⟨x, _, rfl⟩ := List.mem_map.1 hw
      cases hb
  | notice h =>
    obtain ⟨w, hw, hst⟩ := h
    exact absurd hst (hs.run (fun h => by cases h) w hw)

theorem Alone.init (roots : List DirT) (n : Nat) : Alone n (initState roots n) := by
  refine ⟨by simp [initState], ?_⟩
  intro _ w hw h
  simp only [initState, List.mem_replicate] at hw
  rw [hw.2] at h
  cases h

theorem FindSteps.first {cfg : WalkCfg} {fair : Fair} {n : Nat} {s t : PState} (hs : Alone n s) (h : FindSteps cfg fair (n + 1) s t) : Alone n t ∧ PSteps cfg fair s t := by
  induction h with
  | refl => exact ⟨hs, .refl⟩
  | step _ h ih => exact ⟨(ih.1.istep h).1, .step ih.2 (ih.1.istep h).2⟩

/-- C135: the first iteration is that of C11 and C88. -/
theorem C135_first (cfg : WalkCfg) (fair : Fair) (roots : List DirT) (n : Nat) (s : PState) :
    FindSteps cfg fair (n + 1) (initState roots n) s ↔ PSteps cfg fair (initState roots n) s := by
  constructor
  · exact fun h => (h.first (Alone.init roots n)).2
  · intro h
    induction h with
    | refl => exact .refl
    | step _ hs ih =>
      refine .step ih ?_
      have ha := (ih.first (Alone.init roots n)).1
      cases hs with
      | worker h => exact .other (.worker h)
      | flushOut => exact .other .flushOut
      | collect => exact .collect
      | mainEmpty h => exact .mainEmpty h
      | mainTimeout => exact .mainTimeout
      | @barrier q outq ws col handed quiet hw hp =>
        have hall : ∀ ws : List Worker, (∀ w ∈ ws, ∃ b o, w = ⟨.waiting, b, o⟩) → Passed ws.length ws (ws.map (fun w => { w with st := .stopped })) := by
          intro ws
          induction ws with
          | nil => exact fun _ => .nil
          | cons w ws ih =>
            intro h
            obtain ⟨b, o, rfl⟩ := h w (by simp)
            exact .pass (ih (fun x hx => h x (by simp [hx])))
        exact .passMain (hall ws hw) (by have := ha.len; simp only at this; omega) (fun h => .inl (hp h))

/-! ### What is yielded -/

/-- Nothing is added. -/
structure Kept (cfg : WalkCfg) (all : List EntInfo) (s : PState) : Prop where
  todo : ∀ p : EntInfo → Bool, List.countP p s.handed + List.countP p (pendingRes cfg s) = List.countP p all
  out : ∀ p : EntInfo → Bool, List.countP p s.collected + List.countP p (outPending s) ≤ List.countP p s.handed

theorem Kept.pstep {cfg : WalkCfg} {fair : Fair} {all : List EntInfo} {s t : PState} (h : PStep cfg fair s t) (hs : Kept cfg all s) : Kept cfg all t := by
  refine ⟨fun p => ?_, fun p => ?_⟩
  · rw [h.conserve p, hs.todo p]
  · have := h.out p
    have := hs.out p
    omega

theorem Kept.same {cfg : WalkCfg} {all : List EntInfo} {s t : PState} (hs : Kept cfg all s) (h1 : t.handed = s.handed) (h2 : t.collected = s.collected)
    (h3 : pendingRes cfg t = pendingRes cfg s) (h4 : outPending t = outPending s) : Kept cfg all t :=
  ⟨fun p => by rw [h1, h3]; exact hs.todo p, fun p => by rw [h1, h2, h4]; exact hs.out p⟩

theorem Kept.istep {cfg : WalkCfg} {fair : Fair} {k : Nat} {all : List EntInfo} {s t : PState} (h : FindStep cfg fair k s t) (hs : Kept cfg all s) : Kept cfg all t := by
  cases h with
  | other h =>
    cases h with
    | worker h => exact hs.pstep (.worker h)
    | flushOut => exact hs.pstep (fair := fair) .flushOut
    | pass h => exact hs.same rfl rfl (by simp only [pendingRes, (h.res (cfg := cfg)).1]) (by simp only [outPending, (h.res (cfg := cfg)).2])
  | collect => exact hs.pstep (fair := fair) .collect
  | mainEmpty h => exact hs.pstep (.mainEmpty h)
  | mainTimeout => exact hs.pstep (fair := fair) .mainTimeout
  | passMain h _ _ => exact hs.same rfl rfl (by simp only [pendingRes, (h.res (cfg := cfg)).1]) (by simp only [outPending, (h.res (cfg := cfg)).2])
  | notice _ => exact hs.same rfl rfl rfl rfl

theorem idle_res (cfg : WalkCfg) (n : Nat) : (List.replicate n (⟨.idle, [], []⟩ : Worker)).flatMap (resWorker cfg) = [] ∧
    (List.replicate n (⟨.idle, [], []⟩ : Worker)).flatMap (fun w => w.outbuf.flatten) = [] := by
  induction n with
  | zero => exact ⟨rfl, rfl⟩
  | succ n ih => simp only [List.replicate_succ, List.flatMap_cons, ih.1, ih.2, resWorker, resState, List.flatMap_nil, List.flatten_nil, List.append_nil, and_self]

theorem Kept.init (cfg : WalkCfg) (roots : List DirT) (n : Nat) : Kept cfg (roots.flatMap (resDir cfg)) (initState roots n) := by
  refine ⟨fun p => by rw [init_pending]; simp [initState], fun p => ?_⟩
  simp only [outPending, initState, (idle_res cfg n).2, List.flatten_nil, List.append_nil, List.countP_nil, Nat.add_zero, Nat.le_refl]

theorem Kept.again {cfg : WalkCfg} {all : List EntInfo} {s t : PState} {n : Nat} (h : findAgain n false s = some t) (hs : Kept cfg all s) : Kept cfg all t := by
  simp only [findAgain, Bool.false_eq_true, if_false, Option.some.injEq] at h
  subst h
  refine hs.same rfl rfl ?_ ?_
  · simp only [pendingRes, List.flatMap_append, (idle_res cfg n).1, List.append_nil]
  · simp only [outPending, List.flatMap_append, (idle_res cfg n).2, List.append_nil]

theorem Kept.fstep {cfg : WalkCfg} {fair : Fair} {n : Nat} {all : List EntInfo} {s t : PState × Bool} (h : LifeStep cfg fair n s t) (hs : Kept cfg all s.1) :
    Kept cfg all t.1 := by
  cases h with
  | go h => exact hs.istep h
  | rest h => exact hs.istep (.other h)
  | again h => exact hs.again h
  | @giveUp q c outq ws col handed k hk hl =>
    refine ⟨hs.todo, fun p => ?_⟩
    have h1 := hs.out p
    have h2 : List.countP p (c.take k) + List.countP p (c.drop k) = List.countP p c := by rw [← List.countP_append, List.take_append_drop]
    simp only [outPending, List.flatten_cons, List.countP_append] at h1 ⊢
    omega

theorem LifeSteps.kept {cfg : WalkCfg} {fair : Fair} {n : Nat} {all : List EntInfo} {s t : PState × Bool} (h : LifeSteps cfg fair n s t) (hs : Kept cfg all s.1) :
    Kept cfg all t.1 := by
  induction h with
  | refl => exact hs
  | step _ h ih => exact ih.fstep h

/-- C135: over all iterations of a `Find` object without sort, whenever they are given up and however often they are begun again, nothing is yielded twice or
without being asked for. -/
theorem C135_sound (cfg : WalkCfg) (fair : Fair) {roots : List Root} (hok : ∀ r ∈ roots, r.Ok) (hnd : (roots.map Root.start).Nodup) (n : Nat) {s : PState} {away : Bool}
    (h : LifeSteps cfg fair n (initState (roots.map Root.dir) n, false) (s, away)) :
    s.collected.Nodup ∧ ∀ i ∈ s.collected, ∃ r ∈ roots, Selected cfg r.start r.base r.kids i := by
  have hk : Kept cfg _ s := h.kept (Kept.init cfg (roots.map Root.dir) n)
  have hc : ∀ p, List.countP p s.collected ≤ List.countP p ((roots.map Root.dir).flatMap (resDir cfg)) := by
    intro p
    have := hk.todo p
    have := hk.out p
    omega
  constructor
  · rw [List.nodup_iff_count]
    intro a
    have := hc (· == a)
    have h2 := List.nodup_iff_count.1 (roots_nodup cfg hok hnd) a
    simp only [List.count] at h2 ⊢
    omega
  · intro i hi
    rw [← roots_mem cfg hok]
    have := hc (· == i)
    have h1 : 0 < List.countP (· == i) s.collected := List.countP_pos_iff.2 ⟨i, hi, by simp⟩
    obtain ⟨j, hj, hij⟩ := List.countP_pos_iff.1 (show 0 < List.countP (· == i) ((roots.map Root.dir).flatMap (resDir cfg)) by omega)
    simp only [beq_iff_eq] at hij
    exact hij ▸ hj

/-! ### The processes -/

/-- C135 is false for the processes: if the first iteration is given up, in no execution does any of them ever come to its end (until python itself does). -/
theorem C135_running_false (cfg : WalkCfg) (fair : Fair) (roots : List DirT) (n : Nat) {s s1 t : PState} (h : FindSteps cfg fair (n + 1) (initState roots n) s)
    (hg : LifeStep cfg fair n (s, false) (s1, true)) (hl : RestSteps cfg fair (n + 1) s1 t) : t.workers.length = n ∧ ∀ w ∈ t.workers, w.st ≠ .stopped := by
  have hs0 := (h.first (Alone.init roots n)).1
  obtain ⟨hs, hm⟩ : Alone n s1 ∧ s1.main = .polling := by
    cases hg
    exact ⟨⟨hs0.len, hs0.run⟩, rfl⟩
  have : Alone n t ∧ t.main = .polling := by
    induction hl with
    | refl => exact ⟨hs, hm⟩
    | step _ h ih =>
      refine ⟨(ih.1.lstep h).1, ?_⟩
      cases h with
      | worker hw =>
        have hp := ih.2
        simp only at hp
        subst hp
        rcases hw.disturbs with h | h <;> exact h
      | flushOut => exact ih.2
      | pass _ => exact ih.2
  exact ⟨this.1.len, this.1.run (by rw [this.2]; intro h; cases h)⟩

/-! ### Sorted results -/

/-- Everything has been done. -/
structure Done (s : PState) : Prop where
  queue : s.queue = []
  outq : s.outq = []
  workers : ∀ w ∈ s.workers, w.buf = [] ∧ w.outbuf = [] ∧ w.st.isBusy = false

theorem Passed.rest {k : Nat} {ws ws' : List Worker} (h : Passed k ws ws') (hw : ∀ w ∈ ws, w.buf = [] ∧ w.outbuf = [] ∧ w.st.isBusy = false) :
    ∀ w ∈ ws', w.buf = [] ∧ w.outbuf = [] ∧ w.st.isBusy = false := by
  induction h with
  | nil => exact hw
  | stay _ ih =>
    intro x hx
    rcases List.mem_cons.1 hx with rfl | hx
    · exact hw x (by simp)
    · exact ih (fun w h => hw w (by simp [h])) x hx
  | pass _ ih =>
    intro x hx
    rcases List.mem_cons.1 hx with rfl | hx
    · have := hw _ (List.mem_cons_self ..)
      exact ⟨this.1, this.2.1, rfl⟩
    · exact ih (fun w h => hw w (by simp [h])) x hx

theorem Done.istep {cfg : WalkCfg} {fair : Fair} {k : Nat} {s t : PState} (h : FindStep cfg fair k s t) (hs : Done s) : Done t ∧ t.collected = s.collected := by
  cases h with
  | other h =>
    cases h with
    | @worker q outq l w r m col handed q' m' w' new hw =>
      obtain ⟨h1, h2, h3⟩ := hs.workers w (by simp)
      have hq := hs.queue
      have key : q' = [] ∧ w'.buf = [] ∧ w'.outbuf = [] ∧ w'.st.isBusy = false := by
        simp only at hq
        subst hq
        generalize hx : (([] : List Chunk), m, w) = x at hw
        generalize hy : (q', m', w') = y at hw
        cases hw <;> simp only [Prod.mk.injEq] at hx hy <;> obtain ⟨hx1, rfl, rfl⟩ := hx <;> obtain ⟨rfl, rfl, rfl⟩ := hy <;>
          first
            | (cases hx1; done)
            | (cases h3; done)
            | (cases h1; done)
            | exact ⟨hx1.symm, h1, h2, rfl⟩
      refine ⟨⟨key.1, hs.outq, ?_⟩, rfl⟩
      intro x hx
      rcases List.mem_append.1 hx with hx | hx
      · exact hs.workers x (by simp [hx])
      · rcases List.mem_cons.1 hx with rfl | hx
        · exact key.2
        · exact hs.workers x (by simp [hx])
    | @flushOut q outq l st b c o r m col handed =>
      have := (hs.workers ⟨st, b, c :: o⟩ (by simp)).2.1
      cases this
    | pass h => exact ⟨⟨hs.queue, hs.outq, h.rest hs.workers⟩, rfl⟩
  | collect => have := hs.outq; cases this
  | mainEmpty h => exact ⟨⟨hs.queue, hs.outq, hs.workers⟩, rfl⟩
  | mainTimeout => exact ⟨⟨hs.queue, hs.outq, hs.workers⟩, rfl⟩
  | passMain h _ _ => exact ⟨⟨hs.queue, hs.outq, h.rest hs.workers⟩, rfl⟩
  | notice _ => exact ⟨⟨hs.queue, hs.outq, hs.workers⟩, rfl⟩

theorem Passed.keep (l : List Worker) {k : Nat} {ws ws' : List Worker} (h : Passed k ws ws') : Passed k (l ++ ws) (l ++ ws') := by
  induction l with
  | nil => exact h
  | cons w l ih => exact .stay ih

theorem FindSteps.then {cfg : WalkCfg} {fair : Fair} {k : Nat} {s t u : PState} (h1 : FindSteps cfg fair k s t) (h2 : FindSteps cfg fair k t u) : FindSteps cfg fair k s u := by
  induction h2 with
  | refl => exact h1
  | step _ h ih => exact .step ih h

theorem all_wait (cfg : WalkCfg) (fair : Fair) (k : Nat) (outq : List (List EntInfo)) (m : MState) (col handed : List EntInfo) : ∀ (n : Nat) (l : List Worker),
    FindSteps cfg fair k ⟨[], outq, l ++ List.replicate n ⟨.idle, [], []⟩, m, col, handed⟩ ⟨[], outq, l ++ List.replicate n ⟨.waiting, [], []⟩, m, col, handed⟩ := by
  intro n
  induction n with
  | zero => exact fun l => .refl
  | succ n ih =>
    intro l
    simp only [List.replicate_succ]
    have h1 : FindStep cfg fair k ⟨[], outq, l ++ ⟨.idle, [], []⟩ :: List.replicate n ⟨.idle, [], []⟩, m, col, handed⟩
        ⟨[], outq, l ++ ⟨.waiting, [], []⟩ :: List.replicate n ⟨.idle, [], []⟩, m, col, handed ++ []⟩ :=
      .other (.worker (.empty (fun _ => ⟨rfl, fun _ => rfl⟩)))
    rw [List.append_nil] at h1
    have h2 := ih (l ++ [⟨.waiting, [], []⟩])
    simp only [List.append_assoc, List.singleton_append] at h2
    exact (FindSteps.step .refl h1).then h2

/-- C135 for sorted results (partial, under the timing assumptions of C11): the records are yielded only when all processes have come to their end; if the iteration
is given up then and begun again, the entries at its end are the same, and it can come to its end. -/
theorem C135_sorted_partial (cfg : WalkCfg) (fair : Fair) (ht : fair.timely = true) (hpr : fair.prompt = true) (roots : List DirT) {n : Nat} (hn : 0 < n)
    {s : PState} (h : FindSteps cfg fair (n + 1) (initState roots n) s) (hfin : s.main = .finished) :
    (∀ w ∈ s.workers, w.st = .stopped) ∧
    ∃ s', findAgain n false s = some s' ∧ (∀ t, FindSteps cfg fair (n + 1) s' t → t.collected = s.collected) ∧
      ∃ t, FindSteps cfg fair (n + 1) s' t ∧ t.main = .finished := by
  have hp := (h.first (Alone.init roots n)).2
  have hc := (Calm.init roots hn).steps ht hp
  have hq : Quiet s := Quiet.steps ht hpr (Calm.init roots hn) ⟨(fun h => by cases h), (fun h => by cases h)⟩ hp
  obtain ⟨c1, c2⟩ := hc.fin hfin
  obtain ⟨q1, q2⟩ := hq.fin hfin
  have hd : Done s := ⟨c1, q1, fun w hw => ⟨(c2 w hw).2, (q2 w hw).2, by rw [(c2 w hw).1]; rfl⟩⟩
  refine ⟨fun w hw => (c2 w hw).1, _, rfl, ?_, ?_⟩
  · have hd' : Done { s with workers := s.workers ++ List.replicate n ⟨.idle, [], []⟩, main := .polling } := by
      refine ⟨hd.queue, hd.outq, ?_⟩
      intro w hw
      rcases List.mem_append.1 hw with hw | hw
      · exact hd.workers w hw
      · rw [(List.mem_replicate.1 hw).2]; exact ⟨rfl, rfl, rfl⟩
    intro t h
    have : Done t ∧ t.collected = s.collected := by
      induction h with
      | refl => exact ⟨hd', rfl⟩
      | step _ h ih => exact ⟨(ih.1.istep h).1, (ih.1.istep h).2.trans ih.2⟩
    exact this.2
  · obtain ⟨q, outq, ws, m, col, handed⟩ := s
    simp only at c1 q1
    subst c1 q1
    have hpass : ∀ n, Passed n (List.replicate n (⟨.waiting, [], []⟩ : Worker)) (List.replicate n ⟨.stopped, [], []⟩) := by
      intro n
      induction n with
      | zero => exact .nil
      | succ n ih => exact .pass ih
    have hall : (ws ++ List.replicate n (⟨.waiting, [], []⟩ : Worker)).all (fun w => !w.st.isBusy) = true := by
      rw [List.all_eq_true]
      intro w hw
      rcases List.mem_append.1 hw with hw | hw
      · rw [(hd.workers w hw).2.2]; rfl
      · rw [(List.mem_replicate.1 hw).2]; rfl
    refine ⟨_, .step (.step (all_wait cfg fair (n + 1) [] .polling col handed n ws) (.mainEmpty (fun _ => ⟨rfl, ?_⟩))) (.passMain ((hpass n).keep ws) rfl
      (fun _ => .inl hall)), rfl⟩
    intro w hw _
    rcases List.mem_append.1 hw with hw | hw
    · exact (hd.workers w hw).2.1
    · rw [(List.mem_replicate.1 hw).2]

/-! ### Counterexamples -/

theorem LifeSteps.head {cfg : WalkCfg} {fair : Fair} {n : Nat} {s t u : PState × Bool} (h : LifeStep cfg fair n s t) (hs : LifeSteps cfg fair n t u) : LifeSteps cfg fair n s u := by
  induction hs with
  | refl => exact .step .refl h
  | step _ h ih => exact .step ih h

theorem LifeStep.one {cfg : WalkCfg} {fair : Fair} {n q outq m w col handed q' m' w' new} (h : WStep cfg fair true (q, m, w) new (q', m', w')) :
    LifeStep cfg fair n (⟨q, outq, [w], m, col, handed⟩, false) (⟨q', outq, [w'], m', col, handed ++ new⟩, false) :=
  .go (.other (.worker (l := []) (r := []) h))

/-- C135 is false: if the first iteration is given up after the directory a, and begun again while a process is about to look into it, the second iteration can end
before a/b is found, under all timing assumptions. -/
theorem C135_lost_false : ∃ s, LifeSteps demoCfg ⟨true, true⟩ 1 (initState ([demoRoot].map Root.dir) 1, false) (s, false) ∧ s.main = .finished ∧ s.collected = [demoA] ∧
    Selected demoCfg demoRoot.start demoRoot.base demoRoot.kids demoB := by
  have hs := demo_scan demoCfg.isIgnoreFile rfl
  have hscan1 := WStep.scan (cfg := demoCfg) (fair := ⟨true, true⟩) (alone := true) (d := demoRoot.dir) (todo := []) (q := []) (m := .polling) (b := []) (o := [])
  rw [hs.1] at hscan1
  refine ⟨⟨[], [], [⟨.busy [demoDirA] [] [] [], [], []⟩, ⟨.stopped, [], []⟩], .finished, [demoA], [demoA]⟩, ?_, rfl, rfl, ?_⟩
  · refine .head (.one (WStep.getDirs (ds := [demoRoot.dir]))) ?_
    refine .head (.one hscan1) ?_
    refine .head (.one (WStep.test (e := demoEntA))) ?_
    refine .head (.one (WStep.put (search := [demoDirA]) (by simp))) ?_
    refine .head (.one (WStep.hand (process := [demoA]) (by simp))) ?_
    refine .head (.one WStep.finish) ?_
    refine .head (.one (WStep.flush (c := .dirs [demoDirA]))) ?_
    refine .head (.go (.other (.flushOut (l := []) (r := []) (c := [demoA])))) ?_
    refine .head (.giveUp (c := [demoA]) (k := 1) (by decide) (by decide)) ?_
    refine .head (.rest (.worker (l := []) (r := []) (WStep.getDirs (ds := [demoDirA])))) ?_
    refine .head (.again rfl) ?_
    refine .head (.go (.other (.worker (l := [⟨.busy [demoDirA] [] [] [], [], []⟩]) (r := []) (w := ⟨.idle, [], []⟩) (WStep.empty (fun _ => ⟨rfl, fun h => by cases h⟩))))) ?_
    refine .head (.go (.mainEmpty (fun _ => ⟨rfl, by simp [WState.isBusy]⟩))) ?_
    exact .head (.go (.passMain (.stay (.pass .nil)) rfl (fun _ => .inr ⟨_, List.mem_cons_self .., rfl⟩))) .refl
  · refine ⟨[.mk "a".toList true [.mk "b".toList false []], .mk "b".toList false []], ?_, ?_, rfl, fun _ _ _ => rfl⟩
    · exact ⟨by simp [demoRoot], rfl, by simp [FNode.kids, Chain]⟩
    · rfl

/-- A directory with the files b and c. -/
def demoPair : Root := ⟨demoStart, [], [.mk "b".toList false [], .mk "c".toList false []]⟩
def demoPairB : EntInfo := ⟨demoStart, "b".toList, false, []⟩
def demoPairC : EntInfo := ⟨demoStart, "c".toList, false, []⟩

theorem Done.fsteps {cfg : WalkCfg} {fair : Fair} {n : Nat} {s t : PState × Bool} (h : LifeSteps cfg fair n s t) (hs : Done s.1) : Done t.1 ∧ t.1.collected = s.1.collected := by
  induction h with
  | refl => exact ⟨hs, rfl⟩
  | step _ h ih =>
    cases h with
    | go h => exact ⟨(ih.1.istep h).1, (ih.1.istep h).2.trans ih.2⟩
    | rest h => exact ⟨(ih.1.istep (.other h)).1, (ih.1.istep (.other h)).2.trans ih.2⟩
    | giveUp _ _ => have := ih.1.outq; cases this
    | @again u _ h =>
      simp only [findAgain, Bool.false_eq_true, if_false, Option.some.injEq] at h
      subst h
      refine ⟨⟨ih.1.queue, ih.1.outq, ?_⟩, ih.2⟩
      intro w hw
      rcases List.mem_append.1 hw with hw | hw
      · exact ih.1.workers w hw
      · rw [(List.mem_replicate.1 hw).2]; exact ⟨rfl, rfl, rfl⟩

/-- C135 is false: entries are sent in chunks; if the iteration is given up after the first entry of a chunk, no further iteration ever yields the others, whatever
happens. -/
theorem C135_chunk_false : ∃ s, LifeSteps demoCfg ⟨true, true⟩ 1 (initState ([demoPair].map Root.dir) 1, false) (s, true) ∧ s.collected = [demoPairB] ∧
    Selected demoCfg demoPair.start demoPair.base demoPair.kids demoPairC ∧
    ∀ fair t, LifeSteps demoCfg fair 1 (s, true) t → t.1.collected = [demoPairB] := by
  have hscan := WStep.scan (cfg := demoCfg) (fair := ⟨true, true⟩) (alone := true) (d := demoPair.dir) (todo := []) (q := []) (m := .polling) (b := []) (o := [])
  rw [show scanDirectory demoCfg.isIgnoreFile demoPair.dir = [⟨demoPairB, []⟩, ⟨demoPairC, []⟩] from rfl] at hscan
  refine ⟨⟨[], [], [⟨.idle, [], []⟩], .polling, [demoPairB], [demoPairB, demoPairC]⟩, ?_, rfl, ?_, ?_⟩
  · refine .head (.one (WStep.getDirs (ds := [demoPair.dir]))) ?_
    refine .head (.one hscan) ?_
    refine .head (.one (WStep.test (e := ⟨demoPairB, []⟩))) ?_
    refine .head (.one (WStep.test (e := ⟨demoPairC, []⟩))) ?_
    refine .head (.one (WStep.hand (process := [demoPairB, demoPairC]) (by simp))) ?_
    refine .head (.one WStep.finish) ?_
    refine .head (.go (.other (.flushOut (l := []) (r := []) (c := [demoPairB, demoPairC])))) ?_
    exact .head (.giveUp (c := [demoPairB, demoPairC]) (k := 1) (by decide) (by decide)) .refl
  · refine ⟨[.mk "c".toList false []], ?_, rfl, rfl, fun _ _ _ => rfl⟩
    simp [demoPair, Chain]
  · intro fair t h
    exact (Done.fsteps h ⟨rfl, rfl, by intro w hw; rw [List.mem_singleton.1 hw]; exact ⟨rfl, rfl, rfl⟩⟩).2

/-- C135 is false: after an iteration that has come to its end there is a ValueError. -/
theorem C135_closed_false : ∃ s, FindSteps demoCfg ⟨true, true⟩ 2 (initState [demoRoot.dir] 1) s ∧ s.main = .finished ∧ findAgain 1 true s = none :=
  ⟨_, (C135_first demoCfg ⟨true, true⟩ [demoRoot.dir] 1 _).2 demo_run, rfl, rfl⟩

/-- The hypotheses of C135 can be met. -/
example : [demoRoot].all (fun _ => true) ∧ (∀ r ∈ [demoRoot], r.Ok) ∧ ([demoRoot].map Root.start).Nodup ∧
    ∃ s, FindSteps demoCfg ⟨true, true⟩ 2 (initState [demoRoot.dir] 1) s ∧ s.main = .finished ∧ s.collected = [demoA, demoB] :=
  ⟨rfl, by intro r hr; rw [List.mem_singleton.1 hr]; exact demoRoot_ok, by simp, _, (C135_first demoCfg ⟨true, true⟩ [demoRoot.dir] 1 _).2 demo_run, rfl, rfl⟩

/-- An iteration that is given up. -/
example : LifeStep demoCfg ⟨true, true⟩ 1 (⟨[], [[demoPairB, demoPairC]], [⟨.idle, [], []⟩], .polling, [], [demoPairB, demoPairC]⟩, false)
    (⟨[], [], [⟨.idle, [], []⟩], .polling, [demoPairB], [demoPairB, demoPairC]⟩, true) :=
  .giveUp (c := [demoPairB, demoPairC]) (k := 1) (by decide) (by decide)

end FF
