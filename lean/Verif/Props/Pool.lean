import Verif.Spec.Pool
/-! Property C89: commands of `-x` after the entries have been collected. -/
namespace FF
open Spec

/-- The command of a thread. -/
def PThread.cmd {α : Type} : PThread α → List α
  | .running a => [a]
  | _ => []

/-- The operations a thread is about to do. -/
def PThread.ops {α : Type} : PThread α → List Op
  | .after ops => ops
  | _ => []

/-- A thread that has not left the loop. -/
def PThread.live {α : Type} : PThread α → Nat
  | .done => 0
  | _ => 1

/-- What holds in every state. -/
structure PoolInv {ε α : Type} (halt : Halt) (render : ε → Option α) (n : Nat) (ctx0 : Ctx) (entries : List ε) (s : Pool ε α) : Prop where
  len : s.threads.length = n
  jobs : s.started ++ (s.queue.filterMap id ++ s.todo.filterMap render) = entries.filterMap render
  shape : ∃ (A : List α) (k : Nat), s.queue = A.map some ++ List.replicate k none ∧ (0 < k → s.todo = [])
  finished : s.ctx.stopping = true ∨ ∀ t ∈ s.threads, t = .done → s.todo = [] ∧ s.queue.filterMap id = []
  live : (s.threads.map PThread.live).sum ≤ s.queue.countP (fun x => x.isNone) + s.sentinels
  run : s.started.Perm (s.ended.map Prod.fst ++ s.threads.flatMap PThread.cmd)
  known : ∀ o ∈ s.threads.flatMap PThread.ops, o = .setExit 3 ∨ o = .incFailed ∨ o = .incSucceeded ∨ o = .stop
  exit : (s.ctx.exitcode = ctx0.exitcode ∨ s.ctx.exitcode = 3) ∧
    ((s.ctx.exitcode = 3 ∨ .setExit 3 ∈ s.threads.flatMap PThread.ops) ↔ (ctx0.exitcode = 3 ∨ SomeFailed s))
  stop : (s.ctx.stopping = true ∨ .stop ∈ s.threads.flatMap PThread.ops) ↔ (ctx0.stopping = true ∨ (halt = .soon ∨ halt = .now) ∧ SomeFailed s)
  failed : s.ctx.failed + (s.threads.flatMap PThread.ops).count .incFailed = ctx0.failed + s.ended.countP (fun x => x.2 ≠ 0)
  succeeded : s.ctx.succeeded + (s.threads.flatMap PThread.ops).count .incSucceeded = ctx0.succeeded + s.ended.countP (fun x => x.2 = 0)
  result : s.ctx.hasResult = ctx0.hasResult

theorem poolInv_start {ε α : Type} (halt : Halt) (render : ε → Option α) (n : Nat) (ctx0 : Ctx) (entries : List ε) :
    PoolInv halt render n ctx0 entries (Pool.start n ctx0 entries) := by
  have hops : (List.replicate n (PThread.top (α := α))).flatMap PThread.ops = [] := by
    simp [List.flatMap_replicate, PThread.ops]
  have hcmd : (List.replicate n (PThread.top (α := α))).flatMap PThread.cmd = [] := by
    simp [List.flatMap_replicate, PThread.cmd]
  refine ⟨by simp [Pool.start], by simp [Pool.start], ⟨[], 0, by simp [Pool.start]⟩, .inr ?_, ?_, ?_, ?_, ⟨.inl rfl, ?_⟩, ?_, ?_, ?_, rfl⟩
  · intro t ht h
    simp [Pool.start] at ht
    rw [ht.2] at h; cases h
  · simp [Pool.start, PThread.live]
  · simp [Pool.start, hcmd]
  · simp [Pool.start, hops]
  · simp [Pool.start, hops, SomeFailed]
  · simp [Pool.start, hops, SomeFailed]
  · simp [Pool.start, hops]
  · simp [Pool.start, hops]

theorem execOps_known {halt : Halt} {x : Int} {o : Op} (h : o ∈ execOps halt x) : o = .setExit 3 ∨ o = .incFailed ∨ o = .incSucceeded ∨ o = .stop := by
  unfold execOps at h
  split at h
  · split at h
    · simp at h
      rcases h with h | h | h <;> simp [h]
    · simp at h
      rcases h with h | h <;> simp [h]
  · simp at h; simp [h]

theorem execOps_exit (halt : Halt) (x : Int) : .setExit 3 ∈ execOps halt x ↔ x ≠ 0 := by
  unfold execOps
  split
  · rename_i h; simp [h]
  · rename_i h; simpa using h

theorem execOps_stop (halt : Halt) (x : Int) : .stop ∈ execOps halt x ↔ (halt = .soon ∨ halt = .now) ∧ x ≠ 0 := by
  unfold execOps
  split
  · rename_i h
    split
    · rename_i h2; simp [h, h2]
    · rename_i h2; simp [h, h2]
  · rename_i h
    simp at h; simp [h]

theorem execOps_failed (halt : Halt) (x : Int) : (execOps halt x).count .incFailed = if x ≠ 0 then 1 else 0 := by
  unfold execOps
  split
  · split <;> decide
  · decide

theorem execOps_succeeded (halt : Halt) (x : Int) : (execOps halt x).count .incSucceeded = if x ≠ 0 then 0 else 1 := by
  unfold execOps
  split
  · split <;> decide
  · decide

theorem poolInv_step {ε α : Type} {halt : Halt} {render : ε → Option α} {n : Nat} {ctx0 : Ctx} {entries : List ε} {work : Bool} {s t : Pool ε α}
    (h : PoolInv halt render n ctx0 entries s) (hs : PoolStep halt render work s t) : PoolInv halt render n ctx0 entries t := by
  obtain ⟨h1, h2, h3, h4, h5, h6, h7, h8, h9, h10, h11, h12⟩ := h
  cases hs with
  | @add e a todo n q ts j ctx st en he =>
    obtain ⟨A, k, hq, hk⟩ := h3
    refine ⟨h1, ?_, ?_, ?_, ?_, h6, h7, h8, h9, h10, h11, h12⟩
    · simpa [he, List.filterMap_cons] using h2
    · simp only at hq hk
      have : k = 0 := by
        rcases Nat.eq_zero_or_pos k with h | h
        · exact h
        · cases hk h
      subst this
      exact ⟨A ++ [a], 0, by simp [hq], by simp⟩
    · rcases h4 with h | h
      · exact .inl h
      · exact .inr fun t ht hd => by cases (h t ht hd).1
    · simpa using h5
  | @skip e todo n q ts j ctx st en he =>
    obtain ⟨A, k, hq, hk⟩ := h3
    refine ⟨h1, ?_, ⟨A, k, hq, fun h => by cases hk h⟩, ?_, h5, h6, h7, h8, h9, h10, h11, h12⟩
    · simpa [he, List.filterMap_cons] using h2
    · rcases h4 with h | h
      · exact .inl h
      · exact .inr fun t ht hd => by cases (h t ht hd).1
  | @put n q ts j ctx st en =>
    obtain ⟨A, k, hq, hk⟩ := h3
    refine ⟨h1, ?_, ⟨A, k + 1, ?_, fun _ => rfl⟩, ?_, ?_, h6, h7, h8, h9, h10, h11, h12⟩
    · simpa using h2
    · simp only at hq
      rw [hq, List.append_assoc, ← List.replicate_succ']
    · rcases h4 with h | h
      · exact .inl h
      · exact .inr fun t ht hd => ⟨rfl, by simpa using (h t ht hd).2⟩
    · simp only [List.countP_append, List.countP_singleton] at h5 ⊢
      simp
      omega
  | join hd => exact ⟨h1, h2, h3, h4, h5, h6, h7, h8, h9, h10, h11, h12⟩
  | @thread work todo n q l t r j ctx st en q' t' a e o hst =>
    simp only [List.length_append, List.length_cons, List.flatMap_append, List.flatMap_cons, List.map_append, List.map_cons, List.sum_append, List.sum_cons,
      List.mem_append, List.mem_cons, List.count_append] at h1 h2 h3 h4 h5 h6 h7 h8 h9 h10 h11 h12
    obtain ⟨A, k, hq, hk⟩ := h3
    have hdone : ∀ t0 : PThread α, t0 ∈ l ++ r → t0 = .done → ctx.stopping = true ∨ todo = [] ∧ q.filterMap id = [] := by
      intro t0 ht hd
      rcases h4 with h | h
      · exact .inl h
      · exact .inr (h t0 (by rcases List.mem_append.1 ht with h | h <;> simp [h]) hd)
    have hrest : ∀ t0 : PThread α, t0 ≠ .done → todo = todo → ctx.stopping = true ∨ ∀ t1, t1 ∈ l ∨ t1 = t0 ∨ t1 ∈ r → t1 = .done → todo = [] ∧ q.filterMap id = [] := by
      intro t0 h0 _
      rcases Bool.eq_false_or_eq_true ctx.stopping with h | h
      · exact .inl h
      · refine .inr fun t1 ht hd => ?_
        have : t1 ∈ l ++ r := by
          rcases ht with h | h | h
          · simp [h]
          · rw [← h] at h0; exact absurd hd h0
          · simp [h]
        rcases hdone t1 this hd with e | e
        · rw [h] at e; cases e
        · exact e
    cases hst with
    | leave hstop =>
      refine ⟨by simpa using h1, by simpa using h2, ⟨A, k, hq, hk⟩, .inl hstop, ?_, ?_, ?_, ?_, ?_, ?_, ?_, h12⟩
      · simp [PThread.live] at h5 ⊢; omega
      · simpa [PThread.cmd] using h6
      · simpa [PThread.ops] using h7
      · simpa [PThread.ops, SomeFailed] using h8
      · simpa [PThread.ops, SomeFailed] using h9
      · simpa [PThread.ops] using h10
      · simpa [PThread.ops] using h11
    | enter hstop =>
      refine ⟨by simpa using h1, by simpa using h2, ⟨A, k, hq, hk⟩, by simpa using hrest .getting (by simp) rfl, ?_, ?_, ?_, ?_, ?_, ?_, ?_, h12⟩
      · simp [PThread.live] at h5 ⊢; omega
      · simpa [PThread.cmd] using h6
      · simpa [PThread.ops] using h7
      · simpa [PThread.ops, SomeFailed] using h8
      · simpa [PThread.ops, SomeFailed] using h9
      · simpa [PThread.ops] using h10
      · simpa [PThread.ops] using h11
    | empty =>
      refine ⟨by simpa using h1, by simpa using h2, ⟨A, k, hq, hk⟩, by simpa using hrest .top (by simp) rfl, ?_, ?_, ?_, ?_, ?_, ?_, ?_, h12⟩
      · simp [PThread.live] at h5 ⊢; omega
      · simpa [PThread.cmd] using h6
      · simpa [PThread.ops] using h7
      · simpa [PThread.ops, SomeFailed] using h8
      · simpa [PThread.ops, SomeFailed] using h9
      · simpa [PThread.ops] using h10
      · simpa [PThread.ops] using h11
    | @take a q' =>
      have hA : A = a :: A.tail := by
        cases A with
        | nil =>
          cases k with
          | zero => simp at hq
          | succ k => simp [List.replicate_succ] at hq
        | cons x A => simp at hq; simp [hq.1]
      rw [hA] at hq
      refine ⟨by simpa using h1, by simpa [List.filterMap_cons] using h2, ⟨A.tail, k, by simpa using hq, hk⟩, ?_, ?_, ?_, ?_, ?_, ?_, ?_, ?_, h12⟩
      · rcases hrest (.running a) (by simp) rfl with h | h
        · exact .inl h
        · refine .inr fun t1 ht hd => ?_
          have := (h t1 (by simpa using ht) hd).2
          simp [List.filterMap_cons] at this
      · simp [PThread.live] at h5 ⊢; omega
      · simp only [PThread.cmd, List.nil_append, List.append_nil] at h6 ⊢
        simp only [List.flatMap_append, List.flatMap_cons, PThread.cmd]
        have : (st ++ [a]).Perm (a :: st) := List.perm_append_comm
        refine this.trans ((List.Perm.cons a h6).trans ?_)
        have h2 : (a :: (en.map Prod.fst ++ (l.flatMap PThread.cmd ++ r.flatMap PThread.cmd))) = a :: ((en.map Prod.fst ++ l.flatMap PThread.cmd) ++ r.flatMap PThread.cmd) := by simp
        rw [h2]
        refine (List.perm_middle.symm).trans ?_
        simp
      · simpa [PThread.ops] using h7
      · simpa [PThread.ops, SomeFailed] using h8
      · simpa [PThread.ops, SomeFailed] using h9
      · simpa [PThread.ops] using h10
      · simpa [PThread.ops] using h11
    | @sentinel q' =>
      have hA : A = [] ∧ q' = List.replicate (k - 1) none ∧ 0 < k := by
        cases A with
        | nil =>
          cases k with
          | zero => simp at hq
          | succ k => simp [List.replicate_succ] at hq; simp [hq]
        | cons x A => simp at hq
      obtain ⟨rfl, hq', hk0⟩ := hA
      have hnil : q'.filterMap id = [] := by rw [hq']; simp [List.filterMap_replicate]
      refine ⟨by simpa using h1, by simpa [List.filterMap_cons] using h2, ⟨[], k - 1, by simpa using hq', fun _ => hk hk0⟩, .inr fun _ _ _ => ⟨hk hk0, hnil⟩, ?_, ?_, ?_, ?_, ?_, ?_, ?_, h12⟩
      · simp [PThread.live] at h5 ⊢; omega
      · simpa [PThread.cmd] using h6
      · simpa [PThread.ops] using h7
      · simpa [PThread.ops, SomeFailed] using h8
      · simpa [PThread.ops, SomeFailed] using h9
      · simpa [PThread.ops] using h10
      · simpa [PThread.ops] using h11
    | back =>
      refine ⟨by simpa using h1, by simpa using h2, ⟨A, k, hq, hk⟩, by simpa using hrest .top (by simp) rfl, ?_, ?_, ?_, ?_, ?_, ?_, ?_, h12⟩
      · simp [PThread.live] at h5 ⊢; omega
      · simpa [PThread.cmd] using h6
      · simpa [PThread.ops] using h7
      · simpa [PThread.ops, SomeFailed] using h8
      · simpa [PThread.ops, SomeFailed] using h9
      · simpa [PThread.ops] using h10
      · simpa [PThread.ops] using h11
    | @finish a _ c hc =>
      refine ⟨by simpa using h1, by simpa using h2, ⟨A, k, hq, hk⟩, by simpa using hrest (.after _) (by simp) rfl, ?_, ?_, ?_, ?_, ?_, ?_, ?_, h12⟩
      · simp [PThread.live] at h5 ⊢; omega
      · simp only [PThread.cmd, List.append_nil, List.map_append, List.map_cons, List.map_nil, List.flatMap_append, List.flatMap_cons, List.nil_append] at h6 ⊢
        refine h6.trans ?_
        simp only [List.append_assoc]
        refine List.Perm.append_left _ ?_
        refine List.perm_middle.trans ?_
        simp
      · intro o ho
        simp only [List.flatMap_append, List.flatMap_cons, List.mem_append, PThread.ops] at ho
        rcases ho with h | h | h
        · exact h7 o (.inl h)
        · exact execOps_known h
        · exact h7 o (.inr (.inr h))
      · refine ⟨h8.1, ?_⟩
        have e : (∃ x ∈ en ++ [(a, execExit halt c)], x.2 ≠ 0) ↔ (∃ x ∈ en, x.2 ≠ 0) ∨ execExit halt c ≠ 0 := by
          simp [or_and_right, exists_or]
        unfold SomeFailed at h8 ⊢
        simp only [Option.map_none, Option.getD_none]
        rw [e, ← or_assoc, ← h8.2]
        simp only [List.flatMap_append, List.flatMap_cons, List.mem_append, PThread.ops, execOps_exit, List.not_mem_nil, false_or]
        constructor
        · rintro (h | h | h | h)
          · exact .inl (.inl h)
          · exact .inl (.inr (.inl h))
          · exact .inr h
          · exact .inl (.inr (.inr h))
        · rintro ((h | h | h) | h)
          · exact .inl h
          · exact .inr (.inl h)
          · exact .inr (.inr (.inr h))
          · exact .inr (.inr (.inl h))
      · have e : (∃ x ∈ en ++ [(a, execExit halt c)], x.2 ≠ 0) ↔ (∃ x ∈ en, x.2 ≠ 0) ∨ execExit halt c ≠ 0 := by
          simp [or_and_right, exists_or]
        unfold SomeFailed at h9 ⊢
        simp only [Option.map_none, Option.getD_none]
        rw [e, and_or_left, ← or_assoc, ← h9]
        simp only [List.flatMap_append, List.flatMap_cons, List.mem_append, PThread.ops, execOps_stop, List.not_mem_nil, false_or]
        constructor
        · rintro (h | h | h | h)
          · exact .inl (.inl h)
          · exact .inl (.inr (.inl h))
          · exact .inr h
          · exact .inl (.inr (.inr h))
        · rintro ((h | h | h) | h)
          · exact .inl h
          · exact .inr (.inl h)
          · exact .inr (.inr (.inr h))
          · exact .inr (.inr (.inl h))
      · simp only [List.flatMap_append, List.flatMap_cons, List.count_append, PThread.ops, execOps_failed, List.countP_append, List.countP_singleton, List.count_nil] at h10 ⊢
        simp only [Option.map_none, Option.getD_none]
        by_cases hx : execExit halt c = 0 <;> simp [hx] at h10 ⊢ <;> omega
      · simp only [List.flatMap_append, List.flatMap_cons, List.count_append, PThread.ops, execOps_succeeded, List.countP_append, List.countP_singleton, List.count_nil] at h11 ⊢
        simp only [Option.map_none, Option.getD_none]
        by_cases hx : execExit halt c = 0 <;> simp [hx] at h11 ⊢ <;> omega
    | @op o ops _ =>
      have hstop : ctx.stopping = true → (ctx.apply o).stopping = true := by
        intro h; cases o <;> simp [Ctx.apply, h]
      refine ⟨by simpa using h1, by simpa using h2, ⟨A, k, hq, hk⟩, ?_, ?_, ?_, ?_, ?_, ?_, ?_, ?_, ?_⟩
      · rcases hrest (.after ops) (by simp) rfl with h | h
        · exact .inl (hstop h)
        · exact .inr (by simpa using h)
      · simp [PThread.live] at h5 ⊢; omega
      · simpa [PThread.cmd] using h6
      · intro o' ho
        simp only [List.flatMap_append, List.flatMap_cons, List.mem_append, PThread.ops] at ho
        refine h7 o' ?_
        rcases ho with h | h | h
        · exact .inl h
        · exact .inr (.inl (by simp [PThread.ops, h]))
        · exact .inr (.inr h)
      all_goals
        have ho := h7 o (.inr (.inl (by simp [PThread.ops])))
        simp only [List.flatMap_append, List.flatMap_cons, List.mem_append, PThread.ops, List.mem_cons, SomeFailed, Option.map_some, Option.getD_some, List.append_nil,
          List.count_append, List.count_cons] at h8 h9 h10 h11 ⊢
      · rcases ho with rfl | rfl | rfl | rfl <;> simp [Ctx.apply] at h8 ⊢
        · exact h8.2
        · exact h8
        · exact h8
        · exact h8
      · rcases ho with rfl | rfl | rfl | rfl <;> simp [Ctx.apply] at h9 ⊢
        · exact h9
        · exact h9
        · exact h9
        · exact h9
      · rcases ho with rfl | rfl | rfl | rfl <;> simp [Ctx.apply] at h10 ⊢ <;> omega
      · rcases ho with rfl | rfl | rfl | rfl <;> simp [Ctx.apply] at h11 ⊢ <;> omega
      · rcases ho with rfl | rfl | rfl | rfl <;> simpa [Ctx.apply] using h12

theorem poolInv_steps {ε α : Type} {halt : Halt} {render : ε → Option α} {n : Nat} {ctx0 : Ctx} {entries : List ε} {k : Nat} {s t : Pool ε α}
    (h : PoolInv halt render n ctx0 entries s) (hs : PoolSteps halt render k s t) : PoolInv halt render n ctx0 entries t := by
  induction hs with
  | refl => exact h
  | work _ h2 ih => exact poolInv_step (ih h) h2
  | idle _ h2 ih => exact poolInv_step (ih h) h2

theorem joined_done {ε α : Type} {halt : Halt} {render : ε → Option α} {k : Nat} {s0 s : Pool ε α} (h0 : s0.joined = false)
    (hs : PoolSteps halt render k s0 s) (hj : s.joined = true) : ∀ t ∈ s.threads, t = .done := by
  induction hs with
  | refl => rw [h0] at hj; cases hj
  | @work k s t u _ h2 ih =>
    cases h2 with
    | thread h =>
      have := ih h0 hj
      simp only [List.mem_append, List.mem_cons] at this
      have ht := this _ (.inr (.inl rfl))
      subst ht
      cases h
    | add h => exact ih h0 hj
    | skip h => exact ih h0 hj
    | put => exact ih h0 hj
    | join h => exact h
  | @idle k s t u _ h2 ih =>
    cases h2 with
    | thread h =>
      have := ih h0 hj
      simp only [List.mem_append, List.mem_cons] at this
      have ht := this _ (.inr (.inl rfl))
      subst ht
      cases h

theorem done_nothing {α : Type} {ts : List (PThread α)} (h : ∀ t ∈ ts, t = .done) : ts.flatMap PThread.cmd = [] ∧ ts.flatMap PThread.ops = [] := by
  induction ts with
  | nil => exact ⟨rfl, rfl⟩
  | cons t ts ih =>
    have := h t (by simp)
    subst this
    obtain ⟨h1, h2⟩ := ih (fun t ht => h t (by simp [ht]))
    exact ⟨by simp [PThread.cmd, h1], by simp [PThread.ops, h2]⟩

/-! ### C89 -/

/-- C89: at any time the commands that have been started are the first ones of the list, in this order, and not more than `jobs` of them are under way. -/
theorem C89_order {ε α : Type} (halt : Halt) (render : ε → Option α) (jobs : Nat) (ctx : Ctx) (entries : List ε) {s : Pool ε α}
    (h : Reaches halt render (Pool.start jobs ctx entries) s) : s.started <+: entries.filterMap render ∧ underWay s ≤ jobs ∧ ∀ x ∈ s.ended, x.1 ∈ s.started := by
  obtain ⟨k, h⟩ := h
  have hi := poolInv_steps (poolInv_start halt render jobs ctx entries) h
  refine ⟨⟨_, hi.jobs⟩, ?_, fun x hx => ?_⟩
  · unfold underWay
    have h1 := hi.run.length_eq
    rw [List.length_append, List.length_map] at h1
    have h2 : (s.threads.flatMap PThread.cmd).length ≤ s.threads.length := by
      have : ∀ ts : List (PThread α), (ts.flatMap PThread.cmd).length ≤ ts.length := by
        intro ts
        induction ts with
        | nil => simp
        | cons t ts ih => cases t <;> simp [PThread.cmd] at ih ⊢ <;> omega
      exact this _
    have h3 := hi.len
    omega
  · rw [hi.run.mem_iff]
    simp only [List.mem_append, List.mem_map]
    exact .inl ⟨x, hx, rfl⟩

/-- C89: when the pool is done, every command that has been started has ended; all of them have been started, each once and in the order of the entries, unless
`--halt` says otherwise and a command has failed. -/
theorem C89_complete {ε α : Type} (halt : Halt) (render : ε → Option α) {jobs : Nat} (hj : 0 < jobs) (ctx : Ctx) (hc : ctx.stopping = false) (entries : List ε) {s : Pool ε α}
    (h : Reaches halt render (Pool.start jobs ctx entries) s) (hs : s.joined = true) :
    (s.ended.map Prod.fst).Perm s.started ∧ (s.started = entries.filterMap render ∨ (halt = .soon ∨ halt = .now) ∧ SomeFailed s) := by
  obtain ⟨k, h⟩ := h
  have hi := poolInv_steps (poolInv_start halt render jobs ctx entries) h
  have hd := joined_done rfl h hs
  obtain ⟨d1, d2⟩ := done_nothing hd
  refine ⟨?_, ?_⟩
  · have := hi.run
    rw [d1, List.append_nil] at this
    exact this.symm
  · have hstop := hi.stop
    rw [d2, hc] at hstop
    simp only [List.not_mem_nil, or_false, Bool.false_eq_true, false_or] at hstop
    rcases hi.finished with h1 | h1
    · exact .inr (hstop.1 h1)
    · left
      have hne : s.threads ≠ [] := by
        intro e
        have := hi.len
        rw [e] at this
        simp at this
        omega
      obtain ⟨t, ht⟩ := List.exists_mem_of_ne_nil _ hne
      obtain ⟨g1, g2⟩ := h1 t ht (hd t ht)
      have := hi.jobs
      rw [g1, g2] at this
      simpa using this

/-- C89: the exit status tells whether a command has failed, and the counters count. -/
theorem C89_status {ε α : Type} (halt : Halt) (render : ε → Option α) (jobs : Nat) (ctx : Ctx) (hc : ctx.exitcode = 0) (entries : List ε) {s : Pool ε α}
    (h : Reaches halt render (Pool.start jobs ctx entries) s) (hs : s.joined = true) (fail : Bool) :
    (SomeFailed s → exitStatus fail s.ctx = 3) ∧ (¬ SomeFailed s → exitStatus fail s.ctx = exitStatus fail ctx) ∧
      s.ctx.failed = ctx.failed + s.ended.countP (fun x => x.2 ≠ 0) ∧ s.ctx.succeeded = ctx.succeeded + s.ended.countP (fun x => x.2 = 0) := by
  obtain ⟨k, h⟩ := h
  have hi := poolInv_steps (poolInv_start halt render jobs ctx entries) h
  obtain ⟨d1, d2⟩ := done_nothing (joined_done rfl h hs)
  have he := hi.exit
  rw [d2, hc] at he
  simp only [List.not_mem_nil, or_false] at he
  have hf := hi.failed
  have hg := hi.succeeded
  rw [d2] at hf hg
  refine ⟨fun hx => ?_, fun hx => ?_, hf, hg⟩
  · unfold exitStatus
    rw [if_pos (he.2.2 (.inr hx))]
  · have h3 : s.ctx.exitcode ≠ 3 := by
      intro e
      rcases he.2.1 e with h | h
      · cases h
      · exact hx h
    have h0 : s.ctx.exitcode = 0 := by
      rcases he.1 with h | h
      · exact h
      · exact absurd h h3
    unfold exitStatus
    rw [h0, hc, hi.result]

/-- Threads that wait for the queue. -/
def PThread.waits {α : Type} : PThread α → Nat
  | .getting => 1
  | _ => 0

theorem stopping_step {ε α : Type} {halt : Halt} {render : ε → Option α} {work : Bool} {s t : Pool ε α} (h : PoolStep halt render work s t) (hs : s.ctx.stopping = true) :
    t.ctx.stopping = true ∧ t.started.length + (t.threads.map PThread.waits).sum ≤ s.started.length + (s.threads.map PThread.waits).sum := by
  cases h with
  | add h => exact ⟨hs, Nat.le_refl _⟩
  | skip h => exact ⟨hs, Nat.le_refl _⟩
  | put => exact ⟨hs, Nat.le_refl _⟩
  | join h => exact ⟨hs, Nat.le_refl _⟩
  | thread h =>
    cases h with
    | leave _ => exact ⟨hs, by simp [PThread.waits]⟩
    | enter h => simp only at hs; rw [h] at hs; cases hs
    | empty => exact ⟨hs, by simp [PThread.waits]⟩
    | take => exact ⟨hs, by simp [PThread.waits]; omega⟩
    | sentinel => exact ⟨hs, by simp [PThread.waits]⟩
    | finish c hc => exact ⟨hs, by simp [PThread.waits]⟩
    | @op o ops q =>
      refine ⟨?_, by simp [PThread.waits]⟩
      simp only at hs
      cases o <;> simp [Ctx.apply, hs]
    | back => exact ⟨hs, by simp [PThread.waits]⟩

theorem stopping_steps {ε α : Type} {halt : Halt} {render : ε → Option α} {k : Nat} {s t : Pool ε α} (h : PoolSteps halt render k s t) (hs : s.ctx.stopping = true) :
    t.ctx.stopping = true ∧ t.started.length + (t.threads.map PThread.waits).sum ≤ s.started.length + (s.threads.map PThread.waits).sum := by
  induction h with
  | refl => exact ⟨hs, Nat.le_refl _⟩
  | work _ h2 ih =>
    obtain ⟨g1, g2⟩ := ih hs
    obtain ⟨g3, g4⟩ := stopping_step h2 g1
    exact ⟨g3, by omega⟩
  | idle _ h2 ih =>
    obtain ⟨g1, g2⟩ := ih hs
    obtain ⟨g3, g4⟩ := stopping_step h2 g1
    exact ⟨g3, by omega⟩

theorem waits_le {α : Type} (ts : List (PThread α)) : (ts.map PThread.waits).sum ≤ ts.length := by
  induction ts with
  | nil => simp
  | cons t ts ih => cases t <;> simp [PThread.waits] at ih ⊢ <;> omega

/-- C89: after the pool has been told to stop, at most `jobs` - 1 further commands are started, one for each other thread. -/
theorem C89_halt {ε α : Type} (halt : Halt) (render : ε → Option α) (jobs : Nat) (ctx : Ctx) (entries : List ε) {s t u : Pool ε α} {work : Bool}
    (h : Reaches halt render (Pool.start jobs ctx entries) s) (hs : s.ctx.stopping = false) (h2 : PoolStep halt render work s t) (ht : t.ctx.stopping = true)
    (h3 : Reaches halt render t u) : u.started.length + 1 ≤ t.started.length + jobs := by
  obtain ⟨k, h⟩ := h
  have hi := poolInv_steps (poolInv_start halt render jobs ctx entries) h
  obtain ⟨k', h3⟩ := h3
  obtain ⟨_, g⟩ := stopping_steps h3 ht
  have hl := hi.len
  cases h2 with
  | add h => rw [hs] at ht; cases ht
  | skip h => rw [hs] at ht; cases ht
  | put => rw [hs] at ht; cases ht
  | join h => rw [hs] at ht; cases ht
  | @thread _ _ _ _ l _ r _ _ _ _ _ _ _ _ _ hst =>
    cases hst with
    | op =>
      have h1 := waits_le l
      have h2 := waits_le r
      simp [PThread.waits] at g hl ⊢
      omega
    | _ => simp only [Option.map_none, Option.getD_none] at ht hs; rw [hs] at ht; cases ht

/-- An upper bound for the work a thread can still do by itself. -/
def PThread.weight {α : Type} : PThread α → Nat
  | .top | .getting => 1
  | .running _ => 6
  | .after ops => 2 + ops.length
  | .done => 0

/-- An upper bound for the work that is left. -/
def Pool.weight {ε α : Type} (s : Pool ε α) : Nat :=
  8 * s.todo.length + 8 * s.sentinels + 7 * s.queue.length + (s.threads.map PThread.weight).sum + (if s.joined then 0 else 1)

theorem execOps_length (halt : Halt) (x : Int) : (execOps halt x).length ≤ 3 := by
  unfold execOps
  split
  · split <;> decide
  · decide

theorem weight_step {ε α : Type} {halt : Halt} {render : ε → Option α} {work : Bool} {s t : Pool ε α} (h : PoolStep halt render work s t) :
    t.weight + (if work then 1 else 0) ≤ s.weight := by
  cases h with
  | add h => simp [Pool.weight]; omega
  | skip h => simp [Pool.weight]; omega
  | put => simp [Pool.weight]; omega
  | join h => simp [Pool.weight]
  | thread h =>
    cases h with
    | leave _ => simp [Pool.weight, PThread.weight]; omega
    | enter h => simp [Pool.weight, PThread.weight]
    | empty => simp [Pool.weight, PThread.weight]
    | take => simp [Pool.weight, PThread.weight]; omega
    | sentinel => simp [Pool.weight, PThread.weight]; omega
    | finish c hc =>
      have := execOps_length halt (execExit halt c)
      simp [Pool.weight, PThread.weight]
      omega
    | op => simp [Pool.weight, PThread.weight]; omega
    | back => simp [Pool.weight, PThread.weight]; omega

/-- C89: there is an end: apart from waiting for the queue, no more than this number of steps are possible. -/
theorem C89_bounded {ε α : Type} (halt : Halt) (render : ε → Option α) (jobs : Nat) (ctx : Ctx) (entries : List ε) {k : Nat} {s : Pool ε α}
    (h : PoolSteps halt render k (Pool.start jobs ctx entries) s) : k ≤ 8 * entries.length + 9 * jobs + 1 := by
  have key : ∀ {k : Nat} {s0 s : Pool ε α}, PoolSteps halt render k s0 s → s.weight + k ≤ s0.weight := by
    intro k s0 s h
    induction h with
    | refl => simp
    | work _ h2 ih => have := weight_step h2; simp at this; omega
    | idle _ h2 ih => have := weight_step h2; simp at this; omega
  have h1 := key h
  have h2 : (Pool.start jobs ctx entries : Pool ε α).weight = 8 * entries.length + 9 * jobs + 1 := by
    simp [Pool.weight, Pool.start, PThread.weight]
    omega
  omega

theorem PoolSteps.trans {ε α : Type} {halt : Halt} {render : ε → Option α} {k m : Nat} {s t u : Pool ε α} (h : PoolSteps halt render k s t) (h' : PoolSteps halt render m t u) :
    PoolSteps halt render (k + m) s u := by
  induction h' with
  | refl => exact h
  | work _ h2 ih => exact .work (ih h) h2
  | idle _ h2 ih => exact .idle (ih h) h2

/-- As long as the pool is not done, something can be done. -/
theorem pool_progress {ε α : Type} {halt : Halt} {render : ε → Option α} {n : Nat} {ctx : Ctx} {entries : List ε} {s : Pool ε α} (hi : PoolInv halt render n ctx entries s)
    (hj : s.joined = false) : ∃ k t, PoolSteps halt render (k + 1) s t := by
  obtain ⟨todo, m, q, ts, j, c, st, en⟩ := s
  simp only at hj
  subst hj
  have one : ∀ {a b : Pool ε α}, PoolStep halt render true a b → ∃ k t, PoolSteps halt render (k + 1) a t := fun h => ⟨0, _, .work .refl h⟩
  cases todo with
  | cons e todo =>
    cases he : render e with
    | none => exact one (.skip he)
    | some a => exact one (.add he)
  | nil =>
    cases m with
    | succ m => exact one .put
    | zero =>
      by_cases hd : ∀ t ∈ ts, t = .done
      · exact one (.join hd)
      · have : ∃ t ∈ ts, t ≠ .done := Classical.byContradiction fun h => hd fun t ht => Classical.byContradiction fun hn => h ⟨t, ht, hn⟩
        obtain ⟨t, ht, hn⟩ := this
        obtain ⟨l, r, rfl⟩ := List.append_of_mem ht
        have getting : ∀ st en, ∃ k u, PoolSteps halt render (k + 1) (Pool.mk [] 0 q (l ++ .getting :: r) false c st en) u := by
          intro st en
          cases q with
          | nil =>
            have := hi.live
            cases t <;> simp [PThread.live] at this hn
          | cons x q =>
            cases x with
            | none => exact one (.thread .sentinel)
            | some a => exact one (.thread .take)
        cases t with
        | done => exact absurd rfl hn
        | getting => exact getting st en
        | top =>
          cases hs : c.stopping with
          | true => exact one (.thread (.leave hs))
          | false =>
            obtain ⟨k, u, hu⟩ := getting (st ++ []) (en ++ [])
            have h1 : PoolSteps halt render 0 (Pool.mk [] 0 q (l ++ .top :: r) false c st en) (Pool.mk [] 0 q (l ++ .getting :: r) false c (st ++ []) (en ++ [])) :=
              .idle .refl (.thread (.enter hs))
            have h2 := h1.trans hu
            rw [Nat.zero_add] at h2
            exact ⟨k, u, h2⟩
        | running a => exact one (.thread (.finish ⟨some 0, false⟩ (by simp)))
        | after ops =>
          cases ops with
          | nil => exact one (.thread .back)
          | cons o ops => exact one (.thread .op)

/-- C89: there is no deadlock: whatever has happened, the pool can get done. -/
theorem C89_no_deadlock {ε α : Type} (halt : Halt) (render : ε → Option α) (jobs : Nat) (ctx : Ctx) (entries : List ε) {s : Pool ε α}
    (h : Reaches halt render (Pool.start jobs ctx entries) s) : ∃ t, Reaches halt render s t ∧ t.joined = true := by
  obtain ⟨k, h⟩ := h
  have key : ∀ (f : Nat) (k : Nat) (s : Pool ε α), PoolSteps halt render k (Pool.start jobs ctx entries) s → 8 * entries.length + 9 * jobs + 1 - k ≤ f →
      ∃ t, Reaches halt render s t ∧ t.joined = true := by
    intro f
    induction f with
    | zero =>
      intro k s h hf
      have hi := poolInv_steps (poolInv_start halt render jobs ctx entries) h
      cases hj : s.joined with
      | true => exact ⟨s, ⟨0, .refl⟩, hj⟩
      | false =>
        obtain ⟨m, t, ht⟩ := pool_progress hi hj
        have := C89_bounded halt render jobs ctx entries (h.trans ht)
        omega
    | succ f ih =>
      intro k s h hf
      have hi := poolInv_steps (poolInv_start halt render jobs ctx entries) h
      cases hj : s.joined with
      | true => exact ⟨s, ⟨0, .refl⟩, hj⟩
      | false =>
        obtain ⟨m, t, ht⟩ := pool_progress hi hj
        obtain ⟨u, ⟨i, hu⟩, hju⟩ := ih _ t (h.trans ht) (by omega)
        exact ⟨u, ⟨_, ht.trans hu⟩, hju⟩
  exact key _ k s h (Nat.le_refl _)

/-- Two threads; the first command fails, and then a further command is started, with `--halt soon` and `--halt now`. -/
theorem C89_halt_false {halt : Halt} (hh : halt = .soon ∨ halt = .now) : ∃ s t : Pool Nat Nat, Reaches halt some (Pool.start 2 .init [1, 2]) s ∧ SomeFailed s ∧ s.ctx.stopping = true ∧
    s.started = [1] ∧ Reaches halt some s t ∧ t.started = [1, 2] := by
  have e1 : execExit halt ⟨some 1, false⟩ = 1 := by rcases hh with rfl | rfl <;> rfl
  have e2 : execOps halt 1 = [.setExit 3, .incFailed, .stop] := by rcases hh with rfl | rfl <;> rfl
  refine ⟨⟨[], 2, [some 2], [.after [], .getting], false, ⟨3, 0, 1, true, false⟩, [1], [(1, 1)]⟩, ⟨[], 2, [], [.after [], .running 2], false, ⟨3, 0, 1, true, false⟩, [1, 2], [(1, 1)]⟩,
    ?_, ⟨(1, 1), by simp, by decide⟩, rfl, rfl, ⟨_, .work .refl ?_⟩, rfl⟩
  · have a1 : PoolStep halt some true (Pool.start 2 .init [1, 2]) (Pool.mk [2] 2 [some 1] [.top, .top] false .init [] []) := .add rfl
    have a2 : PoolStep halt some true (Pool.mk [2] 2 [some 1] [.top, .top] false .init [] []) (Pool.mk [] 2 [some 1, some 2] [.top, .top] false .init [] []) := .add rfl
    have a3 : PoolStep halt some false (Pool.mk [] 2 [some 1, some 2] [.top, .top] false .init [] []) (Pool.mk ([] : List Nat) 2 [some 1, some 2] [.getting, .top] false .init [] []) :=
      .thread (l := []) (r := [.top]) (.enter rfl)
    have a4 : PoolStep halt some false (Pool.mk [] 2 [some 1, some 2] [.getting, .top] false .init [] []) (Pool.mk ([] : List Nat) 2 [some 1, some 2] [.getting, .getting] false .init [] []) :=
      .thread (l := [.getting]) (r := []) (.enter rfl)
    have a5 : PoolStep halt some true (Pool.mk [] 2 [some 1, some 2] [.getting, .getting] false .init [] []) (Pool.mk ([] : List Nat) 2 [some 2] [.running 1, .getting] false .init [1] []) :=
      .thread (l := []) (r := [.getting]) .take
    have a6 : PoolStep halt some true (Pool.mk [] 2 [some 2] [.running 1, .getting] false .init [1] [])
        (Pool.mk ([] : List Nat) 2 [some 2] [.after [.setExit 3, .incFailed, .stop], .getting] false .init [1] [(1, 1)]) := by
      have := PoolStep.thread (halt := halt) (render := some) (todo := ([] : List Nat)) (n := 2) (q := [some 2]) (l := []) (r := [.getting]) (j := false) (ctx := .init) (st := [1]) (en := [])
        (ThreadStep.finish (a := 1) ⟨some 1, false⟩ (by simp))
      rw [e1, e2] at this
      exact this
    have a7 : PoolStep halt some true (Pool.mk [] 2 [some 2] [.after [.setExit 3, .incFailed, .stop], .getting] false .init [1] [(1, 1)])
        (Pool.mk ([] : List Nat) 2 [some 2] [.after [.incFailed, .stop], .getting] false ⟨3, 0, 0, false, false⟩ [1] [(1, 1)]) := .thread (l := []) (r := [.getting]) .op
    have a8 : PoolStep halt some true (Pool.mk [] 2 [some 2] [.after [.incFailed, .stop], .getting] false ⟨3, 0, 0, false, false⟩ [1] [(1, 1)])
        (Pool.mk ([] : List Nat) 2 [some 2] [.after [.stop], .getting] false ⟨3, 0, 1, false, false⟩ [1] [(1, 1)]) := .thread (l := []) (r := [.getting]) .op
    have a9 : PoolStep halt some true (Pool.mk [] 2 [some 2] [.after [.stop], .getting] false ⟨3, 0, 1, false, false⟩ [1] [(1, 1)])
        (Pool.mk ([] : List Nat) 2 [some 2] [.after [], .getting] false ⟨3, 0, 1, true, false⟩ [1] [(1, 1)]) := .thread (l := []) (r := [.getting]) .op
    exact ⟨_, .work (.work (.work (.work (.work (.idle (.idle (.work (.work .refl a1) a2) a3) a4) a5) a6) a7) a8) a9⟩
  · exact .thread (l := [.after []]) (r := []) .take

/-- The hypotheses of C89 are met: two threads, three entries, of which the second has no command; `--halt soon`; the pool can get done. -/
example : ∃ s : Pool Nat Nat, Reaches .soon (fun e => if e = 2 then none else some e) (Pool.start 2 .init [1, 2, 3]) s ∧ s.joined = true ∧
    (s.started = [1, 3] ∨ SomeFailed s) := by
  obtain ⟨t, ht, hj⟩ := C89_no_deadlock .soon (fun e : Nat => if e = 2 then none else some e) 2 .init [1, 2, 3] ⟨0, .refl⟩
  refine ⟨t, ht, hj, ?_⟩
  rcases (C89_complete .soon _ (by decide) .init rfl [1, 2, 3] ht hj).2 with h | h
  · exact .inl h
  · exact .inr h.2

end FF
