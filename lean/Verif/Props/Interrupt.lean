import Verif.Spec.Interrupt
import Verif.Model.Ending
import Verif.Props.Halt
import Verif.Props.Pool
import Verif.Props.CollectHalt
namespace FF
open Spec

/-! ### C132: interrupting ff -/

theorem HInterrupt.inv {s t : HAll} (h : HInterrupt s t) (hs : HaltInv s) : HaltInv t := by
  cases h with
  | mk hl => exact ⟨hs.passed, fun _ => .inl rfl, fun _ _ _ => .inl rfl, hs.died, hs.calm, fun hp => rfl⟩

theorem HInterrupt.fits {s t : HAll} (h : HInterrupt s t) {a : IAll} (hs : FitsState s a) : FitsState t a := by
  cases h with
  | mk hl => exact hs

/-- C132: whenever ff is interrupted while it prints or runs commands for what it finds, and whatever happens afterwards: nothing is printed and no command is started for an
entry that is not selected, or twice. -/
theorem C132_sound (cfg : WalkCfg) (mode : IMode) (halts timely : Bool) {roots : List Root} (hok : ∀ r ∈ roots, r.Ok) (hnd : (roots.map Root.start).Nodup) (n : Nat)
    {j k : Nat} {s t u : HAll} (h : HSteps cfg mode halts timely j (initHalt (roots.map Root.dir) n) s) (hi : HInterrupt s t) (hu : HSteps cfg mode halts timely k t u) :
    (u.done.Nodup ∧ ∀ i ∈ u.done, (∃ r ∈ roots, Selected cfg r.start r.base r.kids i) ∧ ToDo mode i) ∧
    (u.begun.Nodup ∧ ∀ i ∈ u.begun, (∃ r ∈ roots, Selected cfg r.start r.base r.kids i) ∧ ToDo mode i) := by
  obtain ⟨_, a, ha, hf⟩ := h.fits (HaltInv.init _ n) (init_fits _ n)
  obtain ⟨_, b, hb, hf'⟩ := hu.fits (hi.inv (h.inv (fun h => HaltInv.step h) (HaltInv.init _ n))) (hi.fits hf)
  have hc := ha.trans hb
  obtain ⟨h1, h2, _⟩ := fits_sound cfg mode hok hnd n hc hf'
  exact ⟨h1, h2⟩

/-- C132: after an interrupt each of the n jobs starts at most one further command. -/
theorem C132_commands (cfg : WalkCfg) (mode : IMode) (halts timely : Bool) (roots : List Root) {n : Nat} {j k : Nat} {s t u : HAll}
    (h : HSteps cfg mode halts timely j (initHalt (roots.map Root.dir) n) s) (hi : HInterrupt s t) (hu : HSteps cfg mode halts timely k t u) :
    u.begun.length ≤ s.begun.length + n := by
  have hl : s.workers.length = n := h.inv (P := fun s => s.workers.length = n) (fun h hs => h.workers.trans hs) (by simp [initHalt])
  cases hi with
  | mk hleft =>
    have h2 := (hu.starts rfl).1
    simp only [mayStart] at h2
    have := List.countP_le_length (p := HWorker.asks) (l := s.workers)
    omega

/-- C132: after an interrupt the program comes to its end: what is left to do is limited, apart from beginning and ending to wait, and all processes can leave their loops. -/
theorem C132_ends (cfg : WalkCfg) (mode : IMode) (halts timely : Bool) (roots : List Root) {n : Nat} (hn : 0 < n) {j k : Nat} {s t u : HAll}
    (h : HSteps cfg mode halts timely j (initHalt (roots.map Root.dir) n) s) (hi : HInterrupt s t) (hu : HSteps cfg mode halts timely k t u) :
    j + k < 1 + n + (roots.map (fun r => 3 + 15 * countTree r.kids)).sum ∧ ∃ m v, HSteps cfg mode halts timely m u v ∧ Ended v := by
  have h1 := h.pot
  rw [initHalt_pot] at h1
  have h2 := hu.pot
  have hlt : hPot t + 1 = hPot s := by
    cases hi with
    | mk hleft => simp only [hPot, hleft, Bool.false_eq_true, if_false, if_true]; omega
  refine ⟨by omega, ?_⟩
  have hs : HSound s := h.inv (fun h => HSound.step h) (by
    intro x hx
    simp only [initHalt, List.mem_replicate] at hx
    rw [hx.2]
    exact Or.inr trivial)
  have ht : HSound t := by cases hi; exact hs
  have hlen : s.workers.length = n := h.inv (P := fun s => s.workers.length = n) (fun h hs => h.workers.trans hs) (by simp [initHalt])
  have hlent : t.workers.length = n := by cases hi; exact hlen
  have hlenu : u.workers.length = n := hu.inv (P := fun s => s.workers.length = n) (fun h hs => h.workers.trans hs) hlent
  refine HSound.ends cfg mode halts timely _ (Nat.le_refl _) (hu.inv (fun h => HSound.step h) ht)
    (hu.inv (fun h => HaltInv.step h) (hi.inv (h.inv (fun h => HaltInv.step h) (HaltInv.init _ n)))) ?_
  intro h0
  rw [h0] at hlenu
  simp only [List.length_nil] at hlenu
  omega

/-- ff is interrupted right at the beginning. -/
example : HSteps demoCfg demoExecAll true true 0 (initHalt ([demoRoot].map Root.dir) 2) (initHalt ([demoRoot].map Root.dir) 2) ∧
    HInterrupt (initHalt ([demoRoot].map Root.dir) 2) { initHalt ([demoRoot].map Root.dir) 2 with stopping := true, left := true } := ⟨.refl, .mk rfl⟩

/-- C132: an interrupt while results are collected: main receives nothing more, and leaves the loop without having collected everything only with the exception. -/
theorem C132_collected {cfg : WalkCfg} {fair : Fair} {s t u : KAll} (hi : KInterrupt s t) (hu : KSteps cfg fair t u) : u.collected = s.collected ∧ u.left = true := by
  have ht : t.collected = s.collected ∧ t.left = true := by cases hi; exact ⟨rfl, rfl⟩
  induction hu with
  | refl => exact ht
  | step _ h ih =>
    obtain ⟨h1, h2⟩ := ih
    cases h <;> simp_all

/-! ### Commands for sorted results -/

theorem todo_suffix {ε α : Type} {halt : Halt} {render : ε → Option α} {jobs : Nat} {ctx : Ctx} {entries : List ε} {k : Nat} {s : Pool ε α}
    (h : PoolSteps halt render k (Pool.start jobs ctx entries) s) : ∃ pre, entries = pre ++ s.todo := by
  have key : ∀ {work : Bool} {s t : Pool ε α}, PoolStep halt render work s t → (∃ pre, entries = pre ++ s.todo) → ∃ pre, entries = pre ++ t.todo := by
    rintro work s t h ⟨pre, e⟩
    cases h with
    | @add x _ _ _ _ _ _ _ _ _ _ => exact ⟨pre ++ [x], by simp [e]⟩
    | @skip x _ _ _ _ _ _ _ _ _ => exact ⟨pre ++ [x], by simp [e]⟩
    | thread _ => exact ⟨pre, e⟩
    | put => exact ⟨pre, e⟩
    | join _ => exact ⟨pre, e⟩
  generalize hx : Pool.start jobs ctx entries = x at h
  induction h with
  | refl => subst hx; exact ⟨[], rfl⟩
  | work _ h ih => exact key h (ih hx)
  | idle _ h ih => exact key h (ih hx)

/-- After an interrupt in the body everything is as if there were no more entries than those that have been added. -/
theorem interrupted_inv {ε α : Type} {halt : Halt} {render : ε → Option α} {jobs : Nat} {ctx : Ctx} {entries : List ε} {k : Nat} {s : Pool ε α}
    (h : PoolSteps halt render k (Pool.start jobs ctx entries) s) :
    ∃ pre, pre.filterMap render = s.started ++ queued s ∧ PoolInv halt render jobs ctx pre { s with todo := [] } := by
  obtain ⟨pre, e⟩ := todo_suffix h
  obtain ⟨h1, h2, h3, h4, h5, h6, h7, h8, h9, h10, h11, h12⟩ := poolInv_steps (poolInv_start halt render jobs ctx entries) h
  have hj : pre.filterMap render = s.started ++ queued s := by
    rw [e, List.filterMap_append, ← List.append_assoc] at h2
    exact (List.append_cancel_right h2).symm
  refine ⟨pre, hj, ⟨h1, by simp [hj, queued], ?_, ?_, h5, h6, h7, h8, h9, h10, h11, h12⟩⟩
  · obtain ⟨A, k, hq, _⟩ := h3
    exact ⟨A, k, hq, fun _ => rfl⟩
  · rcases h4 with h4 | h4
    · exact .inl h4
    · exact .inr fun t ht hd => ⟨rfl, (h4 t ht hd).2⟩

/-- C132 (false): an interrupt while commands are made for sorted results stops none of those that have been made: unless a command fails with --halt soon or now, all of
them are run before ff ends, and nothing else. -/
theorem C132_queued_false {ε α : Type} (halt : Halt) (render : ε → Option α) {jobs : Nat} (hj : 0 < jobs) (ctx : Ctx) (hc : ctx.stopping = false) (entries : List ε)
    {s t u : Pool ε α} (h : Reaches halt render (Pool.start jobs ctx entries) s) (hm : s.todo ≠ []) (hi : PoolInterrupt s t) (hu : Reaches halt render t u) (hjn : u.joined = true) :
    (u.ended.map Prod.fst).Perm u.started ∧ (u.started = s.started ++ queued s ∨ (halt = .soon ∨ halt = .now) ∧ SomeFailed u) := by
  obtain ⟨k, h⟩ := h
  obtain ⟨k', hu⟩ := hu
  obtain ⟨pre, hp, hinv⟩ := interrupted_inv h
  have hnj : s.joined = false := by
    cases hsj : s.joined with
    | false => rfl
    | true =>
      exfalso
      have key : ∀ {work : Bool} {s t : Pool ε α}, PoolStep halt render work s t → (s.joined = true → s.todo = []) → t.joined = true → t.todo = [] := by
        intro work s t h hs ht
        cases h with
        | add _ => simpa using hs ht
        | skip _ => simpa using hs ht
        | thread _ => exact hs ht
        | put => rfl
        | join _ => rfl
      have : s.joined = true → s.todo = [] := by
        clear hsj hi hp hinv hm
        generalize hx : Pool.start jobs ctx entries = x at h
        induction h with
        | refl => subst hx; intro h; simp [Pool.start] at h
        | work _ h ih => exact key h (ih hx)
        | idle _ h ih => exact key h (ih hx)
      exact hm (this hsj)
  have ht : t = { s with todo := [] } := by
    cases hi with
    | adding => rfl
    | leaving => simp at hm
  subst ht
  have hi' := poolInv_steps hinv hu
  have hd := joined_done (s0 := { s with todo := [] }) hnj hu hjn
  obtain ⟨d1, d2⟩ := done_nothing hd
  refine ⟨?_, ?_⟩
  · have := hi'.run
    rw [d1, List.append_nil] at this
    exact this.symm
  · by_cases hstop : u.ctx.stopping = true
    · rcases hi'.stop.1 (.inl hstop) with h | h
      · rw [hc] at h; cases h
      · exact .inr h
    · left
      have hlen := hi'.len
      rcases hi'.finished with h | h
      · exact absurd h hstop
      · cases hth : u.threads with
        | nil => rw [hth] at hlen; simp at hlen; omega
        | cons x l =>
          obtain ⟨e1, e2⟩ := h x (by simp [hth]) (hd x (by simp [hth]))
          have := hi'.jobs
          rw [e1, e2] at this
          simp only [List.filterMap_nil, List.append_nil] at this
          rw [this, hp]

/-- C132 (partial: when all commands have been made, see `C132_queued_false`): after an interrupt each thread starts at most one further command. -/
theorem C132_pool_partial {ε α : Type} (halt : Halt) (render : ε → Option α) (jobs : Nat) (ctx : Ctx) (entries : List ε) {s t u : Pool ε α}
    (h : Reaches halt render (Pool.start jobs ctx entries) s) (hm : s.todo = []) (hi : PoolInterrupt s t) (hu : Reaches halt render t u) :
    u.started.length ≤ s.started.length + jobs := by
  obtain ⟨k, h⟩ := h
  obtain ⟨k', hu⟩ := hu
  have hl := (poolInv_steps (poolInv_start halt render jobs ctx entries) h).len
  have ht : t.ctx.stopping = true ∧ t.started = s.started ∧ t.threads = s.threads := by
    cases hi with
    | adding => simp at hm
    | leaving => exact ⟨rfl, rfl, rfl⟩
  obtain ⟨_, g⟩ := stopping_steps hu ht.1
  rw [ht.2.1, ht.2.2] at g
  have hw : ∀ ts : List (PThread α), (ts.map PThread.waits).sum ≤ ts.length := by
    intro ts
    induction ts with
    | nil => simp
    | cons x ts ih => cases x <;> simp only [List.map_cons, List.sum_cons, PThread.waits, List.length_cons] <;> omega
  have := hw s.threads
  omega

/-- Both kinds of interrupts: one command waits in the queue, the other has not been made yet; and both wait in the queue. -/
example : ∃ s t : Pool Nat Nat, Reaches .never some (Pool.start 1 .init [1, 2]) s ∧ s.todo = [2] ∧ queued s = [1] ∧ PoolInterrupt s t :=
  ⟨⟨[2], 1, [some 1], [.top], false, .init, [], []⟩, _, ⟨_, .work .refl (.add rfl)⟩, rfl, rfl, .adding⟩

example : ∃ s t : Pool Nat Nat, Reaches .never some (Pool.start 1 .init [1, 2]) s ∧ s.todo = [] ∧ queued s = [1, 2] ∧ PoolInterrupt s t :=
  ⟨⟨[], 1, [some 1, some 2], [.top], false, .init, [], []⟩, _, ⟨_, .work (.work .refl (.add rfl)) (.add rfl)⟩, rfl, rfl, .leaving⟩

/-- C132 (false): after an interrupt the single thread starts two further commands. -/
theorem C132_pool_false : ∃ s t u : Pool Nat Nat, Reaches .never some (Pool.start 1 .init [1, 2, 3]) s ∧ PoolInterrupt s t ∧ Reaches .never some t u ∧
    s.started.length + 1 < u.started.length := by
  refine ⟨Pool.mk [3] 1 [some 1, some 2] [.top] false .init [] [], _, Pool.mk [] 1 [] [.running 2] false (Ctx.init.apply .incSucceeded) [1, 2] [(1, 0)],
    ⟨_, .work (.work .refl (.add rfl)) (.add rfl)⟩, .adding, ?_, by decide⟩
  have a1 : PoolStep .never some false (Pool.mk ([] : List Nat) 1 [some 1, some 2] [.top] false .init [] []) (Pool.mk [] 1 [some 1, some 2] [.getting] false .init [] []) :=
    .thread (l := []) (r := []) (.enter rfl)
  have a2 : PoolStep .never some true (Pool.mk ([] : List Nat) 1 [some 1, some 2] [.getting] false .init [] []) (Pool.mk [] 1 [some 2] [.running 1] false .init [1] []) :=
    .thread (l := []) (r := []) .take
  have a3 : PoolStep .never some true (Pool.mk ([] : List Nat) 1 [some 2] [.running 1] false .init [1] []) (Pool.mk [] 1 [some 2] [.after [.incSucceeded]] false .init [1] [(1, 0)]) :=
    .thread (l := []) (r := []) (.finish ⟨some 0, false⟩ (by simp))
  have a4 : PoolStep .never some true (Pool.mk ([] : List Nat) 1 [some 2] [.after [.incSucceeded]] false .init [1] [(1, 0)])
      (Pool.mk [] 1 [some 2] [.after []] false (Ctx.init.apply .incSucceeded) [1] [(1, 0)]) := .thread (l := []) (r := []) .op
  have a5 : PoolStep .never some true (Pool.mk ([] : List Nat) 1 [some 2] [.after []] false (Ctx.init.apply .incSucceeded) [1] [(1, 0)])
      (Pool.mk [] 1 [some 2] [.top] false (Ctx.init.apply .incSucceeded) [1] [(1, 0)]) := .thread (l := []) (r := []) .back
  have a6 : PoolStep .never some false (Pool.mk ([] : List Nat) 1 [some 2] [.top] false (Ctx.init.apply .incSucceeded) [1] [(1, 0)])
      (Pool.mk [] 1 [some 2] [.getting] false (Ctx.init.apply .incSucceeded) [1] [(1, 0)]) := .thread (l := []) (r := []) (.enter rfl)
  have a7 : PoolStep .never some true (Pool.mk ([] : List Nat) 1 [some 2] [.getting] false (Ctx.init.apply .incSucceeded) [1] [(1, 0)])
      (Pool.mk [] 1 [] [.running 2] false (Ctx.init.apply .incSucceeded) [1, 2] [(1, 0)]) := .thread (l := []) (r := []) .take
  exact ⟨_, .work (.idle (.work (.work (.work (.work (.idle .refl a1) a2) a3) a4) a5) a6) a7⟩

/-- C132: the exit status is not 0; without `-O` Python ends by the signal. -/
theorem C132_status (debug : Bool) : interruptStatus debug ≠ some 0 := by cases debug <;> decide

/-- C132 (false): the commands that are started while ff searches ignore the interrupt, so they go on after ff has ended; those for sorted results do not. -/
theorem C132_running_false : (onInterrupt true).exec = .ignores ∧ (onInterrupt false).exec = .ends := ⟨rfl, rfl⟩

end FF
