import Verif.Model.Whole
/-! Model of /repo/libff/processing.py `Parallel`, the threads that run the commands of `-x` when the entries are collected first. -/
namespace FF

/-- Where a thread is in processing.py:66-78 `thread`. -/
inductive PThread (α : Type)
  /-- at `while not self.context.is_stopping()` -/
  | top
  /-- in `self.queue.get(timeout=TIMEOUT)` -/
  | getting
  /-- in `run_exec_process`, the command has been started (or could not be started) and has not ended yet -/
  | running (a : α)
  /-- in `run_exec_process`, after the command: the operations that are left -/
  | after (ops : List Op)
  /-- left the loop -/
  | done
  deriving DecidableEq

/-- The pool, the shared state and the main thread. -/
structure Pool (ε α : Type) where
  /-- the entries for which `add_job` has not been called yet -/
  todo : List ε
  /-- how many `None` are still to be put by `__exit__` -/
  sentinels : Nat
  queue : List (Option α)
  threads : List (PThread α)
  /-- `__exit__` has returned -/
  joined : Bool
  ctx : Ctx
  /-- the commands in the order in which they are started -/
  started : List α
  /-- the commands in the order in which they end, with the exit code that counts -/
  ended : List (α × Int)

/-- processing.py:69-78: a step of a thread, given the shared state: whether something is done, or the thread just waits for the queue; the queue and the thread before; the command that is started, the command that ends,
the operation on the shared state, if any; and after. `queue.Queue.get` with a timeout reports Empty only if the queue is empty. -/
inductive ThreadStep {α : Type} (halt : Halt) (ctx : Ctx) : Bool → List (Option α) → PThread α → List α → List (α × Int) → Option Op → List (Option α) → PThread α → Prop
  /-- processing.py:69 -/
  | leave {q} : ctx.stopping = true → ThreadStep halt ctx true q .top [] [] none q .done
  /-- processing.py:69 -/
  | enter {q} : ctx.stopping = false → ThreadStep halt ctx false q .top [] [] none q .getting
  /-- processing.py:72-73 -/
  | empty : ThreadStep halt ctx false [] .getting [] [] none [] .top
  /-- processing.py:71, 78 -/
  | take {a q} : ThreadStep halt ctx true (some a :: q) .getting [a] [] none q (.running a)
  /-- processing.py:75-76 -/
  | sentinel {q} : ThreadStep halt ctx true (none :: q) .getting [] [] none q .done
  /-- context.py:150-173; with `--halt now` the command is stopped if the search is stopping -/
  | finish {a q} (c : Command) : (c.interrupted = true → ctx.stopping = true) →
      ThreadStep halt ctx true q (.running a) [] [(a, execExit halt c)] none q (.after (execOps halt (execExit halt c)))
  /-- context.py:175-186 -/
  | op {o ops q} : ThreadStep halt ctx true q (.after (o :: ops)) [] [] (some o) q (.after ops)
  /-- back to processing.py:69 -/
  | back {q} : ThreadStep halt ctx true q (.after []) [] [] none q .top

/-- A step of the program. The flag has the same meaning. -/
inductive PoolStep {ε α : Type} (halt : Halt) (render : ε → Option α) : Bool → Pool ε α → Pool ε α → Prop
  | thread {work todo n q l t r j ctx st en q' t' a e o} : ThreadStep halt ctx work q t a e o q' t' →
      PoolStep halt render work ⟨todo, n, q, l ++ t :: r, j, ctx, st, en⟩ ⟨todo, n, q', l ++ t' :: r, j, (o.map ctx.apply).getD ctx, st ++ a, en ++ e⟩
  /-- processing.py:80-84 `add_job` -/
  | add {e a todo n q ts j ctx st en} : render e = some a → PoolStep halt render true ⟨e :: todo, n, q, ts, j, ctx, st, en⟩ ⟨todo, n, q ++ [some a], ts, j, ctx, st, en⟩
  /-- processing.py:85-86: KeyError -/
  | skip {e todo n q ts j ctx st en} : render e = none → PoolStep halt render true ⟨e :: todo, n, q, ts, j, ctx, st, en⟩ ⟨todo, n, q, ts, j, ctx, st, en⟩
  /-- processing.py:61-62 -/
  | put {n q ts j ctx st en} : PoolStep halt render true ⟨[], n + 1, q, ts, j, ctx, st, en⟩ ⟨[], n, q ++ [none], ts, j, ctx, st, en⟩
  /-- processing.py:63-64 -/
  | join {q ts ctx st en} : (∀ t ∈ ts, t = .done) → PoolStep halt render true ⟨[], 0, q, ts, false, ctx, st, en⟩ ⟨[], 0, q, ts, true, ctx, st, en⟩

/-- Any number of steps, of which so many do something. -/
inductive PoolSteps {ε α : Type} (halt : Halt) (render : ε → Option α) : Nat → Pool ε α → Pool ε α → Prop
  | refl {s} : PoolSteps halt render 0 s s
  | work {n s t u} : PoolSteps halt render n s t → PoolStep halt render true t u → PoolSteps halt render (n + 1) s u
  | idle {n s t u} : PoolSteps halt render n s t → PoolStep halt render false t u → PoolSteps halt render n s u

/-- processing.py:45-56 and 363-366: the pool at the beginning, with the shared state after the search. -/
def Pool.start {ε α : Type} (jobs : Nat) (ctx : Ctx) (entries : List ε) : Pool ε α :=
  { todo := entries, sentinels := jobs, queue := [], threads := List.replicate jobs .top, joined := false, ctx := ctx, started := [], ended := [] }

/-- context.py:157-173: the value of `--halt`. -/
def haltOf : NVal → Halt
  | .str s => if s = "never".toList then .never else if s = "soon".toList then .soon else if s = "now".toList then .now else .other
  | _ => .other

/-- processing.py:252-257, 355-361: the entries for the commands after the search; `none` is an exception. -/
def World.chosen (W : World) (ns : NS) (p : Plan) (collected : List EntInfo) : Option (List EntInfo) :=
  ((W.render ns).finalizeEntries W.digits p.sort p.reverse collected).map (entriesRange p.limit)

/-- processing.py:363-366: the pool at the beginning; `ctx` is the shared state after the search. -/
def World.pool (_W : World) (ns : NS) (ctx : Ctx) (entries : List EntInfo) : Pool EntInfo (List Str) := Pool.start (ns "jobs".toList).toJobs ctx entries

/-- processing.py:368-389: the commands of `-X`, with the entries that are passed to them. -/
def World.batch (W : World) (ns : NS) (p : Plan) (run : List (List EntInfo × Int) → List EntInfo → RunResult) (fuel : Nat) (entries : List EntInfo) :
    List (List Str) × BatchEnd :=
  let r := batchLoop run fuel [] entries []
  (r.1.map (fun x => (W.render ns).batchRender (p.execBatch.getD []) x.1), r.2)

end FF
