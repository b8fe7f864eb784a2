import Verif.Model.Protocol
/-! Model of the worker processes when results are processed immediately: printed by the worker that found them
(processing.py `ImmediateConsoleProcessing`) or turned into commands that the workers run (`ImmediateExecProcessing`). -/
namespace FF

/-- What is put into the queue: walk.py:99-119. `call e` are the arguments rendered for an entry. -/
inductive IChunk
  | dirs (ds : List DirT)
  | ents (es : List EntT)
  | call (e : EntInfo)

/-- Where a worker is in walk.py:90-119. -/
inductive IState
  /-- about to call `queue.get` -/
  | idle
  /-- in `barrier_wait` -/
  | waiting
  /-- left the loop -/
  | stopped
  /-- `todo`: directories of the chunk not yet scanned; `batch`: the entries left in the loop of `processing.process`; the others are the variables
  of `process_entries`. -/
  | busy (todo : List DirT) (entries : List EntT) (search : List DirT) (process : List EntInfo) (batch : List EntInfo)
  /-- in `run_exec_process` -/
  | running (e : EntInfo)

def IState.isWaiting : IState → Bool
  | .waiting => true
  | _ => false

/-- A worker: its state and the buffer of its feeder thread. -/
structure IWorker where
  st : IState
  buf : List IChunk

/-- How entries are processed. -/
structure IMode where
  /-- `ImmediateExecProcessing` instead of `ImmediateConsoleProcessing` -/
  exec : Bool
  /-- The template of --exec can be rendered for the entry, processing.py:202-205. -/
  renders : EntInfo → Bool

/-- All processes; main is in `ImmediateBaseProcessing.loop` (processing.py:148-150), where it does nothing but wait at the barrier. -/
structure IAll where
  queue : List IChunk
  workers : List IWorker
  /-- all have passed the barrier -/
  finished : Bool
  /-- the entries passed to `Console.process`, or whose command has been run, in this order -/
  done : List EntInfo
  /-- `context.set_has_result()` has been called -/
  hasResult : Bool

/-- Steps of one worker: the queue, the worker and the flag for results before; the entry that is printed or executed, if any; and after. `alone`: all other
workers are waiting. As in `WStep`, `timely` says that a worker's feeder thread is done by the time its `queue.get(timeout)` reports Empty, and that
the last worker to do so finds nothing in the queue. Commands that fail with --halt, and errors, are not part of this model. -/
inductive IStep (cfg : WalkCfg) (mode : IMode) (timely alone : Bool) : Bool → List IChunk × IWorker × Bool → List EntInfo → List IChunk × IWorker × Bool → Prop
  /-- walk.py:92, 111-112 -/
  | getDirs {ds q b r} : IStep cfg mode timely alone true (.dirs ds :: q, ⟨.idle, b⟩, r) [] (q, ⟨.busy ds [] [] [] [], b⟩, r)
  /-- walk.py:92, 99-105 -/
  | getEnts {es q b r} : IStep cfg mode timely alone true (.ents es :: q, ⟨.idle, b⟩, r) [] (q, ⟨.busy [] es [] [] [], b⟩, r)
  /-- walk.py:92, 114-119 -/
  | getCall {e q b r} : IStep cfg mode timely alone true (.call e :: q, ⟨.idle, b⟩, r) [] (q, ⟨.running e, b⟩, r)
  /-- walk.py:93-94 -/
  | empty {q b r} : (timely = true → b = [] ∧ (alone = true → q = [])) → IStep cfg mode timely alone false (q, ⟨.idle, b⟩, r) [] (q, ⟨.waiting, b⟩, r)
  /-- context.py:122-124 -/
  | timeout {q b r} : IStep cfg mode timely alone false (q, ⟨.waiting, b⟩, r) [] (q, ⟨.idle, b⟩, r)
  /-- walk.py:182-188 -/
  | scan {d todo q b r} : IStep cfg mode timely alone true (q, ⟨.busy (d :: todo) [] [] [] [], b⟩, r) []
      (q, ⟨.busy todo (scanDirectory cfg.isIgnoreFile d) [] [] [], b⟩, r)
  /-- walk.py:200-210 -/
  | test {e es todo search process q b r} : IStep cfg mode timely alone true (q, ⟨.busy todo (e :: es) search process [], b⟩, r) []
      (q, ⟨.busy todo es (testEntry cfg e search process).1 (testEntry cfg e search process).2 [], b⟩, r)
  /-- walk.py:215-220 -/
  | share {es todo search process q b r} : cfg.slow = true → 10 < es.length →
      IStep cfg mode timely alone true (q, ⟨.busy todo es search process [], b⟩, r) []
        (q, ⟨.busy todo (splitAtHalf es).1 search process [], b ++ [.ents (splitAtHalf es).2]⟩, r)
  /-- walk.py:225-231 -/
  | put {todo search process q b r} : search ≠ [] → IStep cfg mode timely alone true (q, ⟨.busy todo [] search process [], b⟩, r) []
      (q, ⟨.busy todo [] [] process [], b ++ (chunksOf (chunkSize cfg.jobs search.length) search).map .dirs⟩, r)
  /-- walk.py:233-237, processing.py:178-179 and 198-199 -/
  | hand {todo process q b r} : process ≠ [] → IStep cfg mode timely alone true (q, ⟨.busy todo [] [] process [], b⟩, r) []
      (q, ⟨.busy todo [] [] (process.drop 100) (process.take 100), b⟩, true)
  /-- processing.py:181-182 -/
  | print {todo process e batch q b r} : mode.exec = false → IStep cfg mode timely alone true (q, ⟨.busy todo [] [] process (e :: batch), b⟩, r) [e]
      (q, ⟨.busy todo [] [] process batch, b⟩, r)
  /-- processing.py:201-203 -/
  | call {todo process e batch q b r} : mode.exec = true → mode.renders e = true →
      IStep cfg mode timely alone true (q, ⟨.busy todo [] [] process (e :: batch), b⟩, r) [] (q, ⟨.busy todo [] [] process batch, b ++ [.call e]⟩, r)
  /-- processing.py:204-205 -/
  | skip {todo process e batch q b r} : mode.exec = true → mode.renders e = false →
      IStep cfg mode timely alone true (q, ⟨.busy todo [] [] process (e :: batch), b⟩, r) [] (q, ⟨.busy todo [] [] process batch, b⟩, r)
  /-- walk.py:239-242 -/
  | run {e q b r} : IStep cfg mode timely alone true (q, ⟨.running e, b⟩, r) [e] (q, ⟨.idle, b⟩, r)
  /-- back to walk.py:90 -/
  | finish {q b r} : IStep cfg mode timely alone true (q, ⟨.busy [] [] [] [] [], b⟩, r) [] (q, ⟨.idle, b⟩, r)
  /-- the feeder thread -/
  | flush {c q s b r} : IStep cfg mode timely alone true (q, ⟨s, c :: b⟩, r) [] (q ++ [c], ⟨s, b⟩, r)

/-- Steps of the whole program. The flag says whether something is done, or whether a worker just begins or ends to wait. -/
inductive AStep (cfg : WalkCfg) (mode : IMode) (timely : Bool) : Bool → IAll → IAll → Prop
  | worker {work q l w r d res q' w' res' new} : IStep cfg mode timely ((l ++ r).all (fun w => w.st.isWaiting)) work (q, w, res) new (q', w', res') →
      AStep cfg mode timely work ⟨q, l ++ w :: r, false, d, res⟩ ⟨q', l ++ w' :: r, false, d ++ new, res'⟩
  /-- context.py:116-126, processing.py:148-150: the barrier lets all processes pass at once or none; main is always there sooner or later -/
  | barrier {q ws d res} : (∀ w ∈ ws, w.st.isWaiting = true) →
      AStep cfg mode timely true ⟨q, ws, false, d, res⟩ ⟨q, ws.map (fun w => { w with st := .stopped }), true, d, res⟩

/-- Any number of steps, of which so many do something. -/
inductive ASteps (cfg : WalkCfg) (mode : IMode) (timely : Bool) : Nat → IAll → IAll → Prop
  | refl {s} : ASteps cfg mode timely 0 s s
  | work {n s t u} : ASteps cfg mode timely n s t → AStep cfg mode timely true t u → ASteps cfg mode timely (n + 1) s u
  | idle {n s t u} : ASteps cfg mode timely n s t → AStep cfg mode timely false t u → ASteps cfg mode timely n s u

/-- main.py:154-176 and walk.py:65-74. -/
def initAll (roots : List DirT) (n : Nat) : IAll :=
  { queue := roots.map (fun d => .dirs [d]), workers := List.replicate n ⟨.idle, []⟩, finished := false, done := [], hasResult := false }

end FF
