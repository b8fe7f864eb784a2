import Verif.Model.Walk
/-! Model of the worker processes and the main process (walk.py `loop`, processing.py `loop`, context.py `barrier_wait`) as a transition system. -/
namespace FF

/-- What is put into the queue: a chunk of `Directory` objects or an `Entries` object (walk.py:99-112). Arguments of -x commands
(walk.py:114-119) are not part of this model. -/
inductive Chunk
  | dirs (ds : List DirT)
  | ents (es : List EntT)

/-- Where a worker is in walk.py:90-119. -/
inductive WState
  /-- about to call `queue.get` -/
  | idle
  /-- in `barrier_wait` -/
  | waiting
  /-- left the loop -/
  | stopped
  /-- `todo`: directories of the chunk not yet scanned; the others are the variables of `process_entries`. -/
  | busy (todo : List DirT) (entries : List EntT) (search : List DirT) (process : List EntInfo)

/-- A worker: its state and the buffers of the feeder threads of the two queues (`multiprocessing.Queue.put` returns before the object
can be received by others). -/
structure Worker where
  st : WState
  buf : List Chunk
  outbuf : List (List EntInfo)

/-- The main process in `CollectiveMixin.loop`: calling `out_queue.get`, in `barrier_wait`, or finished. The flag of `waiting` says that no
worker has been busy since (see `Fair.prompt`). -/
inductive MState
  | polling
  | waiting (quiet : Bool)
  | finished
  deriving DecidableEq

structure PState where
  queue : List Chunk
  outq : List (List EntInfo)
  workers : List Worker
  main : MState
  /-- the entries that main has received (`self.entries`) -/
  collected : List EntInfo
  /-- ghost: all entries passed to `processing.process` so far -/
  handed : List EntInfo

/-- Timing assumptions. -/
structure Fair where
  /-- A worker's feeder thread is done by the time its `queue.get(timeout)` reports Empty. If it is the last worker to do so there is nothing
  in the queue (with other workers around, `get` may also report Empty because another one holds the lock of the queue). The same holds for
  the out queue. -/
  timely : Bool
  /-- The barrier is only passed by main if no worker has been busy since main began to wait: a worker polls the queue for TIMEOUT
  before it comes to the barrier, by then main's waiting has timed out (processing.py:118, context.py:116). -/
  prompt : Bool

def WState.isBusy : WState → Bool
  | .busy .. => true
  | _ => false

/-- Main is waiting, but a worker has become busy. -/
def MState.disturb : MState → MState
  | .waiting _ => .waiting false
  | m => m

def WState.isWaiting : WState → Bool
  | .waiting => true
  | _ => false

/-- Steps of one worker: queue, main and the worker before, ghost list, and the same after. `alone`: all other workers are waiting. -/
inductive WStep (cfg : WalkCfg) (fair : Fair) (alone : Bool) : List Chunk × MState × Worker → List EntInfo → List Chunk × MState × Worker → Prop
  /-- walk.py:92, 111-112 -/
  | getDirs {ds q m b o} : WStep cfg fair alone (.dirs ds :: q, m, ⟨.idle, b, o⟩) [] (q, m.disturb, ⟨.busy ds [] [] [], b, o⟩)
  /-- walk.py:92, 99-105 -/
  | getEnts {es q m b o} : WStep cfg fair alone (.ents es :: q, m, ⟨.idle, b, o⟩) [] (q, m.disturb, ⟨.busy [] es [] [], b, o⟩)
  /-- walk.py:93-94 -/
  | empty {q m b o} : (fair.timely = true → b = [] ∧ (alone = true → q = [])) → WStep cfg fair alone (q, m, ⟨.idle, b, o⟩) [] (q, m, ⟨.waiting, b, o⟩)
  /-- context.py:122-124 -/
  | timeout {q m b o} : WStep cfg fair alone (q, m, ⟨.waiting, b, o⟩) [] (q, m, ⟨.idle, b, o⟩)
  /-- walk.py:182-188 -/
  | scan {d todo q m b o} : WStep cfg fair alone (q, m, ⟨.busy (d :: todo) [] [] [], b, o⟩) []
      (q, m, ⟨.busy todo (scanDirectory cfg.isIgnoreFile d) [] [], b, o⟩)
  /-- walk.py:200-210 -/
  | test {e es todo search process q m b o} : WStep cfg fair alone (q, m, ⟨.busy todo (e :: es) search process, b, o⟩) []
      (q, m, ⟨.busy todo es (testEntry cfg e search process).1 (testEntry cfg e search process).2, b, o⟩)
  /-- walk.py:215-220; how many processes are idle is left open -/
  | share {es todo search process q m b o} : cfg.slow = true → 10 < es.length →
      WStep cfg fair alone (q, m, ⟨.busy todo es search process, b, o⟩) []
        (q, m, ⟨.busy todo (splitAtHalf es).1 search process, b ++ [.ents (splitAtHalf es).2], o⟩)
  /-- walk.py:225-231 -/
  | put {todo search process q m b o} : search ≠ [] → WStep cfg fair alone (q, m, ⟨.busy todo [] search process, b, o⟩) []
      (q, m, ⟨.busy todo [] [] process, b ++ (chunksOf (chunkSize cfg.jobs search.length) search).map .dirs, o⟩)
  /-- walk.py:233-237; processing.py:225-226 -/
  | hand {todo process q m b o} : process ≠ [] → WStep cfg fair alone (q, m, ⟨.busy todo [] [] process, b, o⟩) (process.take 100)
      (q, m, ⟨.busy todo [] [] (process.drop 100), b, o ++ [process.take 100]⟩)
  /-- back to walk.py:90 -/
  | finish {q m b o} : WStep cfg fair alone (q, m, ⟨.busy [] [] [] [], b, o⟩) [] (q, m, ⟨.idle, b, o⟩)
  /-- the feeder thread -/
  | flush {c q m s b o} : WStep cfg fair alone (q, m, ⟨s, c :: b, o⟩) [] (q ++ [c], m, ⟨s, b, o⟩)

inductive PStep (cfg : WalkCfg) (fair : Fair) : PState → PState → Prop
  | worker {q outq l w r m col handed q' m' w' new} : WStep cfg fair ((l ++ r).all (fun w => w.st.isWaiting)) (q, m, w) new (q', m', w') →
      PStep cfg fair ⟨q, outq, l ++ w :: r, m, col, handed⟩ ⟨q', outq, l ++ w' :: r, m', col, handed ++ new⟩
  /-- the feeder thread of a worker for the out queue -/
  | flushOut {q outq l s b c o r m col handed} :
      PStep cfg fair ⟨q, outq, l ++ ⟨s, b, c :: o⟩ :: r, m, col, handed⟩ ⟨q, outq ++ [c], l ++ ⟨s, b, o⟩ :: r, m, col, handed⟩
  /-- processing.py:240, 250 -/
  | collect {q c outq ws col handed} : PStep cfg fair ⟨q, c :: outq, ws, .polling, col, handed⟩ ⟨q, outq, ws, .polling, col ++ c, handed⟩
  /-- processing.py:241-242 -/
  | mainEmpty {q outq ws col handed} : (fair.timely = true → outq = [] ∧ ∀ w ∈ ws, w.st.isBusy = false → w.outbuf = []) →
      PStep cfg fair ⟨q, outq, ws, .polling, col, handed⟩ ⟨q, outq, ws, .waiting (ws.all (fun w => !w.st.isBusy)), col, handed⟩
  /-- processing.py:244-245 -/
  | mainTimeout {q outq ws col handed b} : PStep cfg fair ⟨q, outq, ws, .waiting b, col, handed⟩ ⟨q, outq, ws, .polling, col, handed⟩
  /-- context.py:116-126: the barrier lets all processes pass at once or none -/
  | barrier {q outq ws col handed quiet} : (∀ w ∈ ws, ∃ b o, w = ⟨.waiting, b, o⟩) → (fair.prompt = true → quiet = true) →
      PStep cfg fair ⟨q, outq, ws, .waiting quiet, col, handed⟩
        ⟨q, outq, ws.map (fun w => { w with st := .stopped }), .finished, col, handed⟩

/-- Any number of steps. -/
inductive PSteps (cfg : WalkCfg) (fair : Fair) : PState → PState → Prop
  | refl {s} : PSteps cfg fair s s
  | step {s t u} : PSteps cfg fair s t → PStep cfg fair t u → PSteps cfg fair s u

/-- main.py:154-176 and walk.py:65-74: the queue holds one chunk for each start directory, `n` workers are started. -/
def initState (roots : List DirT) (n : Nat) : PState :=
  { queue := roots.map (fun d => .dirs [d]), outq := [], workers := List.replicate n ⟨.idle, [], []⟩, main := .polling, collected := [], handed := [] }

end FF
