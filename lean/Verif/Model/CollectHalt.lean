import Verif.Model.Protocol
import Verif.Model.Context
/-! Model of the processes when results are collected first and something goes wrong: workers with an unexpected exception, and workers that are killed. -/
namespace FF

/-- A worker, and whether its process has ended other than by way of the barrier. What it knew at that time is kept for the proofs only: nothing but the
feeder threads of its queues refers to it (these may or may not have sent what is in the buffers). -/
structure KWorker where
  w : Worker
  gone : Bool

/-- All processes. The main process is in `CollectiveMixin.loop` (processing.py:237-250), or in `ImmediateGenerator.__iter__` (processing.py:413-420),
which does the same and passes the entries on as they come. -/
structure KAll where
  queue : List Chunk
  outq : List (List EntInfo)
  workers : List KWorker
  main : MState
  /-- the entries that main has received -/
  collected : List EntInfo
  /-- ghost: all entries passed to `processing.process` so far -/
  handed : List EntInfo
  /-- main has left the loop -/
  left : Bool
  /-- something is in `stop_queue`, context.py:134-143 -/
  stopping : Bool
  /-- `exitcode_object` -/
  exitcode : Nat
  /-- ghost: the number of workers that have failed -/
  failures : Nat

/-- The processes without the failures. -/
def KAll.calm (s : KAll) : PState := ⟨s.queue, s.outq, s.workers.map KWorker.w, s.main, s.collected, s.handed⟩

/-- Steps of the program, see also `PStep`. -/
inductive KStep (cfg : WalkCfg) (fair : Fair) : KAll → KAll → Prop
  /-- everything a worker does; if its process has ended there is only its feeder thread. At walk.py:90 and context.py:122-124 a worker that has been waiting
  goes on only if the program does not stop. -/
  | act {s l x r q' m' w' new} : s.workers = l ++ x :: r → (x.gone = true → w'.st = x.w.st) → (x.w.st = .waiting → w'.st ≠ .waiting → s.stopping = false) →
      WStep cfg fair ((l ++ r).all (fun x => x.gone || x.w.st.isWaiting)) (s.queue, s.main, x.w) new (q', m', w') →
      KStep cfg fair s { s with queue := q', main := m', workers := l ++ ⟨w', x.gone⟩ :: r, handed := s.handed ++ new }
  /-- the feeder thread of a worker for the out queue -/
  | flushOut {s l st b c o g r} : s.workers = l ++ ⟨⟨st, b, c :: o⟩, g⟩ :: r →
      KStep cfg fair s { s with outq := s.outq ++ [c], workers := l ++ ⟨⟨st, b, o⟩, g⟩ :: r }
  /-- walk.py:90 and 93-95: a worker leaves its loop because the program stops -/
  | leave {s l x r} : s.workers = l ++ x :: r → x.gone = false → s.stopping = true → x.w.st = .idle ∨ x.w.st = .waiting →
      KStep cfg fair s { s with workers := l ++ ⟨x.w, true⟩ :: r }
  /-- walk.py:123-130: an unexpected exception in a worker -/
  | crash {s l x r} : s.workers = l ++ x :: r → x.gone = false → x.w.st ≠ .stopped →
      KStep cfg fair s { s with workers := l ++ ⟨x.w, true⟩ :: r, exitcode := 4, stopping := true, failures := s.failures + 1 }
  /-- a worker is killed by a signal, but not while it waits in the barrier (see Model/Barrier.lean) -/
  | die {s l x r} : s.workers = l ++ x :: r → x.gone = false → x.w.st ≠ .stopped → x.w.st ≠ .waiting →
      KStep cfg fair s { s with workers := l ++ ⟨x.w, true⟩ :: r, failures := s.failures + 1 }
  /-- processing.py:240, 250 -/
  | collect {s c outq} : s.left = false → s.main = .polling → s.outq = c :: outq → KStep cfg fair s { s with outq := outq, collected := s.collected ++ c }
  /-- processing.py:241-242 -/
  | mainEmpty {s} : s.left = false → s.main = .polling →
      (fair.timely = true → s.outq = [] ∧ ∀ x ∈ s.workers, x.gone = false → x.w.st.isBusy = false → x.w.outbuf = []) →
      KStep cfg fair s { s with main := .waiting (s.workers.all (fun x => !x.w.st.isBusy)) }
  /-- context.py:122-124, processing.py:244-245: there is no reason to stop -/
  | mainTimeout {s quiet} : s.left = false → s.main = .waiting quiet → s.stopping = false → KStep cfg fair s { s with main := .polling }
  /-- context.py:122-124: the program stops -/
  | mainStop {s quiet} : s.left = false → s.main = .waiting quiet → s.stopping = true → KStep cfg fair s { s with left := true }
  /-- processing.py:88-113: main notices that the process of a worker has ended; it looks every ten seconds -/
  | notice {s quiet} : s.left = false → s.main = .waiting quiet → (∃ x ∈ s.workers, x.gone = true) →
      KStep cfg fair s { s with exitcode := 4, stopping := true, left := true }
  /-- context.py:116-126: the barrier lets all processes pass at once or none -/
  | barrier {s quiet} : s.left = false → s.main = .waiting quiet → (∀ x ∈ s.workers, x.gone = false ∧ x.w.st = .waiting) → (fair.prompt = true → quiet = true) →
      KStep cfg fair s { s with workers := s.workers.map (fun x => ⟨{ x.w with st := .stopped }, x.gone⟩), main := .finished, left := true }

/-- Any number of steps. -/
inductive KSteps (cfg : WalkCfg) (fair : Fair) : KAll → KAll → Prop
  | refl {s} : KSteps cfg fair s s
  | step {s t u} : KSteps cfg fair s t → KStep cfg fair t u → KSteps cfg fair s u

/-- main.py:154-176 and walk.py:65-74. -/
def initCollect (roots : List DirT) (n : Nat) : KAll :=
  { queue := roots.map (fun d => .dirs [d]), outq := [], workers := List.replicate n ⟨⟨.idle, [], []⟩, false⟩, main := .polling, collected := [], handed := [],
    left := false, stopping := false, exitcode := 0, failures := 0 }

/-- find.py:115-135 `Find.__iter__`: the entries whose records are passed on when the iteration has come to its end; `context.exitcode` is not looked at. -/
def KAll.found (s : KAll) : Option (List EntInfo) := if s.left then some s.collected else none

/-- What the main process finds in the context when it has left the loop, as far as the exit status is concerned; processing.py:252-257. -/
def KAll.ctx (s : KAll) : Ctx := { exitcode := s.exitcode, hasResult := !s.collected.isEmpty, stopping := s.stopping, succeeded := 0, failed := 0 }

end FF
