import Verif.Model.Immediate
/-! Model of the processes when results are processed immediately and something goes wrong: commands that fail with --halt, workers with an unexpected
exception, and workers that are killed. -/
namespace FF

/-- A worker, and whether it has passed `while not self.context.is_stopping()` (walk.py:90) since it last came there. -/
structure HWorker where
  w : IWorker
  checked : Bool

def IState.isIdle : IState → Bool
  | .idle => true
  | _ => false

/-- All processes. -/
structure HAll where
  queue : List IChunk
  workers : List HWorker
  /-- all have passed the barrier together -/
  passed : Bool
  /-- main has left `ImmediateBaseProcessing.loop`, processing.py:148-150 -/
  left : Bool
  /-- a worker has been killed -/
  died : Bool
  /-- something is in `stop_queue`, context.py:134-143 -/
  stopping : Bool
  /-- `exitcode_object` -/
  exitcode : Nat
  /-- `process_failed`, and the number of errors in workers that have been noticed -/
  failures : Nat
  /-- the entries printed, or whose command has ended, in this order -/
  done : List EntInfo
  hasResult : Bool
  /-- the entries whose command has been started, in this order -/
  begun : List EntInfo

/-- The command that is started when a worker goes from the one state to the other, if any. -/
def begins : IState → IState → List EntInfo
  | .idle, .running e => [e]
  | _, _ => []

/-- context.py:180-186. -/
def HAll.failed (s : HAll) (halts : Bool) : HAll := { s with exitcode := 3, failures := s.failures + 1, stopping := s.stopping || halts }

/-- A command has ended, and its worker returns to walk.py:90. -/
def HAll.ended (s : HAll) (e : EntInfo) (workers : List HWorker) : HAll := { s with workers := workers, done := s.done ++ [e] }

/-- Steps of the program, see also `IStep`. `halts`: --halt is soon or now. With --halt now a command that is running when the program stops is
terminated and counts as failed; whether a command fails is not determined here, so this is one of the possibilities. The flag says whether something is
done, or whether a worker just begins or ends to wait for something to do. -/
inductive HStep (cfg : WalkCfg) (mode : IMode) (halts timely : Bool) : Bool → HAll → HAll → Prop
  /-- walk.py:90, there is no reason to stop -/
  | check {s l b r} : s.workers = l ++ ⟨⟨.idle, b⟩, false⟩ :: r → s.stopping = false →
      HStep cfg mode halts timely false s { s with workers := l ++ ⟨⟨.idle, b⟩, true⟩ :: r }
  /-- walk.py:90, the program stops -/
  | leave {s l b r} : s.workers = l ++ ⟨⟨.idle, b⟩, false⟩ :: r → s.stopping = true →
      HStep cfg mode halts timely true s { s with workers := l ++ ⟨⟨.stopped, b⟩, false⟩ :: r }
  /-- context.py:122-124 and walk.py:93-95, the program stops -/
  | quit {s l b c r} : s.workers = l ++ ⟨⟨.waiting, b⟩, c⟩ :: r → s.stopping = true →
      HStep cfg mode halts timely true s { s with workers := l ++ ⟨⟨.stopped, b⟩, false⟩ :: r }
  /-- everything a worker does apart from that and from running commands; its feeder thread is busy independently of it -/
  | act {work s l x r q' w' res' new} : s.workers = l ++ x :: r → s.passed = false → (x.w.st = .idle → w'.st ≠ .idle → x.checked = true) →
      (x.w.st = .waiting → w'.st ≠ .waiting → s.stopping = false) → (∀ e, x.w.st = .running e → w'.st = .running e) →
      IStep cfg mode timely ((l ++ r).all (fun x => x.w.st.isWaiting)) work (s.queue, x.w, s.hasResult) new (q', w', res') →
      HStep cfg mode halts timely work s
        { s with queue := q', workers := l ++ ⟨w', x.checked && x.w.st.isIdle⟩ :: r, done := s.done ++ new, hasResult := res', begun := s.begun ++ begins x.w.st w'.st }
  /-- walk.py:239-242, context.py:145-186: a command ends, and has succeeded or not -/
  | ran {s l e b c r} (ok : Bool) : s.workers = l ++ ⟨⟨.running e, b⟩, c⟩ :: r →
      HStep cfg mode halts timely true s ((if ok then s else s.failed halts).ended e (l ++ ⟨⟨.idle, b⟩, false⟩ :: r))
  /-- walk.py:123-130: an unexpected exception in a worker -/
  | crash {s l x r} : s.workers = l ++ x :: r → x.w.st ≠ .stopped →
      HStep cfg mode halts timely true s { s with workers := l ++ ⟨⟨.stopped, x.w.buf⟩, false⟩ :: r, exitcode := 4, failures := s.failures + 1, stopping := true }
  /-- a worker is killed by a signal; also by main if it does not end within ten seconds after main has left its loop (walk.py:44-56, the processes are
  daemons). If it is killed while it waits in the barrier the others may come to a standstill, which is not modelled here, see Model/Barrier.lean -/
  | die {s l x r} : s.workers = l ++ x :: r → x.w.st ≠ .stopped →
      HStep cfg mode halts timely true s { s with workers := l ++ ⟨⟨.stopped, x.w.buf⟩, false⟩ :: r, died := true }
  /-- processing.py:88-113: main notices that a worker has been killed; it looks every ten seconds -/
  | notice {s} : s.died = true → s.left = false →
      HStep cfg mode halts timely true s { s with exitcode := 4, failures := s.failures + 1, stopping := true, left := true }
  /-- context.py:122-124, processing.py:115-119: main stops -/
  | mainStop {s} : s.stopping = true → s.left = false → HStep cfg mode halts timely true s { s with left := true }
  /-- context.py:116-126: the barrier lets all processes pass at once or none -/
  | barrier {s} : s.passed = false → s.left = false → (∀ x ∈ s.workers, x.w.st.isWaiting = true) →
      HStep cfg mode halts timely true s { s with workers := s.workers.map (fun x => ⟨⟨.stopped, x.w.buf⟩, false⟩), passed := true, left := true }

/-- Any number of steps, of which so many do something. -/
inductive HSteps (cfg : WalkCfg) (mode : IMode) (halts timely : Bool) : Nat → HAll → HAll → Prop
  | refl {s} : HSteps cfg mode halts timely 0 s s
  | work {n s t u} : HSteps cfg mode halts timely n s t → HStep cfg mode halts timely true t u → HSteps cfg mode halts timely (n + 1) s u
  | idle {n s t u} : HSteps cfg mode halts timely n s t → HStep cfg mode halts timely false t u → HSteps cfg mode halts timely n s u

/-- main.py:154-176 and walk.py:65-74. -/
def initHalt (roots : List DirT) (n : Nat) : HAll :=
  { queue := roots.map (fun d => .dirs [d]), workers := List.replicate n ⟨⟨.idle, []⟩, false⟩, passed := false, left := false, died := false, stopping := false,
    exitcode := 0, failures := 0, done := [], hasResult := false, begun := [] }

end FF
