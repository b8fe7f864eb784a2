import Verif.Model.Halt
import Verif.Model.CollectHalt
import Verif.Model.Pool
/-! Model of what ctrl-c does: SIGINT in the main process while it searches. The workers ignore it (walk.py:84-87). Simplified: a worker that has been started is
taken to have come to walk.py:87. -/
namespace FF

/-- main.py:285-291 while results are processed immediately: `KeyboardInterrupt` leaves `ImmediateBaseProcessing.loop` (processing.py:148-150), `context.stop` is called,
and the exception is raised again. What the workers do afterwards is in `HStep`. -/
inductive HInterrupt : HAll → HAll → Prop
  | mk {s} : s.left = false → HInterrupt s { s with stopping := true, left := true }

/-- main.py:285-291 while results are collected: `KeyboardInterrupt` leaves `CollectiveMixin.loop` (processing.py:237-250); `finalize` is not called. Also find.py:128-131. -/
inductive KInterrupt : KAll → KAll → Prop
  | mk {s} : s.left = false → KInterrupt s { s with stopping := true, left := true }

/-- `KeyboardInterrupt` while the commands for sorted results are run (processing.py:363-366). -/
inductive PoolInterrupt {ε α : Type} : Pool ε α → Pool ε α → Prop
  /-- in the body of `with Parallel(...)`: the remaining entries are left out. `__exit__` is called like at the end (processing.py:60-64), and only after that the exception
  gets to main.py:285. -/
  | adding {e todo n q ts j ctx st en} : PoolInterrupt ⟨e :: todo, n, q, ts, j, ctx, st, en⟩ ⟨[], n, q, ts, j, ctx, st, en⟩
  /-- in `__exit__`: it is left at once, and main.py:287 calls `context.stop`. The threads are daemons (processing.py:53), none of them is waited for. -/
  | leaving {n q ts ctx st en} : PoolInterrupt ⟨[], n, q, ts, false, ctx, st, en⟩ ⟨[], 0, q, ts, false, { ctx with stopping := true }, st, en⟩

/-- What a process does when SIGINT arrives. -/
inductive OnInterrupt
  | ends
  | ignores
  | raises
  deriving DecidableEq

/-- walk.py:84-87 in a worker; in the main process Python raises `KeyboardInterrupt`. -/
def onInterrupt (worker : Bool) : OnInterrupt := if worker then .ignores else .raises

/-- exec(2): signals that are ignored stay so, handlers are replaced by the default, which for SIGINT is to end. `subprocess.Popen` (context.py:155) restores SIGPIPE,
SIGXFZ and SIGXFSZ only. -/
def OnInterrupt.exec : OnInterrupt → OnInterrupt
  | .ignores => .ignores
  | _ => .ends

end FF
