import Verif.Model.Context
/-! How a run ends when standard output is a pipe whose reader goes away, or when it is interrupted: main.py:262-322, walk.py:123-130, console.py:78-105, 241-253, processing.py:259-265, 319-339, and
what Python does with the buffer of standard output. -/
namespace FF

/-- Standard output of a process that goes to a pipe: what the reader has got, what is in the buffer, and how many characters the reader will still take before it
closes the pipe. -/
structure OutPipe where
  got : Str
  pending : Str
  left : Nat
  deriving DecidableEq

/-- `sys.stdout.flush()`; `false` is BrokenPipeError, after which the buffer keeps what has not been written. -/
def OutPipe.flush (p : OutPipe) : OutPipe × Bool :=
  if p.pending.length ≤ p.left then (⟨p.got ++ p.pending, [], p.left - p.pending.length⟩, true)
  else (⟨p.got ++ p.pending.take p.left, p.pending.drop p.left, 0⟩, false)

/-- What a process does with standard output: `print` and `json.dump` write to the buffer, which may have to be flushed then (`spill`), or it is flushed. -/
inductive OutAct
  | print (s : Str) (spill : Bool)
  | flush
  deriving DecidableEq

/-- One action. -/
def OutAct.run (p : OutPipe) : OutAct → OutPipe × Bool
  | .print s spill => if spill then ({ p with pending := p.pending ++ s } : OutPipe).flush else ({ p with pending := p.pending ++ s }, true)
  | .flush => p.flush

/-- The actions in turn, until one of them fails. -/
def runActs : OutPipe → List OutAct → OutPipe × Bool
  | p, [] => (p, true)
  | p, a :: as => match a.run p with
    | (p', true) => runActs p' as
    | (p', false) => (p', false)

/-- console.py:241-253 `_write_line` and 78-83 `_print_record` of `--jsonl`: each record is followed by a flush. -/
def lineActs (lines : List (Str × Bool)) : List OutAct := lines.flatMap fun l => [.print l.1 l.2, .flush]

/-- console.py:86-102 `JsonConsole`: nothing is flushed. The bracket of `__init__` is flushed when multiprocessing starts the first process. -/
def jsonActs (pieces : List (Str × Bool)) : List OutAct := [.print "[".toList false, .flush] ++ pieces.map fun l => .print l.1 l.2

/-- console.py:104-105 `close` of `JsonConsole`. -/
def jsonClose (spill : Bool) : List OutAct := [.print "]\n".toList spill]

/-- processing.py:319-339 `print_count`. -/
def countActs (pieces : List (Str × Bool)) : List OutAct := pieces.map fun l => .print l.1 l.2

/-- main.py:262-306, for results that are collected: `finalize` is what is written at 276, where BrokenPipeError is caught (293), `close` is what is written at 298, where it is not,
and `status` is what follows from the rest of `walk`. An exception that is not caught gives 1; in any case Python flushes standard output in the end, and
if this fails the status is 120. The result is what the reader has got and the exit status. -/
def collectedEnd (n : Nat) (finalize close : List OutAct) (status : Nat) : Str × Nat :=
  let p1 := (runActs ⟨[], [], n⟩ finalize).1
  let r2 := runActs p1 close
  let r3 := r2.1.flush
  (r3.1.got, if r3.2 then (if r2.2 then status else 1) else 120)

/-- processing.py:177-182, walk.py:123-130, for results that are printed by the workers: `lines` are the records in the order in which they are written, each by some worker. A worker
that gets BrokenPipeError sets the exit code to EX_PROCESS and makes all stop; until they do, some of them (`true`) may write another record. -/
def workersRun : Nat → List (Str × Bool) → Bool → Str × List Op
  | _, [], _ => ([], [])
  | n, (l, tried) :: ls, broken =>
    if broken && !tried then workersRun n ls true
    else if l.length ≤ n then
      let r := workersRun (n - l.length) ls broken
      (l ++ r.1, .setResult :: r.2)
    else
      let r := workersRun 0 ls true
      (l.take n ++ r.1, [.setResult, .setExit 4, .stop] ++ r.2)

/-- main.py:262-322 for results that are printed by the workers: what the reader gets and the exit status. -/
def immediateEnd (n : Nat) (fail : Bool) (lines : List (Str × Bool)) : Str × Nat :=
  let r := workersRun n lines false
  (r.1, exitStatus fail (r.2.foldl Ctx.apply Ctx.init))

/-- main.py:285-291: the exit status after an interrupt from the keyboard; `none` stands for the end by the signal. `SystemExit` with a text gives 1. -/
def interruptStatus (debug : Bool) : Option Nat := if debug then none else some 1

end FF
