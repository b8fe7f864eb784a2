import Verif.Model.Processing
/-! Model of /repo/libff/context.py (the state shared by all processes), of running commands, and of the exit status (main.py). -/
namespace FF

/-- context.py:49-59, 74-88: the shared state. `stopping` is `is_stopping()`. -/
structure Ctx where
  exitcode : Nat
  succeeded : Nat
  failed : Nat
  stopping : Bool
  hasResult : Bool
  deriving DecidableEq

/-- context.py:61-88 `setup`. -/
def Ctx.init : Ctx := ⟨0, 0, 0, false, false⟩

/-- The operations on the shared state, each of them atomic: assignments to a RawValue or a Value, `+=` under the lock of the value, and `put`. -/
inductive Op
  /-- context.py:95-98 `set_exitcode` -/
  | setExit (code : Nat)
  /-- context.py:177-178 -/
  | incFailed
  /-- context.py:185-186 -/
  | incSucceeded
  /-- context.py:139-143 `stop` -/
  | stop
  /-- context.py:106-109 `set_has_result` -/
  | setResult
  deriving DecidableEq

/-- The effect of an operation. -/
def Ctx.apply (s : Ctx) : Op → Ctx
  | .setExit code => { s with exitcode := code }
  | .incFailed => { s with failed := s.failed + 1 }
  | .incSucceeded => { s with succeeded := s.succeeded + 1 }
  | .stop => { s with stopping := true }
  | .setResult => { s with hasResult := true }

/-- The value of `--halt`; the argument parser does not check the choices, see `C54`. -/
inductive Halt
  | never
  | soon
  | now
  | other
  deriving DecidableEq

/-- A command: what `wait()` returns if it is waited for, `none` if it cannot be started (OSError); and whether `is_stopping()` becomes true before it ends. -/
structure Command where
  code : Option Int
  interrupted : Bool
  deriving DecidableEq

/-- context.py:150-173 of `run_exec_process`: the exit code that counts. -/
def execExit (halt : Halt) (c : Command) : Int :=
  match c.code with
  | none => 1
  | some code => match halt with
    | .never | .soon => code
    | .now => if c.interrupted then 1 else code
    | .other => 1

/-- context.py:175-186: the operations after the command. EX_SUBPROCESS is 3. -/
def execOps (halt : Halt) (exitcode : Int) : List Op :=
  if exitcode ≠ 0 then [.setExit 3, .incFailed] ++ (if halt = .soon ∨ halt = .now then [.stop] else []) else [.incSucceeded]

/-- context.py:145-186 `run_exec_process`. -/
def runExecProcess (halt : Halt) (c : Command) : List Op := execOps halt (execExit halt c)

/-- processing.py: the Processing classes, as far as `set_has_result` is concerned. -/
inductive Mode
  /-- ImmediateConsoleProcessing -/
  | console
  /-- ImmediateExecProcessing -/
  | exec
  /-- CollectiveConsoleProcessing -/
  | collectiveConsole
  /-- CollectiveExecProcessing -/
  | collectiveExec
  deriving DecidableEq

/-- main.py:242-255 `setup_processing`: `sort`, `count`, `limit`, `execBatch`, `json`, `exec` tell whether the option is given (`--json`, not `--jsonl`). -/
def setupProcessing (sort count limit execBatch json exec : Bool) : Mode :=
  if sort || count || limit || execBatch || json then
    if exec || execBatch then .collectiveExec else .collectiveConsole
  else if exec then .exec else .console

/-- Results are collected first. -/
def Mode.collective : Mode → Bool
  | .collectiveConsole | .collectiveExec => true
  | _ => false

/-- What a process does, as far as the shared state is concerned. -/
inductive Task
  /-- a command is run, walk.py:239-242 or processing.py:78 -/
  | command (c : Command)
  /-- a chunk of so many results is handed to `process`, walk.py:233-237 -/
  | results (n : Nat)
  /-- an unexpected exception, walk.py:123-130; or the main process finds that a process has died, processing.py:109-112 -/
  | crash
  deriving DecidableEq

/-- The operations of a task: processing.py:177-179, 197-199 for results (nothing in processing.py:225-226); walk.py:125-126. EX_PROCESS is 4. -/
def Task.ops (halt : Halt) (mode : Mode) : Task → List Op
  | .command c => runExecProcess halt c
  | .results n => if mode.collective then [] else if n = 0 then [] else [.setResult]
  | .crash => [.setExit 4, .stop]

/-- processing.py:252-257 `finalize` of the main process: `n` entries have been collected. -/
def finalizeOps (mode : Mode) (n : Nat) : List Op := if mode.collective && n ≠ 0 then [.setResult] else []

/-- main.py:308-322: the exit status at the end of `walk`, by way of the exceptions and main.py:232-240 `handle_exception`. -/
def exitStatus (fail : Bool) (s : Ctx) : Nat :=
  if s.exitcode = 3 then 3 else if s.exitcode = 4 then 4 else if fail && !s.hasResult then 1 else 0

/-- A run of several processes: their operations in some order, those of each process in its own order. -/
inductive Interleaving {α : Type} : List (List α) → List α → Prop
  | done {ps : List (List α)} : (∀ p ∈ ps, p = []) → Interleaving ps []
  | step {a b : List (List α)} {x : α} {p t : List α} : Interleaving (a ++ p :: b) t → Interleaving (a ++ (x :: p) :: b) (x :: t)

/-- processing.py:66-78 `thread` with a single job: the commands that are run. -/
def jobLoop (halt : Halt) : Ctx → List Command → Ctx × List Command
  | s, [] => (s, [])
  | s, c :: cs =>
    if s.stopping then (s, []) else
      let r := jobLoop halt ((runExecProcess halt c).foldl Ctx.apply s) cs
      (r.1, c :: r.2)

/-- An element of the queue of the walker: the arguments of a command, or directories and entries. Processing these puts further elements at the end. -/
inductive QItem
  | command (c : Command)
  | search (next : List QItem)

/-- walk.py:89-119 `loop` with a single job and ImmediateExecProcessing: the commands that are run. Only one command is in an element of the queue
(processing.py:203). -/
def workerLoop (halt : Halt) : Nat → Ctx → List QItem → Ctx × List Command × List QItem
  | 0, s, q => (s, [], q)
  | fuel + 1, s, q =>
    if s.stopping then (s, [], q) else
      match q with
      | [] => (s, [], [])
      | .search next :: q => workerLoop halt fuel s (q ++ next)
      | .command c :: q =>
        let r := workerLoop halt fuel ((runExecProcess halt c).foldl Ctx.apply s) q
        (r.1, c :: r.2.1, r.2.2)

/-- processing.py:368-389 with `set_exitcode`, then main.py:308-322; SubprocessError has exit status 3. -/
def batchStatus {α : Type} (fail : Bool) (s : Ctx) (r : List (List α × Int) × BatchEnd) : Nat :=
  match r.2 with
  | .failed => 3
  | _ => exitStatus fail (((r.1.filter (fun x => x.2 ≠ 0)).map (fun _ => Op.setExit 3)).foldl Ctx.apply s)

end FF
