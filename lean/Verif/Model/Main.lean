import Verif.Model.Context
import Verif.Model.Find
import Verif.Model.Protocol
import Verif.Model.Reference
/-! Model of /repo/libff/arguments.py and /repo/libff/main.py: from the environment and the command line to what is searched and printed. -/
namespace FF

/-! ### Arguments -/

/-- arguments.py:174-185 `collect_arguments`; `ffOptions` is `os.environ.get("FF_OPTIONS")`, `none` the ValueError of `shlex.split`. -/
def collectArguments (ffOptions : Option Str) (argv : List Str) : Option (List Str) :=
  match ffOptions with
  | none => some argv
  | some s => if s = [] then some argv else (shlexSplit s).map (· ++ argv)

/-- The values of a `Namespace`, by type. -/
def NVal.toWords : NVal → List Str
  | .strs l => l
  | _ => []

/-- A list or None. -/
def NVal.toOptWords : NVal → Option (List Str)
  | .strs l => some l
  | _ => none

/-- A string or None. -/
def NVal.toOptStr : NVal → Option Str
  | .str s => some s
  | _ => none

/-- The argument of `--depth`. -/
def NVal.toRanges : NVal → List (Int × Option Int)
  | .ranges l => l
  | _ => []

/-- The argument of `--limit`. -/
def NVal.toSlice : NVal → Option (Int × Option Int)
  | .slice a b => some (a, b)
  | _ => none

/-- What ff does with a Namespace: the arguments of `process_arguments` and the others. -/
structure Settings where
  fargs : FArgs
  dirs : List Str
  output : List Str
  sort : Option (List Str)
  reverse : Bool
  limit : Option (Int × Option Int)
  exec : Option (List Str)
  execBatch : Option (List Str)
  profile : Bool
  /-- `args.action is not None or args.help is not None`: a manual page or the like is shown -/
  shows : Bool

/-- The Namespace as a record. -/
def settingsOf (ns : NS) : Settings where
  fargs :=
    { tests := (ns "tests".toList).toWords, exclude := (ns "exclude".toList).toWords, json := (ns "json".toList).toOptStr,
      color := ((ns "color".toList).toOptStr).getD [], absolutePath := (ns "absolute_path".toList).truthy, ignore := (ns "ignore".toList).truthy,
      oneFileSystem := (ns "one_file_system".toList).truthy, hide := (ns "hide".toList).truthy, depth := (ns "depth".toList).toRanges,
      count := (ns "count".toList).toOptWords }
  dirs := (ns "directories".toList).toWords
  output := (ns "output".toList).toWords
  sort := (ns "sort".toList).toOptWords
  reverse := (ns "reverse".toList).truthy
  limit := (ns "limit".toList).toSlice
  exec := (ns "exec".toList).toOptWords
  execBatch := (ns "exec_batch".toList).toOptWords
  profile := (ns "profile".toList).truthy
  shows := ns "action".toList ≠ .unset || ns "help".toList ≠ .unset

/-- Python truth value of a list or None. -/
def given (l : Option (List Str)) : Bool := l.getD [] ≠ []

/-- arguments.py:202-215 `check_for_errors`: a UsageError is raised. Without `__debug__` there is no `--profile`. -/
def Settings.conflict (s : Settings) : Bool :=
  (s.profile && (given s.exec || given s.execBatch)) ||
  (given s.fargs.count && (given s.exec || given s.execBatch)) ||
  (given s.fargs.count && s.limit.isSome)

/-- The warnings of arguments.py:217-239. -/
inductive Warning
  | outputExec | sortCount | outputCount | limitSort
  deriving DecidableEq

/-- arguments.py:222-225. -/
def warnOutputExec (s : Settings) : Settings × List Warning :=
  if s.output ≠ ["path".toList] ∧ (given s.exec || given s.execBatch) = true then ({ s with output := ["path".toList] }, [.outputExec]) else (s, [])

/-- arguments.py:228-230. -/
def warnSortCount (s : Settings) : Settings × List Warning :=
  if given s.fargs.count ∧ given s.sort then ({ s with sort := none }, [.sortCount]) else (s, [])

/-- arguments.py:232-234. -/
def warnOutputCount (s : Settings) : Settings × List Warning :=
  if given s.fargs.count ∧ s.output ≠ ["path".toList] then ({ s with output := ["path".toList] }, [.outputCount]) else (s, [])

/-- arguments.py:236-239. -/
def warnLimitSort (s : Settings) : List Warning := if s.limit.isSome ∧ ¬ given s.sort then [.limitSort] else []

/-- arguments.py:217-241 `collect_warnings`. -/
def collectWarnings (s : Settings) : Settings × List Warning :=
  let a := warnOutputExec s
  let b := warnSortCount a.1
  let c := warnOutputCount b.1
  (c.1, a.2 ++ b.2 ++ c.2 ++ warnLimitSort c.1)

/-- arguments.py:194-200 `process`; `none` is a UsageError. -/
def Settings.process (isdir : Str → Bool) (cwd : Str) (s : Settings) : Option (Settings × List Warning) :=
  match processDirectories isdir cwd s.fargs.tests s.dirs with
  | none => none
  | some (tests, dirs) =>
    let s := { s with fargs := processArguments { s.fargs with tests := tests }, dirs := dirs }
    if s.conflict then none else some (collectWarnings s)

/-! ### Setup -/

/-- registry.py:146-150, 305-310 `get_file_attributes`. -/
def fileAttributes (reg : List PluginDef) : List Str :=
  pySort strLe ((reg.filter (fun p => p.name = "file".toList)).flatMap (fun p => p.attrs.map Prod.fst))

/-- main.py:99-103: the first "file" in `--output` is replaced. -/
def expandFile (reg : List PluginDef) : List Str → List Str
  | [] => []
  | w :: ws => if w = "file".toList then (fileAttributes reg).map (· ++ ":n".toList) ++ ws else w :: expandFile reg ws

/-- What a run is going to do. -/
structure Plan where
  mode : Mode
  tests : List Str
  exclude : List Str
  dirs : List Str
  absolute : Bool
  ignore : Bool
  output : List Field
  sort : Option (List Field)
  reverse : Bool
  count : Option (List Field)
  limit : Option (Int × Option Int)
  exec : Option (List (List Part))
  execBatch : Option (List (List Part))
  json : Option Str
  color : Str

/-- `F(context, args) if args is not None`; the outer `none` is an error. -/
def optFields {α : Type} (f : List Str → Option α) : Option (List Str) → Option (Option α)
  | none => some none
  | some ws => (f ws).map some

/-- main.py:99-114 and 242-255: the plan for the settings; `none` is a UsageError. -/
def Settings.plan (reg : List PluginDef) (s : Settings) : Option Plan :=
  match outputFields reg (expandFile reg s.output), optFields (outputFields reg) s.sort, optFields (countFields reg) s.fargs.count,
    optFields (execFields reg) s.exec, optFields (execBatchFields reg) s.execBatch with
  | some output, some sort, some count, some exec, some execBatch =>
    some { mode := setupProcessing (given s.sort) (given s.fargs.count) s.limit.isSome (given s.execBatch) (s.fargs.json = some "json".toList) (given s.exec),
           tests := s.fargs.tests, exclude := s.fargs.exclude, dirs := s.dirs, absolute := s.fargs.absolutePath, ignore := s.fargs.ignore,
           output := output, sort := sort, reverse := s.reverse, count := count, limit := s.limit, exec := exec, execBatch := execBatch,
           json := s.fargs.json, color := s.fargs.color }
  | _, _, _, _, _ => none

/-- What the program does. -/
inductive Outcome
  /-- an error message and exit status EX_USAGE -/
  | usage
  /-- an exception that nothing catches -/
  | crash
  /-- help, version or cache cleaning -/
  | shown
  | search (p : Plan) (warnings : List Warning)

/-- The world of a run: what create_parser and the post-processing ask for, and the loaded plugins. -/
structure MainEnv where
  arg : ArgEnv
  isdir : Str → Bool
  cwd : Str
  reg : List PluginDef

/-- arguments.py:334-360 `parse_arguments` and main.py:59-142 up to the matcher: the outcome for a list of arguments. Whether the tests and exclude tests
are accepted is a matter of `SearchEnv.kept` and `SearchEnv.excluded`. -/
def MainEnv.run (M : MainEnv) (argv : List Str) : Outcome :=
  match parseArgs (ffOptions M.arg) M.arg.maxCpu argv with
  | .error .usage => .usage
  | .error .crash => .crash
  | .ok ns =>
    if ns "help".toList = .str "all".toList then .shown else
      match (settingsOf ns).process M.isdir M.cwd with
      | none => .usage
      | some (s, warnings) => match s.plan M.reg with
        | none => .usage
        | some p => if s.shows then .shown else .search p warnings

/-- arguments.py:339-340: the whole program. -/
def MainEnv.main (M : MainEnv) (ffOptions : Option Str) (argv : List Str) : Outcome :=
  match collectArguments ffOptions argv with
  | none => .crash
  | some argv => M.run argv

end FF
