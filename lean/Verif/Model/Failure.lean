import Verif.Model.Whole
/-! How a run ends that does not come to the search: the exceptions raised by /repo/libff/field.py, parser.py, filter.py and main.py, and the exit
status (/repo/libff/exceptions.py). Plugins that cannot be set up are in Setup.lean; not modelled are failures of man(1) (help.py:260-267). -/
namespace FF

/-- exceptions.py:21-28 and the classes 55-83: the exit status; an exception that nothing catches ends Python with status 1. -/
def Fail.status : Fail → Nat
  | .usage => 2
  | .attribute => 11
  | .expression => 12
  | .crash => 1
  | .plugin => 10

/-- field.py:63-72 `make_field`: the exception, if any. -/
def fieldFail (reg : List PluginDef) (s : Str) : Option Fail :=
  match splitField s with
  | none => some .usage
  | some (name, _, _) => match setupAttribute reg name with
    | none => some .attribute
    | some a => match attributeType reg a with
      | none => some .attribute
      | some _ => none

/-- field.py:89-91 `OutputFields.store`: the first exception. -/
def outputFail (reg : List PluginDef) (argument : List Str) : Option Fail := argument.findSome? (fieldFail reg)

/-- field.py:116-121 `CountFields.store`. -/
def countFail (reg : List PluginDef) (argument : List Str) : Option Fail :=
  match outputFail reg argument with
  | some f => some f
  | none => if (countFields reg argument).isNone then some .usage else none

/-- field.py:189-212 `replace`. -/
def partFail (reg : List PluginDef) (part : Str) : Option Fail :=
  if part = "{{".toList then none else
  if part = "}}".toList then none else
  if part = "{}".toList then fieldFail reg "file.path".toList else
  if part = "{/}".toList then fieldFail reg "file.name".toList else
  if part = "{//}".toList then fieldFail reg "file.dir".toList else
  if part = "{.}".toList then fieldFail reg "file.pathx".toList else
  if part = "{/.}".toList then fieldFail reg "file.namex".toList else
  if part = "{..}".toList then fieldFail reg "file.ext".toList else
  if part.head? = some '{' ∧ part.getLast? = some '}' then fieldFail reg (part.drop 1).dropLast else none

/-- field.py:223-226: one word of a template. -/
def wordFail (reg : List PluginDef) (s : Str) : Option Fail :=
  ((placeholderSplit [] s.length s).filter (· ≠ [])).findSome? (partFail reg)

/-- field.py:214-230 `ExecFields.store`. -/
def execFail (reg : List PluginDef) (argument : List Str) : Option Fail :=
  match argument.findSome? (wordFail reg) with
  | some f => some f
  | none => if (execFields reg argument).isNone then fieldFail reg "file.path".toList else none

/-- field.py:293-297 `ExecBatchFields.store`. -/
def execBatchFail (reg : List PluginDef) (argument : List Str) : Option Fail :=
  match execFail reg argument with
  | some f => some f
  | none => if (execBatchFields reg argument).isNone then some .usage else none

/-- main.py:105-114, in this order. -/
def Settings.planFail (reg : List PluginDef) (s : Settings) : Option Fail :=
  match outputFail reg (expandFile reg s.output) with
  | some f => some f
  | none => match s.sort.bind (outputFail reg) with
    | some f => some f
    | none => match s.fargs.count.bind (countFail reg) with
      | some f => some f
      | none => match s.exec.bind (execFail reg) with
        | some f => some f
        | none => s.execBatch.bind (execBatchFail reg)

/-- The exception of the parser; a ParserError becomes a UsageError for the matcher (main.py:137-138), for the excluder nothing catches it. -/
def PErr.fail (other : Fail) : PErr → Fail
  | .badTest f => f
  | _ => other

/-- parser.py:102-108 `Parser.__init__`: the exception. -/
def parserFail (S : SearchEnv) (other : Fail) (tokens : List Str) : Option Fail :=
  match parse S.parseTest tokens with
  | .error e => some (e.fail other)
  | .ok _ => none

/-- main.py:116-131: the status after showing what was asked for, `none` if nothing was; registry.py:317-325 an unknown plugin is a UsageError. -/
def shownStatus (reg : List PluginDef) (ns : NS) : Option Nat :=
  if ns "action".toList ≠ .unset then some 0 else
  match ns "help".toList with
  | .unset => none
  | .str name => if reg.any (fun p => p.name = name) then some 0 else some 2
  | _ => some 2

/-- main.py:133-142 and 150-176: matcher, excluder, and the start directories (entry.py:80: `there` says whether `os.stat` succeeds). -/
def World.searchFail (W : World) (there : Str → Bool) (ns : NS) (s : Settings) : Option Fail :=
  match parserFail (W.env ns) .usage s.fargs.tests with
  | some f => some f
  | none => match parserFail (W.env ns) .crash s.fargs.exclude with
    | some f => some f
    | none => if s.dirs.all (fun d => there (startRoot s.fargs.absolutePath W.main.cwd d)) then none else some .crash

/-- main.py:59-188 `setup` after the arguments are read. -/
def World.setupStatus (W : World) (there : Str → Bool) (ns : NS) (s : Settings) : Option Nat :=
  match s.planFail W.main.reg with
  | some f => some f.status
  | none => match shownStatus W.main.reg ns with
    | some n => some n
    | none => (W.searchFail there ns s).map Fail.status

/-- main.py:216-224 and arguments.py:334-360: the exit status of a run that ends before the search, `none` if the search begins. -/
def World.startStatus (W : World) (there : Str → Bool) (env : Option Str) (argv : List Str) : Option Nat :=
  match collectArguments env argv with
  | none => some 1
  | some argv => match parseArgs (ffOptions W.main.arg) W.main.arg.maxCpu argv with
    | .error .usage => some 2
    | .error .crash => some 1
    | .ok ns => if ns "help".toList = .str "all".toList then some 0 else
      match (settingsOf ns).process W.main.isdir W.main.cwd with
      | none => some 2
      | some (s, _) => W.setupStatus there ns s

end FF
