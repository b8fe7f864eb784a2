import Verif.Model.Failure
import Verif.Model.Loading
/-! Plugins that cannot be loaded or set up: the functions of Failure.lean once more, with `ok p` saying whether the set-up of plugin `p` succeeds (registry.py:152-166 `init_plugin`:
a module that is missing, or any other exception, is a BadPluginError). -/
namespace FF

/-- registry.py:203-216 `setup_attribute`, in which the plugin is set up, and field.py:63-72 `make_field`. -/
def fieldFailU (reg : List PluginDef) (ok : Str → Bool) (s : Str) : Option Fail :=
  match splitField s with
  | none => some .usage
  | some (name, _, _) => match setupAttribute reg name with
    | none => some .attribute
    | some a =>
      if ok a.1 then
        match attributeType reg a with
        | none => some .attribute
        | some _ => none
      else some .plugin

/-- field.py:89-91 `OutputFields.store`. -/
def outputFailU (reg : List PluginDef) (ok : Str → Bool) (argument : List Str) : Option Fail := argument.findSome? (fieldFailU reg ok)

/-- field.py:116-121 `CountFields.store`. -/
def countFailU (reg : List PluginDef) (ok : Str → Bool) (argument : List Str) : Option Fail :=
  match outputFailU reg ok argument with
  | some f => some f
  | none => if (countFields reg argument).isNone then some .usage else none

/-- field.py:189-212 `replace`. -/
def partFailU (reg : List PluginDef) (ok : Str → Bool) (part : Str) : Option Fail :=
  if part = "{{".toList then none else
  if part = "}}".toList then none else
  if part = "{}".toList then fieldFailU reg ok "file.path".toList else
  if part = "{/}".toList then fieldFailU reg ok "file.name".toList else
  if part = "{//}".toList then fieldFailU reg ok "file.dir".toList else
  if part = "{.}".toList then fieldFailU reg ok "file.pathx".toList else
  if part = "{/.}".toList then fieldFailU reg ok "file.namex".toList else
  if part = "{..}".toList then fieldFailU reg ok "file.ext".toList else
  if part.head? = some '{' ∧ part.getLast? = some '}' then fieldFailU reg ok (part.drop 1).dropLast else none

/-- field.py:223-226: one word of a template. -/
def wordFailU (reg : List PluginDef) (ok : Str → Bool) (s : Str) : Option Fail :=
  ((placeholderSplit [] s.length s).filter (· ≠ [])).findSome? (partFailU reg ok)

/-- field.py:214-230 `ExecFields.store`. -/
def execFailU (reg : List PluginDef) (ok : Str → Bool) (argument : List Str) : Option Fail :=
  match argument.findSome? (wordFailU reg ok) with
  | some f => some f
  | none => if (execFields reg argument).isNone then fieldFailU reg ok "file.path".toList else none

/-- field.py:293-297 `ExecBatchFields.store`. -/
def execBatchFailU (reg : List PluginDef) (ok : Str → Bool) (argument : List Str) : Option Fail :=
  match execFailU reg ok argument with
  | some f => some f
  | none => if (execBatchFields reg argument).isNone then some .usage else none

/-- main.py:105-114, in this order. -/
def Settings.planFailU (reg : List PluginDef) (ok : Str → Bool) (s : Settings) : Option Fail :=
  match outputFailU reg ok (expandFile reg s.output) with
  | some f => some f
  | none => match s.sort.bind (outputFailU reg ok) with
    | some f => some f
    | none => match s.fargs.count.bind (countFailU reg ok) with
      | some f => some f
      | none => match s.exec.bind (execFailU reg ok) with
        | some f => some f
        | none => s.execBatch.bind (execBatchFailU reg ok)

/-- parser.py:235-253 `get_reference_value`; `none` is any exception, also the one of a plugin that cannot be set up. -/
def SearchEnv.referenceValueU (S : SearchEnv) (ok : Str → Bool) (ty : Ty) (a : Attr) (reference path : Str) : Option Val :=
  match (if reference ≠ [] then setupAttribute S.reg reference else some a) with
  | none => none
  | some ra =>
    if ok ra.1 then
      match attributeType S.reg ra with
      | none => none
      | some rty => if (commonSuper none ty.mro rty.mro).isNone then none else
        match S.refEntry path with
        | none => none
        | some i => S.attr i ra
    else none

/-- parser.py:168-187 `parse_test`; the plugin is set up after the word has been split and before anything else is looked at. -/
def SearchEnv.parseTestU (S : SearchEnv) (ok : Str → Bool) (word : Str) : Except PErr (Attr × Test) :=
  match splitTest S.cc word with
  | none => .error (.badTest .expression)
  | some t => match setupAttribute S.reg t.attr with
    | none => .error (.badTest .attribute)
    | some a =>
      if ok a.1 then
        match attributeType S.reg a with
        | none => .error (.badTest .attribute)
        | some ty => match createTest S.tests S.case ty t.op (t.ref.map (fun r => S.referenceValueU ok ty a r t.value)) t.value with
          | .error e => .error (.badTest e.fail)
          | .ok test => .ok (a, test)
      else .error (.badTest .plugin)

/-- parser.py:102-108 `Parser.__init__`. -/
def parserFailU (S : SearchEnv) (ok : Str → Bool) (other : Fail) (tokens : List Str) : Option Fail :=
  match parse (S.parseTestU ok) tokens with
  | .error e => some (e.fail other)
  | .ok _ => none

/-- main.py:133-142 and 150-176: matcher, excluder and start directories. -/
def World.searchFailU (W : World) (ok : Str → Bool) (there : Str → Bool) (ns : NS) (s : Settings) : Option Fail :=
  match parserFailU (W.env ns) ok .usage s.fargs.tests with
  | some f => some f
  | none => match parserFailU (W.env ns) ok .crash s.fargs.exclude with
    | some f => some f
    | none => if s.dirs.all (fun d => there (startRoot s.fargs.absolutePath W.main.cwd d)) then none else some .crash

/-- main.py:59-188 `setup` after the arguments are read; main.py:93-95: the plugins are loaded before anything else, `loaded` is how that ends. -/
def World.setupStatusU (W : World) (loaded : LoadResult) (ok : Str → Bool) (there : Str → Bool) (ns : NS) (s : Settings) : Option Nat :=
  match loaded with
  | .badPlugin => some 10
  | .crash => some 1
  | .ok => match s.planFailU W.main.reg ok with
    | some f => some f.status
    | none => match shownStatus W.main.reg ns with
      | some n => some n
      | none => (W.searchFailU ok there ns s).map Fail.status

/-- main.py:216-224 and arguments.py:334-360: the exit status of a run that ends before the search, `none` if the search begins. -/
def World.startStatusU (W : World) (loaded : LoadResult) (ok : Str → Bool) (there : Str → Bool) (env : Option Str) (argv : List Str) : Option Nat :=
  match collectArguments env argv with
  | none => some 1
  | some argv => match parseArgs (ffOptions W.main.arg) W.main.arg.maxCpu argv with
    | .error .usage => some 2
    | .error .crash => some 1
    | .ok ns => if ns "help".toList = .str "all".toList then some 0 else
      match (settingsOf ns).process W.main.isdir W.main.cwd with
      | none => some 2
      | some (s, _) => W.setupStatusU loaded ok there ns s

end FF
