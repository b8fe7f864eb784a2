import Verif.Model.Registry
import Verif.Model.Expression
import Verif.Model.Parser
import Verif.Model.Walk
/-! The components put together: from the words of an expression to the tests of entries (/repo/libff/parser.py, /repo/libff/filter.py,
/repo/libff/registry.py, /repo/libff/main.py). -/
namespace FF

/-- The world a search runs in. -/
structure SearchEnv where
  cc : CharClass
  /-- the loaded plugins -/
  reg : List PluginDef
  tests : TestEnv
  /-- `--case` -/
  case : CaseMode
  /-- attributes of the file plugin that come from stat() and the like, entry.py:134-167, 182-198, 206-295, 304-326, 340-381; `none` is the KeyError -/
  stat : EntInfo → Str → Option Val
  /-- the values other plugins provide, registry.py:218-273 -/
  data : EntInfo → Str → Str → Option Val
  /-- entry.py:96-117 `Entry.as_reference`; `none` is an OSError -/
  refEntry : Str → Option EntInfo

/-- entry.py:434-446 `Entry.get_attribute`: the attributes derived from the path, see Entry.lean, and the others. -/
def SearchEnv.fileAttr (S : SearchEnv) (i : EntInfo) (name : Str) : Option Val :=
  let e := i.entry
  if name = "path".toList then some (.str e.path) else
  if name = "root".toList then some (.str e.root) else
  if name = "relpath".toList then some (.str e.relpath) else
  if name = "dir".toList then some (.str e.dir) else
  if name = "name".toList then some (.str e.name) else
  if name = "ext".toList then some (.str e.ext) else
  if name = "pathx".toList then some (.str e.pathx) else
  if name = "namex".toList then some (.str e.namex) else
  if name = "depth".toList then some (.int e.depth) else
  if name = "hide".toList then e.hide.map .bool else
  if name = "hidden".toList then some (.bool e.hidden) else S.stat i name

/-- registry.py:275-284 `get_attribute`. -/
def SearchEnv.attr (S : SearchEnv) (i : EntInfo) (a : Attr) : Option Val :=
  if a.1 = "file".toList then S.fileAttr i a.2 else S.data i a.1 a.2

/-- parser.py:235-253 `get_reference_value`; `none` is any exception. -/
def SearchEnv.referenceValue (S : SearchEnv) (ty : Ty) (a : Attr) (reference path : Str) : Option Val :=
  match (if reference ≠ [] then setupAttribute S.reg reference else some a) with
  | none => none
  | some ra => match attributeType S.reg ra with
    | none => none
    | some rty => if (commonSuper none ty.mro rty.mro).isNone then none else
      match S.refEntry path with
      | none => none
      | some i => S.attr i ra

/-- parser.py:278-322: the exceptions of `create_test`. Whatever happens while the value is read or fetched is made a UsageError (parser.py:293-294). -/
def TestErr.fail : TestErr → Fail
  | .operator | .choice | .regex => .expression
  | .value => .usage
  | .crash => .crash

/-- parser.py:168-187 `parse_test`. -/
def SearchEnv.parseTest (S : SearchEnv) (word : Str) : Except PErr (Attr × Test) :=
  match splitTest S.cc word with
  | none => .error (.badTest .expression)
  | some t => match setupAttribute S.reg t.attr with
    | none => .error (.badTest .attribute)
    | some a => match attributeType S.reg a with
      | none => .error (.badTest .attribute)
      | some ty => match createTest S.tests S.case ty t.op (t.ref.map (fun r => S.referenceValue ty a r t.value)) t.value with
        | .error e => .error (.badTest e.fail)
        | .ok test => .ok (a, test)

/-- filter.py:80-87 and 128-135: the outcome of a single test; `none` is the KeyError. -/
def SearchEnv.outcome (S : SearchEnv) (i : EntInfo) (t : Attr × Test) : Option Bool :=
  match S.attr i t.1 with
  | none => none
  | some v => match attributeType S.reg t.1 with
    | none => none
    | some ty => some (ty.test S.tests.low t.2 ⟨i.entry.name, i.isDir⟩ v)

/-- parser.py:216-223 for a single test. -/
def SearchEnv.speed (S : SearchEnv) (t : Attr × Test) : Nat := pluginSpeed S.reg t.1

/-- filter.py:74-90 `Excluder.test` for an entry; an exclude expression that is not accepted (main.py:140-142) ends the program before the search. -/
def SearchEnv.excluded (S : SearchEnv) (exclude : List Str) (i : EntInfo) : Bool :=
  match excluder S.parseTest S.speed exclude (S.outcome i) with
  | .ok (some b) => b
  | _ => false

/-- filter.py:107-111 `Matcher.test` for an entry; tests that are not accepted (main.py:133-138) end the program before the search. -/
def SearchEnv.kept (S : SearchEnv) (tests : List Str) (i : EntInfo) : Bool :=
  match matcher S.parseTest S.speed tests (S.outcome i) with
  | .ok b => b
  | _ => false

/-- main.py:133-142: the excluder and the matcher of a search. -/
def SearchEnv.cfg (S : SearchEnv) (isIgnoreFile : Str → Bool) (jobs : Nat) (slow : Bool) (tests exclude : List Str) : WalkCfg where
  isIgnoreFile := isIgnoreFile
  excl := S.excluded exclude
  keep := S.kept tests
  jobs := jobs
  slow := slow

end FF
