import Verif.Model.Convert
/-! Model of /repo/libff/type.py and of `Parser.create_test` (/repo/libff/parser.py). -/
namespace FF

/-- The classes of type.py, see also `Ty.parent`. -/
inductive Ty
  | string | path | fileType | listOfStrings | number | mode | size | time | duration | boolean
  deriving DecidableEq, Repr

/-- Base class other than `Type` (type.py:131, 162, 189, 217, 244, 279, 380, 398, 415, 433). -/
def Ty.parent : Ty → Option Ty
  | .path => some .string
  | .size | .time | .duration => some .number
  | _ => none

/-- `operators` of each class (type.py:135, 195, 223, 248, 284, 438). -/
def Ty.operators : Ty → List Str
  | .string | .path | .listOfStrings => [['='], [':'], ['~'], ['%']]
  | .fileType | .boolean => [['=']]
  | .number | .size | .time | .duration => [['+', '='], ['-', '='], ['+'], ['-'], ['=']]
  | .mode => [['='], [':'], ['~']]

/-- `string_type` (type.py:72, 138, 226). -/
def Ty.stringType : Ty → Bool
  | .string | .path | .listOfStrings => true
  | _ => false

/-- type.py:198-199 `FileType.choices`. -/
def fileTypeChoices : List Str := ["d", "directory", "f", "file", "l", "symlink", "s", "socket", "p", "pipe",
  "fifo", "char", "block", "door", "port", "whiteout", "other"].map String.toList

/-- type.py:270-276 `Number.test`. -/
def numberTest (op : Str) (testValue value : Int) : Bool :=
  (op = ['='] && value = testValue) || (op = ['+', '='] && value ≥ testValue) || (op = ['-', '='] && value ≤ testValue) ||
  (op = ['+'] && value > testValue) || (op = ['-'] && value < testValue)

/-- type.py:290-291 `MODE_ALL`: S_ISUID | S_ISGID | S_ISVTX | rwxrwxrwx. -/
def modeAll : Nat := 0x800 ||| 0x400 ||| 0x200 ||| 0x1C0 ||| 0x38 ||| 0x7

/-- type.py:371-377 `Mode.test`. -/
def modeTest (op : Str) (testValue value : Nat) : Bool :=
  let tv := testValue &&& modeAll
  let v := value &&& modeAll
  (op = ['='] && v = tv) || (op = [':'] && v &&& tv = tv) || (op = ['~'] && v &&& tv ≠ 0)

/-- Characters of type.py:288. -/
def isWho (c : Char) : Bool := c ∈ ['u', 'g', 'o', 'a']
def isModeOp (c : Char) : Bool := c ∈ ['-', '+', '=']
def isPerm (c : Char) : Bool := c ∈ ['r', 'w', 'x', 'X', 's', 't']
def isOct (c : Char) : Bool := c ∈ ['0', '1', '2', '3', '4', '5', '6', '7']

/-- type.py:288 `([ugoa]*)([-+=])([rwxXst]+)|([-+=])?([0-7]+)$`; the `$` belongs to the second alternative only. -/
def modeRe : Re :=
  .alt (.seq (.cap 1 (.star true isWho)) (.seq (.cap 2 (.chr isModeOp)) (.cap 3 (.plus true isPerm))))
    (.seq (.opt (.cap 4 (.chr isModeOp))) (.seq (.cap 5 (.plus true isOct)) .eol))

/-- type.py:313-321: bits affected by one letter. -/
def whoBits : Char → Nat
  | 'u' => 0x800 ||| 0x1C0
  | 'g' => 0x400 ||| 0x38
  | 'o' => 0x200 ||| 0x7
  | 'a' => modeAll
  | _ => 0

/-- type.py:331-340: bits of one letter. `X` has no branch. -/
def permBits : Char → Nat
  | 'r' => 0x100 ||| 0x20 ||| 0x4
  | 'w' => 0x80 ||| 0x10 ||| 0x2
  | 'x' => 0x40 ||| 0x8 ||| 0x1
  | 's' => 0x800 ||| 0x400
  | 't' => 0x200
  | _ => 0

/-- `a & ~b` on non-negative integers. -/
def andNot (a b : Nat) : Nat := a ^^^ (a &&& b)

/-- `int(s, 8)` for octal digits. -/
def octal (s : Str) : Nat := s.foldl (fun n c => n * 8 + digitVal c) 0

/-- type.py:300-352, one pass of the loop: `affected` and `result` afterwards, `none` is the ValueError. The branches of type.py:323-328 are
unreachable as `value_str` consists of rwxXst. -/
def modeClause (st : Nat × Nat) (part : Str) : Option (Nat × Nat) :=
  match modeRe.match' part with
  | none => none
  | some (c, _) =>
    let r : Nat × Nat × Str :=
      match c.get 1 with
      | some who =>
        let who := if who = [] then ['a'] else who
        (who.foldl (fun a ch => a ||| whoBits ch) st.1, ((c.get 3).getD []).foldl (fun v ch => v ||| permBits ch) 0, (c.get 2).getD [])
      | none => (modeAll, octal ((c.get 5).getD []), (c.get 4).getD ['='])
    let (affected, val, op) := r
    some (affected, if op = ['+'] ∨ op = ['='] then st.2 ||| val else if op = ['-'] then andNot st.2 val else st.2)

/-- The loop over the parts. -/
def modeLoop : Nat × Nat → List Str → Option (Nat × Nat)
  | st, [] => some st
  | st, p :: ps => match modeClause st p with
    | none => none
    | some st' => modeLoop st' ps

/-- type.py:293-354 `Mode.parse_mode`. -/
def parseMode (value : Str) : Option Nat := (modeLoop (0, 0) (splitOn ',' value)).map (fun st => st.1 &&& st.2)

/-- type.py:442-443. -/
def booleanTrue : List Str := ["true", "t", "1", "yes", "y", "on"].map String.toList
def booleanFalse : List Str := ["false", "f", "0", "no", "n", "off"].map String.toList

/-- type.py:445-448 `Boolean.input`; `debug` is python's `__debug__`, without which `assert` is not executed. `low` is `str.lower`. -/
def booleanInput (low : Str → Str) (debug : Bool) (value : Str) : Option Bool :=
  if debug && !(low value ∈ booleanTrue ++ booleanFalse) then none else some (low value ∈ booleanTrue)

/-- type.py:251-259 `Number.input`. -/
def numberInput (value : Str) : Option Int :=
  match pyInt value with
  | none => none
  | some n => if n < 0 then none else some n

/-- Attribute values. -/
inductive Val
  | str (s : Str)
  | strs (l : List Str)
  | int (n : Int)
  | bool (b : Bool)
  deriving DecidableEq

/-- The value of a test (`Test.value`): a regular expression and a glob pattern are represented by what they match; the glob's
boolean is its `include`. -/
inductive TVal
  | val (v : Val)
  | regex (search : Str → Bool)
  | glob (matches' : Str → Str → Bool → Bool) (incl : Bool)

/-- `Test`, parser.py:61-65 (the attribute is kept apart). -/
structure Test where
  op : Str
  type : Ty
  value : TVal
  ignoreCase : Option Bool

/-- What of an entry `Path.test` looks at. -/
structure EntryInfo where
  name : Str
  isDir : Bool

/-- `needle in haystack`. -/
def isInfix (needle : Str) : Str → Bool
  | [] => needle.isPrefixOf []
  | c :: cs => needle.isPrefixOf (c :: cs) || isInfix needle cs

/-- type.py:140-155 `String.test`. -/
def stringTest (low : Str → Str) (t : Test) (value : Str) : Bool :=
  let value := if t.ignoreCase = some true then low value else value
  match t.op, t.value with
  | ['%'], .glob m inc => if m value value false then inc else !inc
  | ['='], .val (.str s) => value = s
  | [':'], .val (.str s) => isInfix s value
  | ['~'], .regex search => search value
  | _, _ => false

/-- type.py:167-181 `Path.test`. -/
def pathTest (low : Str → Str) (t : Test) (e : EntryInfo) (value : Str) : Bool :=
  let value := if t.ignoreCase = some true then low value else value
  match t.op, t.value with
  | ['%'], .glob m inc =>
    let basename := if t.ignoreCase = some true then low e.name else e.name
    if m value basename e.isDir then inc else !inc
  | _, _ => stringTest low t value

/-- type.py:201-214 `FileType.test`. -/
def fileTypeTest (low : Str → Str) (op : Str) (testValue value : Str) : Bool :=
  let tv := low testValue
  let tv := if tv = ['d'] then "directory".toList else if tv = ['f'] then "file".toList else if tv = ['l'] then "symlink".toList
    else if tv = ['s'] then "socket".toList else if tv = ['p'] ∨ tv = "pipe".toList then "fifo".toList else tv
  op = ['='] && value = tv

/-- `type_cls.test(entry, test, value)`; combinations that cannot occur are false. -/
def Ty.test (low : Str → Str) (ty : Ty) (t : Test) (e : EntryInfo) (value : Val) : Bool :=
  match ty, value, t.value with
  | .string, .str v, _ => stringTest low t v
  | .path, .str v, _ => pathTest low t e v
  | .listOfStrings, .strs vs, _ => vs.any (fun v => stringTest low t v)
  | .fileType, .str v, .val (.str tv) => fileTypeTest low t.op tv v
  | .mode, .int v, .val (.int tv) => modeTest t.op tv.toNat v.toNat
  | .boolean, .bool v, .val (.bool tv) => t.op = ['='] && v = tv
  | .number, .int v, .val (.int tv) | .size, .int v, .val (.int tv) | .time, .int v, .val (.int tv) | .duration, .int v, .val (.int tv) =>
    numberTest t.op tv v
  | _, _, _ => false

/-- What `create_test` takes from the outside. -/
structure TestEnv where
  /-- `str.lower` -/
  low : Str → Str
  /-- `__debug__` -/
  debug : Bool
  times : TimeEnv
  /-- `re.compile(pattern)` and `search`; `none` is re.error. -/
  compile : Str → Option (Str → Bool)
  /-- `Glob(pattern, path_pattern)`: matching and `include`. The regular expression is compiled on first use; see Glob.lean. -/
  glob : Bool → Str → (Str → Str → Bool → Bool) × Bool

/-- `--case` (arguments.py). -/
inductive CaseMode | smart | ignore | sensitive
  deriving DecidableEq

/-- `type_cls.input(value)`; `none` is an exception. -/
def Ty.input (env : TestEnv) : Ty → Str → Option Val
  | .number, s => (numberInput s).map .int
  | .size, s => (parseSize s).map (fun n => .int n)
  | .time, s => (parseTime env.times s).map .int
  | .duration, s => (parseDuration s).map .int
  | .mode, s => (parseMode s).map (fun n => .int n)
  | .boolean, s => (booleanInput env.low env.debug s).map .bool
  | _, s => some (.str s)

/-- The errors of `create_test`. `crash` is an exception nothing catches (`lower` of a list). -/
inductive TestErr | operator | value | choice | regex | crash
  deriving DecidableEq

/-- parser.py:299-310, case handling. -/
def ignoresCase (low : Str → Str) (mode : CaseMode) (value : Str) : Bool :=
  match mode with
  | .smart => value = low value
  | .ignore => true
  | .sensitive => false

/-- parser.py:284-295, the value before case handling; `none` is any exception. -/
def testInput (env : TestEnv) (ty : Ty) (reference : Option (Option Val)) (value : Str) : Option Val :=
  match reference with
  | some r => r
  | none => ty.input env value

/-- parser.py:270-322 `create_test`; `reference` is the value of the reference attribute (`none`: unobtainable) if a reference was given. -/
def createTest (env : TestEnv) (mode : CaseMode) (ty : Ty) (op : Str) (reference : Option (Option Val)) (value : Str) : Except TestErr Test :=
  if op ∉ ty.operators then .error .operator else
  match testInput env ty reference value with
  | none => .error .value
  | some v =>
    if ty = .fileType ∧ (∀ s ∈ fileTypeChoices, v ≠ .str s) then .error .choice else
    if ty.stringType then
      match v with
      | .str s =>
        let ic := ignoresCase env.low mode s
        let s := if ic then env.low s else s
        if op = ['~'] then
          match env.compile s with
          | none => .error .regex
          | some f => .ok { op := op, type := ty, value := .regex f, ignoreCase := some ic }
        else if op = ['%'] then
          let g := env.glob (ty = .path) s
          .ok { op := op, type := ty, value := .glob g.1 g.2, ignoreCase := some ic }
        else .ok { op := op, type := ty, value := .val (.str s), ignoreCase := some ic }
      | _ => .error .crash
    else .ok { op := op, type := ty, value := .val v, ignoreCase := none }

/-- `a_type.mro()` without `object`: the class, its bases, and `Type` as `none`. -/
def Ty.mro (t : Ty) : List (Option Ty) :=
  some t :: match t.parent with
    | some p => [some p, none]
    | none => [none]

/-- parser.py:263-268, the loop of `get_common_super_type` over the classes of `a`; `none` is the ValueError. Classes are numbered arbitrarily. -/
def commonSuper {α : Type} [DecidableEq α] (top : α) : List α → List α → Option α
  | [], _ => none
  | c :: cs, b => if c = top then none else if c ∈ b then some c else commonSuper top cs b

end FF
