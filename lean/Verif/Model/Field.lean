import Verif.Model.Arguments
import Verif.Model.Search
import Verif.Model.Glob
import Verif.Model.Time
import Verif.Model.Status
/-! Model of /repo/libff/field.py: the fields of `--output`, `--count`, `--sort` and of command templates; and of the output methods of
/repo/libff/type.py. -/
namespace FF

/-- field.py:29 `Field`. -/
structure Field where
  attr : Attr
  /-- attribute.py:28-36: `str(attribute)`, the attribute as the user has written it. -/
  label : Str
  type : Ty
  width : Option Str
  modifier : Option Char
  deriving DecidableEq, Repr

/-- `[a-zA-Z0-9_]` of field.py:51. -/
def isNameChar (c : Char) : Bool := c.isAlphanum || c = '_'

/-- `h|o|x|n|v` of field.py:52. -/
def isModifier (c : Char) : Bool := c ∈ ['h', 'o', 'x', 'n', 'v']

/-- `(?::(-?\d+)?(h|o|x|n|v)?)?` of field.py:52. `\d` is restricted to ASCII digits. -/
def fieldTailRe : Re :=
  .opt (.seq (.lit ':') (.seq (.opt (.cap 2 (.seq (.opt (.lit '-')) (.plus true isDigit)))) (.opt (.cap 3 (.chr isModifier)))))

/-- field.py:51-52. -/
def fieldRe : Re :=
  .seq (.cap 1 (.seq (.opt (.seq (.chr Char.isAlpha) (.seq (.plus true isNameChar) (.lit '.'))))
    (.seq (.chr Char.isAlpha) (.plus false isNameChar)))) (.seq fieldTailRe .eol)

/-- field.py:66-69: name, width and modifier. -/
def splitField (s : Str) : Option (Str × Option Str × Option Char) :=
  match fieldRe.match' (strip s) with
  | none => none
  | some (c, _) => some ((c.get 1).getD [], c.get 2, (c.get 3).bind List.head?)

/-- field.py:63-72 `make_field`; `none` is the UsageError or BadAttributeError that ends the program. -/
def makeField (reg : List PluginDef) (s : Str) : Option Field :=
  match splitField s with
  | none => none
  | some (name, width, modifier) => match setupAttribute reg name with
    | none => none
    | some a => match attributeType reg a with
      | none => none
      | some ty => some ⟨a, name, ty, width, modifier⟩

/-- `[f(x) for x in l]` where `f` may raise an exception. -/
def mapOption {α β : Type} (f : α → Option β) : List α → Option (List β)
  | [] => some []
  | x :: xs => match f x with
    | none => none
    | some y => match mapOption f xs with
      | none => none
      | some ys => some (y :: ys)

/-- field.py:89-91 `OutputFields.store`. -/
def outputFields (reg : List PluginDef) (argument : List Str) : Option (List Field) := mapOption (makeField reg) argument

/-- type.py:50-52 `Count`. -/
inductive CountKind
  | total | count | uncountable
  deriving DecidableEq, Repr

/-- type.py:69, 137, 197, 225, 286, 384, 419, 440: `count` of each class. -/
def Ty.count : Ty → CountKind
  | .size | .duration => .total
  | .listOfStrings => .uncountable
  | _ => .count

/-- field.py:116-121 `CountFields.store`. -/
def countFields (reg : List PluginDef) (argument : List Str) : Option (List Field) :=
  match outputFields reg argument with
  | none => none
  | some fs => if fs.any (fun f => f.type.count = .uncountable) then none else some fs

/-- What output depends on: the option `--si` and the time zone. -/
structure OutEnv where
  si : Bool
  zone : Zone

/-- A digit of `f"{n:x}"` and `f"{n:o}"`. -/
def baseDigit (d : Nat) : Char := if d < 10 then Char.ofNat (48 + d) else Char.ofNat (87 + d)

/-- Digits of `n` in base `b`, with fuel. -/
def natBaseAux (b : Nat) : Nat → Nat → Str
  | 0, _ => []
  | f + 1, n => if n < b then [baseDigit n] else natBaseAux b f (n / b) ++ [baseDigit (n % b)]

/-- `f"{n:x}"` and `f"{n:o}"` for `b` 16 and 8. -/
def intBase (b : Nat) (n : Int) : Str :=
  if n < 0 then '-' :: natBaseAux b ((-n).toNat + 1) (-n).toNat else natBaseAux b (n.toNat + 1) n.toNat

/-- `str(value).lower()` of a bool. -/
def boolStr (b : Bool) : Str := if b then "true".toList else "false".toList

/-- `",".join(value)`. -/
def joinStr (sep : Str) : List Str → Str
  | [] => []
  | [w] => w
  | w :: ws => w ++ (sep ++ joinStr sep ws)

/-- type.py:106-113 `str(value)`. Lists only have type ListOfStrings and bools only type Boolean, which do not use it. -/
def valStr : Val → Str
  | .str s => s
  | .strs l => joinStr [','] l
  | .int n => intStr n
  | .bool b => boolStr b

/-- convert.py:79-89 `format_duration` on Python integers (`//` and `%` round down). -/
def formatDurationInt (n : Int) : Str :=
  if n ≥ 0 then formatDuration n.toNat else
    intStr (n / 3600) ++ ['h'] ++ natStr2 ((n % 3600).toNat / 60) ++ ['m'] ++ natStr2 ((n % 60).toNat) ++ ['s']

/-- convert.py:27-45 `format_size`, with the base of type.py:393. -/
def formatSizeInt (si : Bool) (n : Int) : Str := if n < 0 then intStr n else formatSize (if si then 1000 else 1024) n.toNat

/-- type.py:262-268 `Number.output`. -/
def numberOutput (modifier : Option Char) (n : Int) : Str :=
  if modifier = some 'x' then intBase 16 n else if modifier = some 'o' then intBase 8 n else intStr n

/-- type.py:106-113, 234-235, 262-268, 361-369, 391-395, 408-412, 426-430, 451-452: `output`. A value not of its type (which the __debug__ check of
registry.py:265-271 refuses) is shown as `str(value)`. -/
def Ty.output (o : OutEnv) (ty : Ty) (modifier : Option Char) (v : Val) : Str :=
  match ty, v with
  | .mode, .int n => if modifier = some 'h' then fileMode n.toNat else numberOutput modifier n
  | .size, .int n => if modifier = some 'h' then formatSizeInt o.si n else numberOutput modifier n
  | .time, .int n => if modifier = some 'h' then formatTime o.zone n else numberOutput modifier n
  | .duration, .int n => if modifier = some 'h' then formatDurationInt n else numberOutput modifier n
  | .number, .int n => numberOutput modifier n
  | _, v => valStr v

/-- What rendering an entry needs: the attributes, the output of values and `--all`. -/
structure RenderEnv where
  search : SearchEnv
  out : OutEnv
  all : Bool

/-- field.py:93-109 `OutputFields.to_dict`: a value in a record, `none` is `None`. -/
def RenderEnv.recordValue (R : RenderEnv) (i : EntInfo) (f : Field) : Option Val :=
  match R.search.attr i f.attr with
  | none => none
  | some v => if f.modifier = some 'h' then some (.str (f.type.output R.out f.modifier v)) else some v

/-- `d[key] = value` on a `dict` in insertion order. -/
def dictSet {κ ν : Type} [DecidableEq κ] (d : List (κ × ν)) (key : κ) (value : ν) : List (κ × ν) :=
  match d with
  | [] => [(key, value)]
  | (k, v) :: rest => if k = key then (k, value) :: rest else (k, v) :: dictSet rest key value

/-- field.py:93-109 `OutputFields.to_dict`. -/
def RenderEnv.toDict (R : RenderEnv) (fields : List Field) (i : EntInfo) : List (Str × Option Val) :=
  fields.foldl (fun d f => dictSet d f.label (R.recordValue i f)) []

/-! ### Sorting -/

/-- `str.isdigit`, `\d` and `int()` on characters. -/
structure DigitEnv where
  /-- `c.isdigit()` -/
  isdigit : Char → Bool
  /-- the value of a character matching `\d` -/
  dec : Char → Option Nat
  dec_isdigit : ∀ c, (dec c).isSome = true → isdigit c = true
  /-- ASCII digits have their value. -/
  dec_ascii : ∀ c, isDigit c = true → dec c = some (digitVal c)

/-- A part of a name for natural sorting. -/
inductive NatPart
  | text (s : Str)
  | num (n : Nat)
  deriving DecidableEq, Repr

/-- A component of a sort key. -/
inductive SKey
  | str (s : Str)
  | strs (l : List Str)
  | int (n : Int)
  | bool (b : Bool)
  | nat (l : List (List NatPart))
  deriving DecidableEq, Repr

/-- type.py:136, 196, 224, 249, 285, 439: `sort_none`. -/
def Ty.sortNone : Ty → SKey
  | .string | .path | .fileType => .str []
  | .listOfStrings => .strs []
  | .boolean => .bool false
  | _ => .int 0

/-- type.py:184-186 `Path.sort_key`. -/
def pathSortKey (low : Str → Str) (value : Str) : Str := joinWith '/' ((splitOn '/' (low value)).map (lstripChar '.'))

/-- type.py:125-128, 157-159, 183-186: `sort_key`. -/
def Ty.sortKey (low : Str → Str) (ty : Ty) (v : Val) : SKey :=
  match ty, v with
  | .string, .str s => .str (low s)
  | .path, .str s => .str (pathSortKey low s)
  | _, .str s => .str s
  | _, .strs l => .strs l
  | _, .int n => .int n
  | _, .bool b => .bool b

/-- field.py:134-141: strip extensions; the remaining component and the extensions. -/
def stripExtensions (D : DigitEnv) : Nat → Str → List Str → Str × List Str
  | 0, component, extensions => (component, extensions)
  | fuel + 1, component, extensions =>
    if component = [] then (component, extensions) else
      match lstripChar '.' (splitext component).2 with
      | [] => (component, extensions)
      | x :: xs => if D.isdigit x then (component, extensions)
        else stripExtensions D fuel (splitext component).1 ((x :: xs) :: extensions)

/-- `regex_digits.split(component)` of field.py:145: text, digits, text, ..., text. `digits` tells that `cur` is a run of digits. -/
def digitSplit (D : DigitEnv) (digits : Bool) (cur : Str) : Str → List Str
  | [] => if digits then [cur, []] else [cur]
  | x :: xs =>
    if (D.dec x).isSome = digits then digitSplit D digits (cur ++ [x]) xs
    else cur :: digitSplit D (!digits) [x] xs

/-- `p.isdigit()`. -/
def strIsDigit (D : DigitEnv) (p : Str) : Bool := p ≠ [] && p.all D.isdigit

/-- `int(p)` of a string of digits; `none` is ValueError. -/
def digitsInt (D : DigitEnv) (p : Str) : Option Nat :=
  p.foldl (fun n c => match n, D.dec c with
    | some n, some d => some (n * 10 + d)
    | _, _ => none) (some 0)

/-- field.py:150: a token; `none` is ValueError. -/
def natToken (D : DigitEnv) (p : Str) : Option NatPart := if strIsDigit D p then (digitsInt D p).map .num else some (.text p)

/-- field.py:130-154 `prepare_component`; `none` is ValueError. -/
def prepareComponent (D : DigitEnv) (component : Str) : Option (List (List NatPart)) :=
  let st := stripExtensions D component.length component []
  let parts := digitSplit D false [] st.1
  let parts := if strIsDigit D (parts.headD []) then [] :: parts else parts
  match mapOption (natToken D) parts with
  | none => none
  | some tokens => some (tokens :: if st.2 = [] then [] else [st.2.map .text])

/-- field.py:156-164 `prepare_sort_key`. -/
def prepareSortKey (D : DigitEnv) (value : Str) : Option (List (List NatPart)) :=
  (mapOption (prepareComponent D) (splitOn '/' (normpath value))).map List.flatten

/-- field.py:170-179: the part of the sort key for a field; `none` is an exception (ValueError, or TypeError for the v modifier on values other than
strings, posixpath.py `normpath`). -/
def RenderEnv.sortPart (R : RenderEnv) (D : DigitEnv) (i : EntInfo) (f : Field) : Option SKey :=
  match R.search.attr i f.attr with
  | none => some f.type.sortNone
  | some v => match f.type.sortKey R.search.tests.low v with
    | .str s => if f.modifier = some 'v' then (prepareSortKey D s).map .nat else some (.str s)
    | k => if f.modifier = some 'v' then none else some k

/-- field.py:166-180 `SortFields.render`. -/
def RenderEnv.sortKey (R : RenderEnv) (D : DigitEnv) (fields : List Field) (i : EntInfo) : Option (List SKey) :=
  mapOption (R.sortPart D i) fields

/-- CPython `a < b` on lists and tuples: the first difference decides; `none` is TypeError. -/
def lexLt {α : Type} [DecidableEq α] (lt : α → α → Option Bool) : List α → List α → Option Bool
  | _, [] => some false
  | [], _ :: _ => some true
  | a :: as, b :: bs => if a = b then lexLt lt as bs else lt a b

/-- CPython `a < b` on `str`. -/
def strLt (a b : Str) : Bool := !strLe b a

/-- CPython `a < b` on tokens. -/
def NatPart.lt : NatPart → NatPart → Option Bool
  | .text a, .text b => some (strLt a b)
  | .num a, .num b => some (decide (a < b))
  | _, _ => none

/-- CPython `a < b` on parts of sort keys; the parts of a field have one type unless natural sorting is involved. -/
def SKey.lt : SKey → SKey → Option Bool
  | .str a, .str b => some (strLt a b)
  | .strs a, .strs b => lexLt (fun a b => some (strLt a b)) a b
  | .int a, .int b => some (decide (a < b))
  | .bool a, .bool b => some (!a && b)
  | .nat a, .nat b => lexLt (lexLt NatPart.lt) a b
  | _, _ => none

/-- CPython `a < b` on sort keys. -/
def keyLt (a b : List SKey) : Option Bool := lexLt SKey.lt a b

/-! ### Commands -/

/-- An element of field.py:219-222: text or a placeholder. -/
inductive Part
  | text (s : Str)
  | field (f : Field)
  deriving DecidableEq, Repr

/-- `isinstance(field, Field)`. -/
def Part.isField : Part → Bool
  | .field _ => true
  | .text _ => false

/-- Length of the match of `{{|}}|{[^}]*}` (field.py:187) at the beginning, 0 if there is none. -/
def placeholderLen : Str → Nat
  | '{' :: '{' :: _ => 2
  | '}' :: '}' :: _ => 2
  | '{' :: r => match findChar '}' r with
    | some n => n + 2
    | none => 0
  | _ => 0

/-- `regex_placeholder.split(string)` of field.py:225; `cur` is the text since the last match. -/
def placeholderSplit (cur : Str) : Nat → Str → List Str
  | 0, _ => [cur]
  | _, [] => [cur]
  | fuel + 1, x :: xs =>
    if placeholderLen (x :: xs) = 0 then placeholderSplit (cur ++ [x]) fuel xs
    else cur :: (x :: xs).take (placeholderLen (x :: xs)) :: placeholderSplit [] fuel ((x :: xs).drop (placeholderLen (x :: xs)))

/-- field.py:189-212 `replace`. -/
def replacePart (reg : List PluginDef) (part : Str) : Option Part :=
  if part = "{{".toList then some (.text "{".toList) else
  if part = "}}".toList then some (.text "}".toList) else
  if part = "{}".toList then (makeField reg "file.path".toList).map .field else
  if part = "{/}".toList then (makeField reg "file.name".toList).map .field else
  if part = "{//}".toList then (makeField reg "file.dir".toList).map .field else
  if part = "{.}".toList then (makeField reg "file.pathx".toList).map .field else
  if part = "{/.}".toList then (makeField reg "file.namex".toList).map .field else
  if part = "{..}".toList then (makeField reg "file.ext".toList).map .field else
  if part.head? = some '{' ∧ part.getLast? = some '}' then (makeField reg (part.drop 1).dropLast).map .field else
  some (.text part)

/-- field.py:223-226: one word of a template. -/
def templateWord (reg : List PluginDef) (s : Str) : Option (List Part) :=
  mapOption (replacePart reg) ((placeholderSplit [] s.length s).filter (· ≠ []))

/-- field.py:214-230 `ExecFields.store`. -/
def execFields (reg : List PluginDef) (argument : List Str) : Option (List (List Part)) :=
  match mapOption (templateWord reg) argument with
  | none => none
  | some fields => if (fields.drop 1).flatten.any Part.isField then some fields
    else (makeField reg "file.path".toList).map (fun f => fields ++ [[.field f]])

/-- field.py:293-297 `ExecBatchFields.store`. -/
def execBatchFields (reg : List PluginDef) (argument : List Str) : Option (List (List Part)) :=
  match execFields reg argument with
  | none => none
  | some fields => if (fields.headD []).any Part.isField then none else some fields

/-- field.py:232-247 `render_field`; `none` is KeyError. -/
def RenderEnv.renderPart (R : RenderEnv) (i : EntInfo) : Part → Option Str
  | .text s => some s
  | .field f => match R.search.attr i f.attr with
    | none => if R.all || f.modifier = some 'n' then some [] else none
    | some v => some (f.type.output R.out f.modifier v)

/-- field.py:265-268: one argument for an entry. -/
def RenderEnv.renderArgument (R : RenderEnv) (subfields : List Part) (i : EntInfo) : Option Str :=
  (mapOption (R.renderPart i) subfields).map List.flatten

/-- field.py:278: the text of a word without placeholder. -/
def Part.plain : Part → Str
  | .text s => s
  | .field _ => []

/-- field.py:249-280 `render_fields`; `none` is KeyError. -/
def RenderEnv.renderFields (R : RenderEnv) (fields : List (List Part)) (entries : List EntInfo) (batch : Bool) : Option (List Str) :=
  (mapOption (fun subfields =>
    if subfields.any Part.isField then
      if batch then some (entries.filterMap (R.renderArgument subfields)) else mapOption (R.renderArgument subfields) entries
    else some [(subfields.map Part.plain).flatten]) fields).map List.flatten

/-- field.py:282-285 `ExecFields.render`. -/
def RenderEnv.execRender (R : RenderEnv) (fields : List (List Part)) (i : EntInfo) : Option (List Str) := R.renderFields fields [i] false

/-- field.py:300-303 `ExecBatchFields.render`. -/
def RenderEnv.batchRender (R : RenderEnv) (fields : List (List Part)) (entries : List EntInfo) : List Str :=
  ((fields.headD []).map Part.plain).flatten :: (R.renderFields (fields.drop 1) entries true).getD []

end FF
