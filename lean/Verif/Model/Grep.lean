import Verif.Model.PyStr
/-! Model of /repo/libff/builtin/grep.py and /repo/libff/builtin/mime.py. -/
namespace FF

/-- CPython `open()` in text mode: `\r\n` and `\r` are read as `\n`. -/
def universalNewlines : Str → Str
  | [] => []
  | '\r' :: '\n' :: s => '\n' :: universalNewlines s
  | c :: s => (if c = '\r' then '\n' else c) :: universalNewlines s

/-- CPython `readlines()` after the translation of line ends; lines keep their `\n`. -/
def readlines : Str → List Str
  | [] => []
  | c :: s =>
    if c = '\n' then [c] :: readlines s
    else match readlines s with
      | [] => [[c]]
      | l :: ls => (c :: l) :: ls

/-- The attributes of the plugin `grep`; `none` if there is no value. -/
structure GrepData where
  text : Bool
  linecount : Option Nat
  lines : Option (List Str)
deriving DecidableEq, Repr

/-- builtin/grep.py:38-51 `process` for a file that can be opened; `content` is the decoded content, `none` if it cannot be decoded. -/
def grepProcess (content : Option Str) : GrepData :=
  match content with
  | none => ⟨false, none, none⟩
  | some s => ⟨true, some (readlines (universalNewlines s)).length, some (readlines (universalNewlines s))⟩

/-- `s.split("/", 1)` -/
def splitSlash : Str → List Str
  | [] => [[]]
  | c :: s => if c = '/' then [[], s] else match splitSlash s with
    | w :: ws => (c :: w) :: ws
    | [] => [[c]]

/-- builtin/mime.py:62-69: the attributes `type` and `subtype`; `none` is the IndexError. -/
def mimeParts (mime : Str) : Option (Str × Str) :=
  match splitSlash mime with
  | [a, b] => some (a, b)
  | _ => none

end FF
