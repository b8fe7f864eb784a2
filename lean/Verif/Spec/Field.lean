import Verif.Model.PyStr
/-! What the manual says about fields and command templates, independently of the code. -/
namespace FF.Spec

/-- An ASCII letter. -/
def Letter (c : Char) : Prop := ('a' ≤ c ∧ c ≤ 'z') ∨ ('A' ≤ c ∧ c ≤ 'Z')
/-- An ASCII digit. -/
def Digit (c : Char) : Prop := '0' ≤ c ∧ c ≤ '9'

/-- The name of a plugin or attribute: a letter and one or more letters, digits and underscores. -/
def NameWord (w : Str) : Prop := ∃ c d ds, w = c :: d :: ds ∧ Letter c ∧ ∀ x ∈ d :: ds, Letter x ∨ Digit x ∨ x = '_'

/-- `attribute` or `plugin.attribute`. -/
def FieldName (n : Str) : Prop := NameWord n ∨ ∃ p a, NameWord p ∧ NameWord a ∧ n = p ++ '.' :: a

/-- A width: digits, possibly after a minus sign. -/
def WidthText (w : Str) : Prop := ∃ ds, ds ≠ [] ∧ (∀ x ∈ ds, Digit x) ∧ (w = ds ∨ w = '-' :: ds)

/-- `FieldText s n w m`: the text `s` is a field with attribute `n`, width `w` and modifier `m`. -/
inductive FieldText : Str → Str → Option Str → Option Char → Prop
  | plain {n : Str} : FieldName n → FieldText n n none none
  | full {n : Str} {w : Option Str} {m : Option Char} : FieldName n → (∀ x ∈ w, WidthText x) → (∀ x ∈ m, x ∈ ['h', 'o', 'x', 'n', 'v']) →
      FieldText (n ++ ':' :: (w.getD [] ++ m.toList)) n w m

/-- A piece of a word of a command template. -/
inductive Seg
  | text (s : Str)
  | hole (name : Str)

/-- Braces doubled. -/
def double : Str → Str
  | [] => []
  | '{' :: s => '{' :: '{' :: double s
  | '}' :: s => '}' :: '}' :: double s
  | c :: s => c :: double s

/-- How a piece is written. -/
def Seg.spell : Seg → Str
  | .text s => double s
  | .hole n => '{' :: n ++ ['}']

/-- A placeholder must not look like a doubled brace or end early. -/
def Seg.Ok : Seg → Prop
  | .text _ => True
  | .hole n => '}' ∉ n ∧ n.head? ≠ some '{'

/-- The attribute a placeholder stands for. -/
def holeAttr (n : Str) : Str :=
  if n = [] then "file.path".toList else
  if n = "/".toList then "file.name".toList else
  if n = "//".toList then "file.dir".toList else
  if n = ".".toList then "file.pathx".toList else
  if n = "/.".toList then "file.namex".toList else
  if n = "..".toList then "file.ext".toList else n

/-- The text of a piece, given the value of placeholders; `none` if a value is missing. -/
def Seg.value (val : Str → Option Str) : Seg → Option Str
  | .text s => some s
  | .hole n => val (holeAttr n)

/-- The text of a word. -/
def wordValue (val : Str → Option Str) : List Seg → Option Str
  | [] => some []
  | s :: rest => match s.value val, wordValue val rest with
    | some a, some b => some (a ++ b)
    | _, _ => none

/-- Has a placeholder. -/
def hasHole (w : List Seg) : Bool := w.any (fun s => match s with | .hole _ => true | .text _ => false)

/-- Digits in the order of their values. -/
def baseDigits : Str := "0123456789abcdef".toList

/-- The number a string of digits denotes in base `b`. -/
def readBase (b : Nat) (s : Str) : Nat := s.foldl (fun n c => n * b + baseDigits.idxOf c) 0

/-- `s` is the usual way to write the number `n` in base `b`: digits without leading zeros. -/
def NumeralIn (b : Nat) (s : Str) (n : Nat) : Prop :=
  s ≠ [] ∧ (∀ c ∈ s, c ∈ baseDigits.take b) ∧ readBase b s = n ∧ (s.head? = some '0' → s = ['0'])

end FF.Spec
