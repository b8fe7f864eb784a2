import Verif.Model.PyStr
/-! Python's `int()` and `str()` for integers (library semantics, no code of /repo). ASCII digits and white space only. -/
namespace FF

/-- ASCII `c.isdigit()`. -/
def isDigit (c : Char) : Bool := '0' ≤ c && c ≤ '9'

/-- Value of a digit. -/
def digitVal (c : Char) : Nat := c.toNat - '0'.toNat

/-- The digit of a value below ten. -/
def digitChar : Nat → Char
  | 0 => '0' | 1 => '1' | 2 => '2' | 3 => '3' | 4 => '4' | 5 => '5' | 6 => '6' | 7 => '7' | 8 => '8' | _ => '9'

/-- Number denoted by a string of digits. -/
def natOfDigits (s : Str) : Nat := s.foldl (fun n c => n * 10 + digitVal c) 0

/-- `str(n)` with fuel. -/
def natStrAux : Nat → Nat → Str
  | 0, _ => []
  | f + 1, n => if n < 10 then [digitChar n] else natStrAux f (n / 10) ++ [digitChar (n % 10)]

/-- `str(n)`. -/
def natStr (n : Nat) : Str := natStrAux (n + 1) n

/-- `f"{n:02}"`. -/
def natStr2 (n : Nat) : Str := if n < 10 then '0' :: natStr n else natStr n

/-- Digits with single underscores in between; `prev` tells that the previous character was a digit. -/
def intDigits : Bool → Nat → Str → Option Nat
  | prev, acc, [] => if prev then some acc else none
  | prev, acc, c :: cs =>
    if isDigit c then intDigits true (acc * 10 + digitVal c) cs
    else if c = '_' ∧ prev = true then intDigits false acc cs else none

/-- ASCII white space. -/
def isSpace (c : Char) : Bool := c = ' ' || c = '\t' || c = '\n' || c = '\r' || c = '\x0b' || c = '\x0c'

/-- `s.strip()`. -/
def strip (s : Str) : Str := ((s.dropWhile isSpace).reverse.dropWhile isSpace).reverse

/-- `int(s)`, `none` is ValueError. -/
def pyInt (s : Str) : Option Int :=
  match strip s with
  | '-' :: r => (intDigits false 0 r).map (fun n : Nat => -(n : Int))
  | '+' :: r => (intDigits false 0 r).map (fun n : Nat => (n : Int))
  | r => (intDigits false 0 r).map (fun n : Nat => (n : Int))

end FF
