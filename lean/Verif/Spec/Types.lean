import Verif.Model.PyStr
namespace FF.Spec

/-- Symbolic mode clause: classes, operator, permissions. -/
structure Clause where
  who : Str
  op : Char
  perms : Str

/-- Which class letter a permission bit belongs to: 0–2 others, 3–5 group, 6–8 user, 9 sticky, 10 setgid, 11 setuid. -/
def bitClass : Nat → Char
  | 0 | 1 | 2 | 9 => 'o'
  | 3 | 4 | 5 | 10 => 'g'
  | _ => 'u'

/-- Which permission letter a bit is set by. -/
def bitLetter : Nat → Char
  | 0 | 3 | 6 => 'x'
  | 1 | 4 | 7 => 'w'
  | 2 | 5 | 8 => 'r'
  | 9 => 't'
  | _ => 's'

/-- The clause is about the bit; no class letter means all. -/
def Clause.covers (c : Clause) (i : Nat) : Bool := c.who = [] || bitClass i ∈ c.who || 'a' ∈ c.who
/-- The clause names the bit's permission. -/
def Clause.names (c : Clause) (i : Nat) : Bool := bitLetter i ∈ c.perms

/-- chmod(1): effect of one clause on a bit. (`X` has no effect on a mode without execute bits, from which we start.) -/
def Clause.apply (c : Clause) (i : Nat) (b : Bool) : Bool :=
  if c.covers i then
    if c.op = '+' then b || c.names i else if c.op = '-' then b && !c.names i else c.names i
  else b

/-- chmod(1) applied to mode 0: value of bit `i` after all clauses. -/
def chmodBit (cs : List Clause) (i : Nat) : Bool := cs.foldl (fun b c => c.apply i b) false

/-- A well-formed clause and its spelling. -/
def Clause.Ok (c : Clause) : Prop := (∀ x ∈ c.who, x ∈ ['u', 'g', 'o', 'a']) ∧ c.op ∈ ['-', '+', '='] ∧ c.perms ≠ [] ∧
  ∀ x ∈ c.perms, x ∈ ['r', 'w', 'x', 'X', 's', 't']
def Clause.text (c : Clause) : Str := c.who ++ c.op :: c.perms

/-- A part of a mode that is accepted: it begins with a clause, or it is an octal number, perhaps with an operator before it and a newline after it. -/
def ModePart (part : Str) : Prop :=
  (∃ (c : Clause) (rest : Str), c.Ok ∧ part = c.text ++ rest) ∨
  ∃ op digits nl : Str, (op = [] ∨ ∃ o ∈ ['-', '+', '='], op = [o]) ∧ digits ≠ [] ∧ (∀ d ∈ digits, d ∈ ['0', '1', '2', '3', '4', '5', '6', '7']) ∧ (nl = [] ∨ nl = ['\n']) ∧
    part = op ++ digits ++ nl

end FF.Spec

namespace FF.Spec

/-- The documented meaning of the ordering operators. -/
def cmp (op : Str) (value bound : Int) : Prop :=
  match op with
  | ['='] => value = bound
  | ['+'] => bound < value
  | ['-'] => value < bound
  | ['+', '='] => bound ≤ value
  | ['-', '='] => value ≤ bound
  | _ => False

/-- The documented meaning of the mode operators, bit by bit. -/
def modeCmp (op : Str) (value bound : Nat) : Prop :=
  match op with
  | ['='] => ∀ i, i < 12 → value.testBit i = bound.testBit i
  | [':'] => ∀ i, i < 12 → bound.testBit i = true → value.testBit i = true
  | ['~'] => ∃ i, i < 12 ∧ bound.testBit i = true ∧ value.testBit i = true
  | _ => False

/-- Documented spellings. -/
def trueWords : List Str := ["true".toList, "t".toList, "1".toList, "yes".toList, "y".toList, "on".toList]
def falseWords : List Str := ["false".toList, "f".toList, "0".toList, "no".toList, "n".toList, "off".toList]

/-- What is assumed of `str.lower`: it is idempotent, and it maps a string to one of the Boolean words iff it is the word up to ASCII case.
(The only other character that is lowered to an ASCII letter is the Kelvin sign, and no word contains a `k`.) -/
structure Lower (low : Str → Str) : Prop where
  idem : ∀ s, low (low s) = low s
  words : ∀ w ∈ trueWords ++ falseWords, ∀ s, low s = w ↔ s.map Char.toLower = w

/-- The answer of a string test with operator `op`, pattern `pat` for the string `v`; `re` is regular expression search. -/
def strTest (re : Str → Str → Prop) (glob : Str → Str → Prop) (op pat v : Str) : Prop :=
  match op with
  | ['='] => v = pat
  | [':'] => ∃ a b, v = a ++ pat ++ b
  | ['~'] => re pat v
  | ['%'] => glob pat v
  | _ => False

/-- The documented names of file types and the types they stand for. -/
def fileTypeNames : List (Str × Str) :=
  [("d", "directory"), ("directory", "directory"), ("f", "file"), ("file", "file"), ("l", "symlink"), ("symlink", "symlink"), ("s", "socket"), ("socket", "socket"),
   ("p", "fifo"), ("pipe", "fifo"), ("fifo", "fifo"), ("char", "char"), ("block", "block"), ("door", "door"), ("port", "port"), ("whiteout", "whiteout"),
   ("other", "other")].map (fun p => (p.1.toList, p.2.toList))

end FF.Spec
