import Verif.Model.Re
namespace FF.Spec

/-- An attribute name, optionally qualified by a plugin name. -/
def AttrName (cc : CharClass) (a : Str) : Prop :=
  (a ≠ [] ∧ ∀ x ∈ a, cc.word x = true) ∨
  ∃ p n, a = p ++ '.' :: n ∧ p ≠ [] ∧ n ≠ [] ∧ (∀ x ∈ p, cc.word x = true) ∧ (∀ x ∈ n, cc.word x = true)

/-- Spellings of operators and the operators they denote. -/
def operators : List (Str × Str) :=
  [(['='], ['=']), ([':'], [':']), (['~'], ['~']), (['%'], ['%']), (['>', '='], ['+', '=']), (['>'], ['+']),
   (['<', '='], ['-', '=']), (['<'], ['-']), (['+', '='], ['+', '=']), (['+'], ['+']), (['-', '='], ['-', '=']), (['-'], ['-'])]

/-- White space only. -/
def Blank (cc : CharClass) (s : Str) : Prop := ∀ x ∈ s, cc.space x = true

/-- One-character ordering operators, which an '=' right after would extend. -/
def Extensible (op : Str) : Prop := op ∈ [['>'], ['<'], ['+'], ['-']]

/-- A value that can follow: not empty, one line, not starting with white space. -/
def PlainValue (cc : CharClass) (v : Str) : Prop := (∃ x xs, v = x :: xs ∧ cc.space x = false) ∧ '\n' ∉ v

end FF.Spec
