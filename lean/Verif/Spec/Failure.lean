import Verif.Spec.Registry
import Verif.Spec.Field
import Verif.Spec.Expr
/-! When a run may end before the search, and with which exit status according to the manual (EXIT CODES). -/
namespace FF.Spec

/-- There is exactly one attribute that may be meant by this name; attributes of files come first. -/
def Known (reg : List PluginDef) (name : Str) : Prop :=
  (∃ p a, name = p ++ '.' :: a ∧ '.' ∉ p ∧ Provides reg p a) ∨
  ('.' ∉ name ∧ ∃ p, Provides reg p name ∧ (p = "file".toList ∨ ∀ q, Provides reg q name → q = p))

/-- The word is a field, with or without width and modifier, of this attribute. -/
def FieldNames (word name : Str) : Prop := ∃ w m, FieldText (strip word) name w m

/-- The word is a field of an attribute that does not exist. -/
def NamesUnknown (reg : List PluginDef) (word : Str) : Prop := ∃ n, FieldNames word n ∧ ¬ Known reg n

/-- The word is a field of an attribute that exists. -/
def NamesKnown (reg : List PluginDef) (word : Str) : Prop := ∃ n, FieldNames word n ∧ Known reg n

/-- The text is in braces somewhere in one of the words of a command. -/
def InBraces (command : List Str) (text : Str) : Prop := ∃ w ∈ command, ∃ a b, w = a ++ '{' :: text ++ '}' :: b

end FF.Spec
