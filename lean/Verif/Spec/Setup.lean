import Verif.Spec.Failure
import Verif.Model.Setup
/-! Which plugins a run uses. -/
namespace FF.Spec

/-- The plugin that is meant by the name of an attribute: the one named in front of a dot, or the one that provides the attribute, where those for files come first. -/
def Means (reg : List PluginDef) (name p : Str) : Prop :=
  (∃ a, name = p ++ '.' :: a ∧ '.' ∉ p ∧ Loaded reg p) ∨
  ('.' ∉ name ∧ Provides reg p name ∧ (p = "file".toList ∨ ∀ q, Provides reg q name → q = p))

/-- The word is a field of the plugin. -/
def FieldOf (reg : List PluginDef) (word p : Str) : Prop := ∃ n, FieldNames word n ∧ Means reg n p

/-- The word is a test of an attribute of the plugin. -/
def TestOf (reg : List PluginDef) (cc : CharClass) (word p : Str) : Prop := ∃ t, splitTest cc word = some t ∧ Means reg t.attr p

/-- The word is a test that compares with an attribute of the plugin, of another file. -/
def RefersTo (reg : List PluginDef) (cc : CharClass) (word p : Str) : Prop := ∃ t r, splitTest cc word = some t ∧ t.ref = some r ∧ r ≠ [] ∧ Means reg r p

end FF.Spec
