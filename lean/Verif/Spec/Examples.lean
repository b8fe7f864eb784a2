import Verif.Spec.Status
import Verif.Spec.Types
import Verif.Model.StatAttr
/-! What the examples of the documentation are said to find. -/
namespace FF.Spec

/-- A regular file. -/
def RegularFile (s : Status) : Prop := typeNumber s.mode = 8

/-- The permission bit for execution by the owner. -/
def OwnerMayExecute (s : Status) : Prop := s.mode.testBit 6 = true

/-- The search knows files by stat(2), and the name of an attribute is that of an attribute of the file plugin with this type. -/
structure Everyday (S : SearchEnv) (st : EntInfo → Status) : Prop where
  stat : ∃ rest, S.stat = statAttr st rest
  low : S.tests.low = List.map Char.toLower
  known : ∀ name ty, (name, ty) ∈ filePlugin.attrs → setupAttribute S.reg name = some ("file".toList, name) ∧ attributeType S.reg ("file".toList, name) = some ty

end FF.Spec
