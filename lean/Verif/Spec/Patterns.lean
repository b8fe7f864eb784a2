import Verif.Model.PyInt
/-! Values that are written like a pattern. -/
namespace FF.Spec

/-- A value written like a pattern: a digit for each letter, and all other characters as they are. -/
def WrittenLike : Str → Str → Prop
  | [], [] => True
  | p :: ps, c :: cs => (if p.isAlpha then isDigit c = true else c = p) ∧ WrittenLike ps cs
  | _, _ => False

end FF.Spec
