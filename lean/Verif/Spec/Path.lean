import Verif.Model.PyStr
/-! Independent specification of path operations. -/
namespace FF.Spec

/-- `b` is the file name part of `p`: what follows the last slash. -/
def IsName (p b : Str) : Prop := ∃ d, p = d ++ b ∧ '/' ∉ b ∧ (d = [] ∨ ∃ d', d = d' ++ ['/'])

/-- The documented meaning of stem and extension: the extension (with its dot) is what follows the last
dot of the file name, unless only dots precede that dot; otherwise it is empty. -/
inductive StemExt : Str → Str → Str → Prop
  | ext (d lead : Str) (e : Str) : '/' ∉ lead → '/' ∉ e → '.' ∉ e → (d = [] ∨ ∃ d', d = d' ++ ['/']) →
      (∃ x ∈ lead, x ≠ '.') → StemExt (d ++ lead ++ '.' :: e) (d ++ lead) ('.' :: e)
  | none (d : Str) (k : Nat) (w : Str) : '/' ∉ w → '.' ∉ w → (d = [] ∨ ∃ d', d = d' ++ ['/']) →
      StemExt (d ++ List.replicate k '.' ++ w) (d ++ List.replicate k '.' ++ w) []

end FF.Spec
