import Verif.Model.Changed
/-! What a user expects of the attributes of a file that has been changed. -/
namespace FF.Spec

/-- The data of a file as it is now. -/
def dataNow {V D : Type} (r : FileReader V D) (f : FileNow) : D :=
  match f.regular || r.others, f.bytes with
  | true, some b => (match r.extract b with | some v => r.shown v | none => r.nothing)
  | _, _ => r.nothing

/-- Two times after the beginning of the epoch lie in the same second. -/
def SameSecond (a b : Int) : Prop := ∃ s : Int, 0 ≤ s ∧ s * 1000000000 ≤ a ∧ a < (s + 1) * 1000000000 ∧ s * 1000000000 ≤ b ∧ b < (s + 1) * 1000000000

end FF.Spec
