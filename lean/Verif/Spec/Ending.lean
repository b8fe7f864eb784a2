import Verif.Model.Ending
/-! What is written to standard output. -/
namespace FF.Spec

/-- What is written to standard output if nothing fails. -/
def written (acts : List OutAct) : Str :=
  acts.flatMap fun
    | .print s _ => s
    | .flush => []

end FF.Spec
