import Verif.Model.Context
/-! What running commands and the exit status are meant to be. -/
namespace FF.Spec

/-- A command failed: it could not be started, its exit code is not 0, or it was terminated because of `--halt now`. -/
def Failed (halt : Halt) (c : Command) : Prop := c.code ≠ some 0 ∨ (halt = .now ∧ c.interrupted = true)

/-- The commands up to and including the first one that fails. -/
inductive UpToFailure (halt : Halt) : List Command → List Command → Prop
  | none {cs : List Command} : (∀ c ∈ cs, ¬ Failed halt c) → UpToFailure halt cs cs
  | some {before after : List Command} {c : Command} : (∀ x ∈ before, ¬ Failed halt x) → Failed halt c →
      UpToFailure halt (before ++ c :: after) (before ++ [c])

end FF.Spec
