import Verif.Model.Pool
/-! Words for what can be seen of a pool of commands. -/
namespace FF.Spec

/-- Any number of steps. -/
def Reaches {ε α : Type} (halt : Halt) (render : ε → Option α) (s t : Pool ε α) : Prop := ∃ k, PoolSteps halt render k s t

/-- Commands that have been started and have not ended yet. -/
def underWay {ε α : Type} (s : Pool ε α) : Nat := s.started.length - s.ended.length

/-- A command has failed. -/
def SomeFailed {ε α : Type} (s : Pool ε α) : Prop := ∃ x ∈ s.ended, x.2 ≠ 0

end FF.Spec
