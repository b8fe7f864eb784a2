import Verif.Model.Barrier
namespace FF.Spec
open FF

/-- The main process has left `barrier_wait`. -/
def MainBack (s : Bar) : Prop := ∃ ok rest, s.procs = .back ok :: rest

/-- A process has passed the barrier. -/
def Passed (s : Bar) : Prop := .back true ∈ s.procs

/-- A process has been sent back, or has not come to the barrier. -/
def Returned (s : Bar) : Prop := .back false ∈ s.procs ∨ .out ∈ s.procs ∨ .acquireReset ∈ s.procs

/-- All processes have passed the barrier. -/
def AllPassed (s : Bar) : Prop := ∀ x ∈ s.procs, x = .back true

/-- The places where `Condition.notify` may be called next: the process holds the lock and is not in it yet. -/
def MayNotify (x : BPos) : Prop := x = .enter ∨ (∃ t, x = .look t) ∨ (∃ ok, x = .exit ok) ∨ x = .reset

end FF.Spec
