import Verif.Model.Halt
import Verif.Spec.Immediate
namespace FF.Spec

/-- The program has ended: main has left its loop, and so have all workers. -/
def Ended (s : HAll) : Prop := s.left = true ∧ ∀ x ∈ s.workers, x.w.st = .stopped

end FF.Spec
