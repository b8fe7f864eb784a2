import Verif.Model.Interrupt
import Verif.Spec.Halt
import Verif.Spec.Pool
namespace FF.Spec
open FF

/-- The commands that wait to be started. -/
def queued {ε α : Type} (s : Pool ε α) : List α := s.queue.filterMap id

end FF.Spec
