import Verif.Spec.Immediate
import Verif.Model.CollectHalt
namespace FF.Spec
open FF

/-- A step in which a process just begins or ends to wait for something to do. -/
def JustWaits (s t : KAll) : Prop :=
  OnlyWaits s.calm t.calm ∧ t.workers.map KWorker.gone = s.workers.map KWorker.gone ∧ t.left = s.left ∧ t.exitcode = s.exitcode ∧ t.stopping = s.stopping ∧ t.failures = s.failures

/-- Any number of steps, of which so many do something. -/
inductive KCounted (cfg : WalkCfg) (fair : Fair) : Nat → KAll → KAll → Prop
  | refl {s} : KCounted cfg fair 0 s s
  | work {n s t u} : KCounted cfg fair n s t → KStep cfg fair t u → ¬ JustWaits t u → KCounted cfg fair (n + 1) s u
  | idle {n s t u} : KCounted cfg fair n s t → KStep cfg fair t u → JustWaits t u → KCounted cfg fair n s u

end FF.Spec
