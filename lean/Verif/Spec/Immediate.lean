import Verif.Model.Immediate
import Verif.Spec.Walk
namespace FF.Spec

/-- What is to be done for an entry: it is printed, or its command is run unless the command can not be made for this entry. -/
def ToDo (mode : IMode) (e : EntInfo) : Prop := mode.exec = true → mode.renders e = true

mutual
/-- How many files and directories there are. -/
def countNode : FNode → Nat
  | .mk _ _ kids => 1 + countTree kids
def countTree : List FNode → Nat
  | [] => 0
  | n :: ns => countNode n + countTree ns
end

/-- A worker, whether it waits or not. -/
def awake (w : Worker) : Worker := match w.st with
  | .waiting => { w with st := .idle }
  | _ => w

/-- A step by which processes only begin or end to wait. -/
def OnlyWaits (s t : PState) : Prop :=
  t.queue = s.queue ∧ t.outq = s.outq ∧ t.collected = s.collected ∧ t.handed = s.handed ∧ (t.main = .finished ↔ s.main = .finished) ∧
  t.workers.map awake = s.workers.map awake

/-- Any number of steps, of which so many do more than that. -/
inductive CSteps (cfg : WalkCfg) (fair : Fair) : Nat → PState → PState → Prop
  | refl {s} : CSteps cfg fair 0 s s
  | work {n s t u} : CSteps cfg fair n s t → PStep cfg fair t u → ¬ OnlyWaits t u → CSteps cfg fair (n + 1) s u
  | idle {n s t u} : CSteps cfg fair n s t → PStep cfg fair t u → OnlyWaits t u → CSteps cfg fair n s u

end FF.Spec
