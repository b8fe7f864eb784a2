import Verif.Model.Protocol
/-! Model of a search with `--profile` (debug mode only): everything is done in the main process, and the barrier waits for one process only
(context.py:70-75). Entries are not printed then (console.py:67-69, 119-120), commands are refused (arguments.py:206-207). -/
namespace FF

/-- main.py:265-270: first `walker.loop(0)` is run, then the results are collected (main.py:275), as far as they are collected. -/
inductive ProfStep (cfg : WalkCfg) (fair : Fair) : PState → PState → Prop
  /-- walk.py:90-119; main does nothing else -/
  | work {q outq w col handed q' m' w' new} : w.st ≠ .waiting → w'.st ≠ .waiting → WStep cfg fair true (q, .polling, w) new (q', m', w') →
      ProfStep cfg fair ⟨q, outq, [w], .polling, col, handed⟩ ⟨q', outq, [w'], .polling, col, handed ++ new⟩
  /-- walk.py:93-95: the queue is empty, the barrier is passed at once -/
  | stop {q outq b o col handed} : (fair.timely = true → b = [] ∧ q = []) →
      ProfStep cfg fair ⟨q, outq, [⟨.idle, b, o⟩], .polling, col, handed⟩ ⟨q, outq, [⟨.stopped, b, o⟩], .polling, col, handed⟩
  /-- the feeder thread for the out queue -/
  | flushOut {q outq s b c o col handed} :
      ProfStep cfg fair ⟨q, outq, [⟨s, b, c :: o⟩], .polling, col, handed⟩ ⟨q, outq ++ [c], [⟨s, b, o⟩], .polling, col, handed⟩
  /-- processing.py:240, 250 -/
  | collect {q c outq b o col handed} :
      ProfStep cfg fair ⟨q, c :: outq, [⟨.stopped, b, o⟩], .polling, col, handed⟩ ⟨q, outq, [⟨.stopped, b, o⟩], .polling, col ++ c, handed⟩
  /-- processing.py:241-243: the barrier is passed at once -/
  | finish {q outq b o col handed} : (fair.timely = true → outq = [] ∧ o = []) →
      ProfStep cfg fair ⟨q, outq, [⟨.stopped, b, o⟩], .polling, col, handed⟩ ⟨q, outq, [⟨.stopped, b, o⟩], .finished, col, handed⟩

/-- Any number of steps. -/
inductive ProfSteps (cfg : WalkCfg) (fair : Fair) : PState → PState → Prop
  | refl {s} : ProfSteps cfg fair s s
  | step {s t u} : ProfSteps cfg fair s t → ProfStep cfg fair t u → ProfSteps cfg fair s u

end FF
