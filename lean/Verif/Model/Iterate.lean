import Verif.Model.Protocol
/-! Model of iterating over a `Find` object (/repo/libff/find.py:115-135) that is left early, or iterated again. -/
namespace FF

/-- context.py:112-126: the barrier lets so many of the workers pass. -/
inductive Passed : Nat → List Worker → List Worker → Prop
  | nil : Passed 0 [] []
  | stay {k w ws ws'} : Passed k ws ws' → Passed k (w :: ws) (w :: ws')
  | pass {k b o ws ws'} : Passed k ws ws' → Passed (k + 1) (⟨.waiting, b, o⟩ :: ws) (⟨.stopped, b, o⟩ :: ws')

/-- What happens while the main process does something else: the caller of `Find.__iter__` has a record, or has given up the iteration. `parties` is the number of
processes that the barrier waits for (context.py:68-75). -/
inductive RestStep (cfg : WalkCfg) (fair : Fair) (parties : Nat) : PState → PState → Prop
  /-- see `PStep.worker` -/
  | worker {q outq l w r m col handed q' m' w' new} : WStep cfg fair ((l ++ r).all (fun w => w.st.isWaiting)) (q, m, w) new (q', m', w') →
      RestStep cfg fair parties ⟨q, outq, l ++ w :: r, m, col, handed⟩ ⟨q', outq, l ++ w' :: r, m', col, handed ++ new⟩
  /-- see `PStep.flushOut` -/
  | flushOut {q outq l s b c o r m col handed} :
      RestStep cfg fair parties ⟨q, outq, l ++ ⟨s, b, c :: o⟩ :: r, m, col, handed⟩ ⟨q, outq ++ [c], l ++ ⟨s, b, o⟩ :: r, m, col, handed⟩
  /-- context.py:116-126: there are enough workers for the barrier -/
  | pass {q outq ws ws' m col handed} : Passed parties ws ws' → RestStep cfg fair parties ⟨q, outq, ws, m, col, handed⟩ ⟨q, outq, ws', m, col, handed⟩

/-- The steps during an iteration: processing.py:413-422 `ImmediateGenerator.__iter__`, and 435-446 `CollectiveGenerator.loop`. -/
inductive FindStep (cfg : WalkCfg) (fair : Fair) (parties : Nat) : PState → PState → Prop
  | other {s t} : RestStep cfg fair parties s t → FindStep cfg fair parties s t
  | collect {q c outq ws col handed} : FindStep cfg fair parties ⟨q, c :: outq, ws, .polling, col, handed⟩ ⟨q, outq, ws, .polling, col ++ c, handed⟩
  | mainEmpty {q outq ws col handed} : (fair.timely = true → outq = [] ∧ ∀ w ∈ ws, w.st.isBusy = false → w.outbuf = []) →
      FindStep cfg fair parties ⟨q, outq, ws, .polling, col, handed⟩ ⟨q, outq, ws, .waiting (ws.all (fun w => !w.st.isBusy)), col, handed⟩
  | mainTimeout {q outq ws col handed b} : FindStep cfg fair parties ⟨q, outq, ws, .waiting b, col, handed⟩ ⟨q, outq, ws, .polling, col, handed⟩
  /-- context.py:116-126: main passes the barrier with some of the workers. `Fair.prompt` is about workers that pass and have been busy since main began to
  wait; nothing is assumed if other workers are busy. -/
  | passMain {q outq ws ws' k col handed quiet} : Passed k ws ws' → k + 1 = parties → (fair.prompt = true → quiet = true ∨ ∃ w ∈ ws', w.st.isBusy = true) →
      FindStep cfg fair parties ⟨q, outq, ws, .waiting quiet, col, handed⟩ ⟨q, outq, ws', .finished, col, handed⟩
  /-- processing.py:88-113: main notices that a process has ended. (What `context.stop` does to the others is left out: the iteration is over.) -/
  | notice {q outq ws col handed quiet} : (∃ w ∈ ws, w.st = .stopped) →
      FindStep cfg fair parties ⟨q, outq, ws, .waiting quiet, col, handed⟩ ⟨q, outq, ws, .finished, col, handed⟩

/-- find.py:115-126 and walk.py:65-74: iterating over the object again starts further processes. After an iteration that has come to its end the queues are closed
(find.py:133-135), and `get` raises ValueError (`none`). The object still has what is in the queues, and `entries` (processing.py:431) if results are sorted. The
entries that are yielded without sort are appended to `collected`. -/
def findAgain (n : Nat) (closed : Bool) (s : PState) : Option PState :=
  if closed then none else some { s with workers := s.workers ++ List.replicate n ⟨.idle, [], []⟩, main := .polling }

/-- The life of a `Find` object without `sort` (`ImmediateGenerator`), and whether the current iteration has been given up. -/
inductive LifeStep (cfg : WalkCfg) (fair : Fair) (n : Nat) : PState × Bool → PState × Bool → Prop
  | go {s t} : FindStep cfg fair (n + 1) s t → LifeStep cfg fair n (s, false) (t, false)
  /-- processing.py:416-417: main receives a chunk, yields the first `k` of its entries, and the generator is not resumed (or closed) -/
  | giveUp {q c outq ws col handed k} : 0 < k → k ≤ c.length →
      LifeStep cfg fair n (⟨q, c :: outq, ws, .polling, col, handed⟩, false) (⟨q, outq, ws, .polling, col ++ c.take k, handed⟩, true)
  | rest {s t} : RestStep cfg fair (n + 1) s t → LifeStep cfg fair n (s, true) (t, true)
  | again {s t} : findAgain n false s = some t → LifeStep cfg fair n (s, true) (t, false)

/-- Any number of steps. -/
inductive RestSteps (cfg : WalkCfg) (fair : Fair) (parties : Nat) : PState → PState → Prop
  | refl {s} : RestSteps cfg fair parties s s
  | step {s t u} : RestSteps cfg fair parties s t → RestStep cfg fair parties t u → RestSteps cfg fair parties s u

inductive FindSteps (cfg : WalkCfg) (fair : Fair) (parties : Nat) : PState → PState → Prop
  | refl {s} : FindSteps cfg fair parties s s
  | step {s t u} : FindSteps cfg fair parties s t → FindStep cfg fair parties t u → FindSteps cfg fair parties s u

inductive LifeSteps (cfg : WalkCfg) (fair : Fair) (n : Nat) : PState × Bool → PState × Bool → Prop
  | refl {s} : LifeSteps cfg fair n s s
  | step {s t u} : LifeSteps cfg fair n s t → LifeStep cfg fair n t u → LifeSteps cfg fair n s u

end FF
