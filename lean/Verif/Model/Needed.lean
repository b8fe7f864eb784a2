import Verif.Model.Parser
/-! Which tests /repo/libff/filter.py makes for an entry, and in which order. -/
namespace FF
section
variable {T : Type}

mutual
/-- filter.py:113-135 `Matcher._test` for one element: its value and the tests that are made. `_test` is a generator, so `all` and `any` ask for the next
element only if they need it. -/
def askNode (env : T → Option Bool) : Node T → Bool × List T
  | .test t => (match env t with
    | none => false
    | some b => b, [t])
  | .and l => askUntil env false l
  | .or l => askUntil env true l
  | .not l => (!(askUntil env true l).1, (askUntil env true l).2)
/-- `all(...)` (`stop` is false) and `any(...)` (`stop` is true): the value of the first element that is `stop`, the opposite if there is none. -/
def askUntil (env : T → Option Bool) (stop : Bool) : List (Node T) → Bool × List T
  | [] => (!stop, [])
  | n :: ns =>
    if (askNode env n).1 = stop then (stop, (askNode env n).2)
    else ((askUntil env stop ns).1, (askNode env n).2 ++ (askUntil env stop ns).2)
end

/-- filter.py:93-111 `Matcher.test` and `test_empty`: the value and the tests that are made. -/
def matcherAsk (seqs : List (List (Node T))) (env : T → Option Bool) : Bool × List T :=
  if filterEmpty seqs then (true, []) else askUntil env true (seqs.map .and)

/-- filter.py:98-111: construct a Matcher from tokens and test an entry; the value and the tests that are made. -/
def matcherAsks (pt : Str → Except PErr T) (speed : T → Nat) (tokens : List Str) (env : T → Option Bool) : Except PErr (Bool × List T) :=
  match parserInit pt speed tokens with
  | .error e => .error e
  | .ok seqs => .ok (matcherAsk seqs env)

/-- filter.py:74-90 the loop of `Excluder.test`: the tests that are made, up to the exception for brackets and NOT. -/
def excludeAsk (env : T → Option Bool) : List (Node T) → List T
  | [] => []
  | .test t :: ns => if env t = some true then [t] else t :: excludeAsk env ns
  | _ :: _ => []

/-- filter.py:57-90: the tests an Excluder built from tokens makes for an entry. -/
def excluderAsks (pt : Str → Except PErr T) (speed : T → Nat) (tokens : List Str) (env : T → Option Bool) : Except PErr (List T) :=
  match parserInit pt speed tokens with
  | .error e => .error e
  | .ok seqs => .ok (if filterEmpty seqs then [] else excludeAsk env seqs.flatten)

end
end FF
