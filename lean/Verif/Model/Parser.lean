import Verif.Model.PyStr
import Verif.Model.PySort
/-! Model of /repo/libff/parser.py (token level) and /repo/libff/filter.py. -/
namespace FF

/-- What kind of exception ends a run: exceptions.py:55-58 `UsageError`, 75-78 `BadAttributeError`, 80-83 `ExpressionError`, any exception that
nothing catches, or exceptions.py:70-73 `BadPluginError` (only in Setup.lean). -/
inductive Fail
  | usage | attribute | expression | crash | plugin
  deriving DecidableEq, Repr

/-- The exceptions raised while parsing: parser.py `ParserError` (one constructor per message) and the
exceptions of `parse_test`. `fuel` is an artefact of the model and never occurs
(`parse_fuel_never`). -/
inductive PErr
  | superfluousClosing | emptyExpression | prematureEof | unexpectedToken | incompleteSub | badTest (f : Fail) | fuel
  deriving DecidableEq, Repr

/-- parser.py:37-58 the `AND`, `OR`, `NOT` lists and the `Test` tuples (abstract type `T`). -/
inductive Node (T : Type) where
  | test (t : T)
  | and (l : List (Node T))
  | or (l : List (Node T))
  | not (l : List (Node T))

/-- parser.py:91 `OPENING_BRACKETS`. -/
def isOpen (tok : Str) : Bool := tok = ['('] || tok = ['{', '{']
/-- parser.py:92 `CLOSING_BRACKETS`. -/
def isClose (tok : Str) : Bool := tok = [')'] || tok = ['}', '}']
/-- parser.py:126 `token.upper()`, ASCII only: no other characters upper-case to the letters of AND, OR, NOT. -/
def upper (tok : Str) : Str := tok.map Char.toUpper
/-- parser.py:138 `utoken == "AND"`. -/
def isAnd (tok : Str) : Bool := upper tok = ['A', 'N', 'D']
/-- parser.py:141 `utoken == "OR"`. -/
def isOr (tok : Str) : Bool := upper tok = ['O', 'R']
/-- parser.py:145 `utoken == "NOT"`. -/
def isNot (tok : Str) : Bool := upper tok = ['N', 'O', 'T']

section
variable {T : Type}

/-- `sequences[-1].append(x)`; `sequences` is a list of `AND` lists and never empty. -/
def appendLast (x : Node T) : List (List (Node T)) → List (List (Node T))
  | [] => []
  | [l] => [l ++ [x]]
  | l :: ls => l :: appendLast x ls

/-- `not sequences[-1]`. -/
def lastEmpty (seqs : List (List (Node T))) : Bool :=
  match seqs.getLast? with
  | some l => l.isEmpty
  | none => true

/-- parser.py:119-166 `parse_sequence` with the inlined parser.py:189-198 `parse_bracket_sequence`.
`self.tokens` and `sequences` are threaded through; `pt` is `parse_test`. The recursion is on fuel. -/
def parseSeq (pt : Str → Except PErr T) : Nat → List Str → List (List (Node T)) →
    Except PErr (List Str × List (List (Node T)))
  | 0, _, _ => .error .fuel
  | _ + 1, [], seqs =>
    if seqs.length > 1 && seqs.any (·.isEmpty) then .error .emptyExpression else .ok ([], seqs)
  | f + 1, tok :: ts, seqs =>
    if isOpen tok then
      match parseSeq pt f ts [[]] with
      | .error e => .error e
      | .ok ([], _) => .error .incompleteSub
      | .ok (_ :: ts', sub) => parseSeq pt f ts' (appendLast (.or (sub.map .and)) seqs)
    else if isClose tok then
      if lastEmpty seqs then .error .emptyExpression else .ok (tok :: ts, seqs)
    else if isAnd tok then parseSeq pt f ts seqs
    else if isOr tok then parseSeq pt f ts (seqs ++ [[]])
    else if isNot tok then
      match ts with
      | [] => .error .prematureEof
      | tok2 :: ts2 =>
        if isOpen tok2 then
          match parseSeq pt f ts2 [[]] with
          | .error e => .error e
          | .ok ([], _) => .error .incompleteSub
          | .ok (_ :: ts', sub) => parseSeq pt f ts' (appendLast (.not (sub.map .and)) seqs)
        else if isAnd tok2 || isOr tok2 || isNot tok2 || isClose tok2 then .error .unexpectedToken
        else match pt tok2 with
          | .error e => .error e
          | .ok t => parseSeq pt f ts2 (appendLast (.not [.and [.test t]]) seqs)
    else match pt tok with
      | .error e => .error e
      | .ok t => parseSeq pt f ts (appendLast (.test t) seqs)

/-- parser.py:110-117 `parse`. The result is the list of `AND` lists inside the top-level `OR`. -/
def parse (pt : Str → Except PErr T) (tokens : List Str) : Except PErr (List (List (Node T))) :=
  match parseSeq pt (tokens.length + 1) tokens [[]] with
  | .error e => .error e
  | .ok ([], seqs) => .ok seqs
  | .ok (_ :: _, _) => .error .superfluousClosing

mutual
/-- filter.py:113-135 `Matcher._test` for one element; `env t` is the outcome of
`registry.get_attribute_and_type` and `type_cls.test`, `none` for KeyError. -/
def evalNode (env : T → Option Bool) : Node T → Bool
  | .test t => match env t with
    | none => false
    | some b => b
  | .and l => evalAll env l
  | .or l => evalAny env l
  | .not l => !evalAny env l
/-- `all(self._test(l, entry))`. -/
def evalAll (env : T → Option Bool) : List (Node T) → Bool
  | [] => true
  | n :: ns => evalNode env n && evalAll env ns
/-- `any(self._test(l, entry))`. -/
def evalAny (env : T → Option Bool) : List (Node T) → Bool
  | [] => false
  | n :: ns => evalNode env n || evalAny env ns
end

/-- filter.py:51-54 `Filter.is_empty`. -/
def filterEmpty (seqs : List (List (Node T))) : Bool := seqs.flatten.isEmpty

/-- filter.py:93-111 `Matcher.test`, with `test_empty` if there are no tests. -/
def matcherTest (seqs : List (List (Node T))) (env : T → Option Bool) : Bool :=
  if filterEmpty seqs then true else evalAny env (seqs.map .and)

/-- filter.py:74-90 the loop of `Excluder.test`; `none` is the AttributeError raised for `test.attribute` when the element
is an OR or NOT list. -/
def excludeLoop (env : T → Option Bool) : List (Node T) → Option Bool
  | [] => some false
  | .test t :: ns => match env t with
    | none => excludeLoop env ns
    | some true => some true
    | some false => excludeLoop env ns
  | _ :: _ => none

/-- filter.py:57-90 `Excluder.test`, with `test_empty` if there are no tests. -/
def excluderTest (seqs : List (List (Node T))) (env : T → Option Bool) : Option Bool :=
  if filterEmpty seqs then some false else excludeLoop env seqs.flatten

mutual
/-- parser.py:216-223 `get_speed_score`; `speed` is `registry.get_plugin_speed`. -/
def speedScore (speed : T → Nat) : Node T → Nat
  | .test t => speed t
  | .and l => speedSum speed l
  | .or l => speedSum speed l
  | .not l => speedSum speed l
/-- `sum(self.get_speed_score(t) for t in test)`. -/
def speedSum (speed : T → Nat) : List (Node T) → Nat
  | [] => 0
  | n :: ns => speedScore speed n + speedSum speed ns
end

mutual
/-- parser.py:225-233 `optimize` on an element of a sequence. -/
def optimizeNode (speed : T → Nat) : Node T → Node T
  | .test t => .test t
  | .and l => .and ((pySortKey (· ≤ ·) Prod.fst false (optimizePairs speed l)).map Prod.snd)
  | .or l => .or ((pySortKey (· ≤ ·) Prod.fst false (optimizePairs speed l)).map Prod.snd)
  | .not l => .not ((pySortKey (· ≤ ·) Prod.fst false (optimizePairs speed l)).map Prod.snd)
/-- The elements of a sequence with their speed scores before optimisation and optimised in place. The code sorts first and then
optimises the elements; doing it in one pass is a simplification to have structural recursion. -/
def optimizePairs (speed : T → Nat) : List (Node T) → List (Nat × Node T)
  | [] => []
  | n :: ns => (speedScore speed n, optimizeNode speed n) :: optimizePairs speed ns
end

/-- parser.py:225-233 `optimize` on the top-level `OR` of `AND` lists. -/
def optimizeTop (speed : T → Nat) (seqs : List (List (Node T))) : List (List (Node T)) :=
  (pySortKey (· ≤ ·) Prod.fst false
    (seqs.map (fun l => (speedSum speed l,
      (pySortKey (· ≤ ·) Prod.fst false (optimizePairs speed l)).map Prod.snd)))).map Prod.snd

/-- parser.py:99-105 `Parser.__init__`. -/
def parserInit (pt : Str → Except PErr T) (speed : T → Nat) (tokens : List Str) :
    Except PErr (List (List (Node T))) :=
  match parse pt tokens with
  | .error e => .error e
  | .ok seqs => .ok (optimizeTop speed seqs)

/-- filter.py:98-111: construct a Matcher from tokens and test an entry. -/
def matcher (pt : Str → Except PErr T) (speed : T → Nat) (tokens : List Str) (env : T → Option Bool) : Except PErr Bool :=
  match parserInit pt speed tokens with
  | .error e => .error e
  | .ok seqs => .ok (matcherTest seqs env)

/-- filter.py:57-90: the Excluder built from tokens. -/
def excluder (pt : Str → Except PErr T) (speed : T → Nat) (tokens : List Str) (env : T → Option Bool) : Except PErr (Option Bool) :=
  match parserInit pt speed tokens with
  | .error e => .error e
  | .ok seqs => .ok (excluderTest seqs env)

end
end FF
