import Verif.Model.Whole
import Verif.Model.Message
/-! Model of the warning about tests of hidden files, /repo/libff/filter.py. -/
namespace FF

section
variable {T : Type}

mutual
/-- The tests of an element of a sequence, in the order in which they have been parsed. -/
def testsOfNode : Node T → List T
  | .test t => [t]
  | .and l => testsOfList l
  | .or l => testsOfList l
  | .not l => testsOfList l
/-- The tests of a sequence. -/
def testsOfList : List (Node T) → List T
  | [] => []
  | n :: ns => testsOfNode n ++ testsOfList ns
end

end

/-- filter.py:35-36: the warning. -/
def hideWarning : Message :=
  ⟨"WARNING".toList, "file.hide and file.hidden have no effect with -H/--hide".toList, some "hide".toList⟩

/-- filter.py:32-37 `MatcherParser.create_test`: what is said about a test; `hide` is the option. -/
def hideMessage (hide : Bool) (t : Attr × Test) : List Message :=
  if hide && t.1.1 = "file".toList && (t.1.2 = "hide".toList || t.1.2 = "hidden".toList) then [hideWarning] else []

/-- filter.py:98-99 and logger.py:41-46: the messages that are printed while the matcher is made. `create_test` is called for each test when it is parsed, before
the sequences are sorted. Simplified: if the expression is refused nothing is said here, the program prints the warnings for the tests before the error. -/
def SearchEnv.matcherMessages (S : SearchEnv) (hide : Bool) (tokens : List Str) : List Message :=
  match parse S.parseTest tokens with
  | .error _ => []
  | .ok seqs => printMessages [] ((testsOfList (seqs.map Node.and)).flatMap (hideMessage hide))


/-- main.py:133-138: the messages of a run. -/
def World.matcherMessages (W : World) (ns : NS) (p : Plan) : List Message := (W.env ns).matcherMessages (ns "hide".toList).truthy p.tests

end FF
