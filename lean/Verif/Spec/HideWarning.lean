import Verif.Spec.Part
import Verif.Spec.Expression
/-! What tests of hidden files are. -/
namespace FF.Spec

/-- The word is a test of `hide` or `hidden`, with or without the name of the plugin: blanks, one of these names, blanks, and an operator with a value. -/
def AboutHidden (cc : CharClass) (word : Str) : Prop :=
  ∃ sp1 name sp2 op rest, Blank cc sp1 ∧ Blank cc sp2 ∧ name ∈ ["hide".toList, "hidden".toList, "file.hide".toList, "file.hidden".toList] ∧
    op ∈ operators.map Prod.fst ∧ word = sp1 ++ name ++ sp2 ++ op ++ rest

/-- A part of this path begins with a dot. -/
def DotPart (path : Str) : Prop := ∃ c ∈ splitOn '/' path, ∃ r, c = '.' :: r

/-- Where the search begins, as it is shown in paths, is the current directory or has no part that begins with a dot. -/
def PlainStart (W : World) (ns : NS) (d : Str) : Prop :=
  (beginning W (absolutely ns) d).root = ['.'] ∨ ¬ DotPart (beginning W (absolutely ns) d).root

end FF.Spec
