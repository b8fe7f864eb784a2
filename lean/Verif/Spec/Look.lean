import Verif.Spec.Relate
/-! Which options of two command lines have to agree so that their output can be compared. -/
namespace FF.Spec

/-- The options about how a line is printed are the same; `--sort`, `--reverse`, `--limit`, `--jobs` and `--count` may differ. -/
structure SameLook (ns ns' : NS) : Prop where
  output : (ns "output".toList).toWords = (ns' "output".toList).toWords
  separator : (ns "separator".toList).toOptStr = (ns' "separator".toList).toOptStr
  newline : (ns "newline".toList).toOptStr = (ns' "newline".toList).toOptStr
  all : (ns "all".toList).truthy = (ns' "all".toList).truthy
  si : (ns "si".toList).truthy = (ns' "si".toList).truthy
  color : (ns "color".toList).toOptStr = (ns' "color".toList).toOptStr

/-- No command, no statistics: entries are printed. -/
def ShowsEntries (ns : NS) : Prop :=
  (ns "count".toList).toOptWords = none ∧ (ns "exec".toList).toOptWords = none ∧ (ns "exec_batch".toList).toOptWords = none

/-- The text consists of these lines. -/
def OfLines (newline : Str) (lines : List Str) (text : Str) : Prop := text = lines.flatMap (· ++ newline)

end FF.Spec
