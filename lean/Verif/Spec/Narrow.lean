import Verif.Spec.Absolute
/-! A command line with further options that leave out files. -/
namespace FF.Spec

/-- The second command line has the options of the first that decide what is found, and maybe more of those that leave out files: `-H`, `--one-file-system`, `--exclude`, `--depth` and `-I`. -/
structure Narrower (ns ns' : NS) : Prop where
  hide : (ns "hide".toList).truthy = true → (ns' "hide".toList).truthy = true
  oneFileSystem : (ns "one_file_system".toList).truthy = true → (ns' "one_file_system".toList).truthy = true
  exclude : ∀ t ∈ (ns "exclude".toList).toWords, t ∈ (ns' "exclude".toList).toWords
  depth : (ns "depth".toList).toRanges = (ns' "depth".toList).toRanges ∨ (ns "depth".toList).toRanges = []
  ignore : (ns "ignore".toList).truthy = true → (ns' "ignore".toList).truthy = true
  parents : (ns "no_parent_ignore".toList).truthy = (ns' "no_parent_ignore".toList).truthy
  ignoreFiles : (ns "ignore_files".toList).toWords = (ns' "ignore_files".toList).toWords
  case : ns "case".toList = ns' "case".toList
  follow : (ns "follow_symlinks".toList).truthy = (ns' "follow_symlinks".toList).truthy
  absolute : absolutely ns = absolutely ns'

/-- The ignore files above the search directories count for both command lines or for none. -/
def SameOutside (ns ns' : NS) : Prop := (ns "ignore".toList).truthy = (ns' "ignore".toList).truthy ∨ (ns "no_parent_ignore".toList).truthy = true

/-- The test is not about ignore files. -/
def Unignoring (S : SearchEnv) (word : Str) : Prop := ∀ i l, holds S { i with ignorePaths := l } word = holds S i word

/-- The depths of `--depth` do not allow an entry at the end of these names. -/
def TooFar (ns : NS) (p : List FNode) : Prop := (ns "depth".toList).toRanges ≠ [] ∧ ∀ r ∈ (ns "depth".toList).toRanges, ¬ InRange ((p.length : Int) - 1) r

/-- The options leave out the entry at the end of these names, or a directory on the way to it. -/
def LeftOut (W : World) (ns : NS) (d : Str) (p : List FNode) : Prop :=
  ∃ q n, q ++ [n] <+: p ∧ Avoided (asked W ns) (settingsOf ns) (found W ns d (q ++ [n])) n.name

end FF.Spec
