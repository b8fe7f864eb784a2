import Verif.Spec.Relate
/-! What two searches in the same directory, or in a directory and one below it, have in common. -/
namespace FF.Spec

/-- From a directory with these entries the names of `p` lead to a directory with the entries `kids'`; `p` may be empty. -/
def Down : List FNode → List FNode → List FNode → Prop
  | kids, [], kids' => kids' = kids
  | kids, n :: p, kids' => n ∈ kids ∧ n.isDir = true ∧ Down n.kids p kids'

/-- The absolute path of something below the directory with these names. -/
def Under (dir : List Str) (x : Str) : Prop := ∃ names : List Str, names ≠ [] ∧ (∀ n ∈ names, IsFileName n) ∧ x = '/' :: pathOf (dir ++ names)

/-- Two entries are the same file. -/
def SamePlace (i j : EntInfo) : Prop := i.entry.abspath = j.entry.abspath ∧ i.entry.name = j.entry.name ∧ i.isDir = j.isDir

/-- The tests are about the file, not about how the search got there, as tests for `depth` or `path` are. -/
def AboutFiles (S : SearchEnv) (words : List Str) : Prop := ∀ t ∈ words, ∀ i j, SamePlace i j → holds S i t = holds S j t

/-- The options that matter for both searches are the same, and there are none that depend on where the search begins: `-I`, `--one-file-system` and `--depth`. -/
structure SameSearch (ns ns' : NS) : Prop where
  exclude : (ns "exclude".toList).toWords = (ns' "exclude".toList).toWords
  hide : (ns "hide".toList).truthy = (ns' "hide".toList).truthy
  case : ns "case".toList = ns' "case".toList
  follow : (ns "follow_symlinks".toList).truthy = (ns' "follow_symlinks".toList).truthy
  ignore : (ns "ignore".toList).truthy = false ∧ (ns' "ignore".toList).truthy = false
  oneFileSystem : (ns "one_file_system".toList).truthy = false ∧ (ns' "one_file_system".toList).truthy = false
  depth : (ns "depth".toList).toRanges = [] ∧ (ns' "depth".toList).toRanges = []

/-- How paths are shown: absolute with `--absolute-path` and with JSON. -/
def absolutely (ns : NS) : Bool := (ns "absolute_path".toList).truthy || (ns "json".toList).toOptStr.isSome

/-- What is below the directory `d` of a command line. -/
def beneath (W : World) (ns : NS) (d : Str) : List FNode := W.tree (ns "follow_symlinks".toList).truthy (beginning W (absolutely ns) d).root

/-- The entry below `d` to which the names of `p` lead. -/
def found (W : World) (ns : NS) (d : Str) (p : List FNode) : EntInfo :=
  entryAt (fun n => n ∈ (ns "ignore_files".toList).toWords) (beginning W (absolutely ns) d) (outside W ns (beginning W (absolutely ns) d).root) (beneath W ns d) p

/-- Nothing on the way is left out by `--exclude` or `-H`. -/
def Clear (W : World) (ns : NS) (d : Str) (p : List FNode) : Prop := ∀ q n, q ++ [n] <+: p → ¬ Avoided (asked W ns) (settingsOf ns) (found W ns d (q ++ [n])) n.name

end FF.Spec
