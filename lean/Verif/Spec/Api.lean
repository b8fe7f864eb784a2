import Verif.Spec.Whole
import Verif.Model.Api
/-! What is asked for with the arguments of `Find`. -/
namespace FF.Spec

/-- Where tests are evaluated. -/
def findTests (W : World) (f : FindArgs) : SearchEnv :=
  { W.base with reg := W.main.reg, case := if f.case = "smart".toList then .smart else if f.case = "ignore".toList then .ignore else .sensitive }

/-- The entry is asked for: it is somewhere below one of the directories, meets the tests, and nothing on the way is excluded, ignored, hidden or on another
file system, if that is wanted. -/
def FindWanted (W : World) (f : FindArgs) (tests dirs : List Str) (i : EntInfo) : Prop :=
  ∃ d ∈ dirs, let start := beginning W f.absolutePath d
    let kids := W.tree f.followSymlinks start.root
    let base := if f.ignore then startIgnores W.main.cwd W.pathExists f.ignoreFiles start.root else []
    let at' := entryAt (fun n => n ∈ f.ignoreFiles) start base kids
    ∃ p, Chain kids p ∧ i = at' p ∧ Meets (findTests W f) tests i ∧ ∀ q n, q ++ [n] <+: p →
      (∀ t ∈ f.exclude, holds (findTests W f) (at' (q ++ [n])) t = false) ∧
      (f.ignore = true → holds (findTests W f) (at' (q ++ [n])) "ignored=yes".toList = false) ∧
      (f.hide = true → ∀ r, n.name ≠ '.' :: r) ∧
      (f.oneFileSystem = true → (findTests W f).stat (at' (q ++ [n])) "samedev".toList ≠ some (.bool false))

/-- The record for an entry: each attribute asked for with its value. -/
def IsRecord (W : World) (f : FindArgs) (fields : List Field) (i : EntInfo) (r : FindRecord) : Prop :=
  (∀ x ∈ fields, r.lookup x.label = some ((findTests W f).attr i x.attr)) ∧ ∀ k, (∃ v, r.lookup k = some v) → ∃ x ∈ fields, x.label = k

/-- A command line asks for the same as the arguments of `Find`. -/
structure SameRequest (ns : NS) (f : FindArgs) (tests : List Str) : Prop where
  tests : (ns "tests".toList).toWords = tests
  dirs : (ns "directories".toList).toWords = f.directories
  exclude : (ns "exclude".toList).toWords = f.exclude
  output : (ns "output".toList).toWords = f.output
  hide : (ns "hide".toList).truthy = f.hide
  ignore : (ns "ignore".toList).truthy = f.ignore
  parents : (ns "no_parent_ignore".toList).truthy = false
  ignoreFiles : (ns "ignore_files".toList).toWords = f.ignoreFiles
  oneFileSystem : (ns "one_file_system".toList).truthy = f.oneFileSystem
  case : ns "case".toList = .str f.case
  si : (ns "si".toList).truthy = f.si
  follow : (ns "follow_symlinks".toList).truthy = f.followSymlinks
  absolute : f.absolutePath = ((ns "absolute_path".toList).truthy || (ns "json".toList).toOptStr.isSome)
  depth : (ns "depth".toList).toRanges = []

end FF.Spec
