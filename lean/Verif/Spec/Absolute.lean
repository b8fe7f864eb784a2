import Verif.Spec.Part
/-! What two searches have in common if only one of them has `--absolute-path`. -/
namespace FF.Spec

/-- The options of two command lines that decide what is found are the same, but only the second one has `--absolute-path`, or JSON, which has the same effect. -/
structure ShownOnly (ns ns' : NS) : Prop where
  off : absolutely ns = false
  on : absolutely ns' = true
  ignore : (ns "ignore".toList).truthy = (ns' "ignore".toList).truthy
  parents : (ns "no_parent_ignore".toList).truthy = (ns' "no_parent_ignore".toList).truthy
  ignoreFiles : (ns "ignore_files".toList).toWords = (ns' "ignore_files".toList).toWords
  exclude : (ns "exclude".toList).toWords = (ns' "exclude".toList).toWords
  hide : (ns "hide".toList).truthy = (ns' "hide".toList).truthy
  oneFileSystem : (ns "one_file_system".toList).truthy = (ns' "one_file_system".toList).truthy
  depth : (ns "depth".toList).toRanges = (ns' "depth".toList).toRanges
  case : ns "case".toList = ns' "case".toList
  follow : (ns "follow_symlinks".toList).truthy = (ns' "follow_symlinks".toList).truthy

/-- The same file was found in the same search directory, which may have been written in another way. -/
structure SameFile (i j : EntInfo) : Prop where
  start : i.start.absroot = j.start.absroot
  written : i.start.root ≠ [] ∧ j.start.root ≠ []
  relpath : i.relpath = j.relpath
  names : ∃ names : List Str, names ≠ [] ∧ (∀ x ∈ names, IsFileName x) ∧ i.relpath = pathOf names
  isDir : i.isDir = j.isDir
  ignores : i.ignorePaths = j.ignorePaths

/-- What `stat` and the plugins say does not depend on how the search directory was written. -/
def Faithful (S : SearchEnv) : Prop := ∀ i j, SameFile i j → (∀ name, S.stat i name = S.stat j name) ∧ ∀ plugin name, S.data i plugin name = S.data j plugin name

/-- The attributes that are about the path as it is shown. -/
def shownAttributes : List Attr := ["path", "root", "dir", "pathx", "hidden"].map fun n => ("file".toList, n.toList)

/-- The test is not for one of them. -/
def NotShown (S : SearchEnv) (word : Str) : Prop := ∀ x, S.parseTest word = .ok x → x.1 ∉ shownAttributes

end FF.Spec
