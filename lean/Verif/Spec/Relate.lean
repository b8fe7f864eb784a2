import Verif.Spec.Whole
/-! Which options of two command lines have to agree so that their results can be compared. -/
namespace FF.Spec

/-- The options about where to search and what to leave out are the same, apart from `--exclude`; all others, as `--jobs`, `--output`, `--sort`, `--limit`, `--color` and
`--exec`, may differ. -/
structure SameButExclude (ns ns' : NS) : Prop where
  ignore : (ns "ignore".toList).truthy = (ns' "ignore".toList).truthy
  parents : (ns "no_parent_ignore".toList).truthy = (ns' "no_parent_ignore".toList).truthy
  ignoreFiles : (ns "ignore_files".toList).toWords = (ns' "ignore_files".toList).toWords
  hide : (ns "hide".toList).truthy = (ns' "hide".toList).truthy
  oneFileSystem : (ns "one_file_system".toList).truthy = (ns' "one_file_system".toList).truthy
  depth : (ns "depth".toList).toRanges = (ns' "depth".toList).toRanges
  case : ns "case".toList = ns' "case".toList
  follow : (ns "follow_symlinks".toList).truthy = (ns' "follow_symlinks".toList).truthy
  /-- paths are absolute with `--absolute-path` and with JSON -/
  absolute : ((ns "absolute_path".toList).truthy || (ns "json".toList).toOptStr.isSome) = ((ns' "absolute_path".toList).truthy || (ns' "json".toList).toOptStr.isSome)

/-- They are the same, including the `--exclude` tests. -/
def SameChoice (ns ns' : NS) : Prop := SameButExclude ns ns' ∧ (ns "exclude".toList).toWords = (ns' "exclude".toList).toWords

/-- They are the same, but the second command line may have more `--exclude` tests. -/
def MoreExcluded (ns ns' : NS) : Prop := SameButExclude ns ns' ∧ ∀ t ∈ (ns "exclude".toList).toWords, t ∈ (ns' "exclude".toList).toWords

end FF.Spec
