import Verif.Model.Reference
/-! C74: reference files. -/
namespace FF

theorem startsWith_iff_prefix {s p : Str} : startsWith s p = true ↔ p <+: s := by
  unfold startsWith
  rw [List.isPrefixOf_iff_prefix]

theorem absNorm_ne_nil (cwd path : Str) : absNorm cwd path ≠ [] := by
  unfold absNorm
  generalize (if startsWith path ['/'] = true then path else osJoin cwd path) = p
  unfold normpath
  simp only
  split
  · simp
  · assumption

/-- C74, what is true: a reference to a file that is found in one of the search directories has the paths, the depth and the names with which it is found,
if search directories are not inside one another. Missing: the search directory `/`, `--absolute-path`, and files given by their name only. -/
theorem C74_same_partial (there : Str → Bool) (cwd : Str) {dirs : List Str} {d relpath path : Str} (hd : d ∈ dirs) (hne : relpath ≠ [])
    (hdisj : ∀ a ∈ dirs, ∀ b ∈ dirs, a ≠ b → ¬ (absNorm cwd a ++ ['/']) <+: (absNorm cwd b ++ ['/'])) (hroot : absNorm cwd d ≠ ['/'])
    (hthere : there d = true ∧ there path = true) (hpath : absNorm cwd path = (foundEntry false cwd d relpath).abspath) :
    asReference there cwd dirs path = some (foundEntry false cwd d relpath) := by
  have habs : (foundEntry false cwd d relpath).abspath = absNorm cwd d ++ '/' :: relpath := by
    show pathJoin (absNorm cwd d) relpath = _
    unfold pathJoin
    rw [if_pos (absNorm_ne_nil cwd d), if_pos hne, if_neg hroot]
  rw [habs] at hpath
  have hfind : dirs.find? (fun e => startsWith (absNorm cwd path) (absNorm cwd e ++ ['/'])) = some d := by
    have hself : startsWith (absNorm cwd path) (absNorm cwd d ++ ['/']) = true := startsWith_iff_prefix.2 ⟨relpath, by rw [hpath]; simp⟩
    cases hf : dirs.find? (fun e => startsWith (absNorm cwd path) (absNorm cwd e ++ ['/'])) with
    | none =>
      have := List.find?_eq_none.1 hf d hd
      exact absurd hself this
    | some e =>
      have he := List.mem_of_find?_eq_some hf
      have hs := List.find?_some hf
      have hp := startsWith_iff_prefix.1 (show startsWith (absNorm cwd path) (absNorm cwd e ++ ['/']) = true from hs)
      by_cases hed : e = d
      · rw [hed]
      · exfalso
        rcases List.prefix_or_prefix_of_prefix hp (startsWith_iff_prefix.1 hself) with h | h
        · exact hdisj e he d hd hed h
        · exact hdisj d hd e he (fun x => hed x.symm) h
  have hplace : referencePlace cwd dirs path = (d, relpath) := by
    unfold referencePlace
    simp only [hfind]
    rw [hpath, show absNorm cwd d ++ '/' :: relpath = (absNorm cwd d ++ ['/']) ++ relpath by simp, List.drop_left]
  unfold asReference
  simp only [hplace, hthere.1, hthere.2, Bool.and_self, if_true]
  rfl

example : asReference (fun _ => true) "/home/u".toList ["src".toList, "/tmp".toList] "src/lib/x.c".toList = some (foundEntry false "/home/u".toList "src".toList "lib/x.c".toList) ∧
    absNorm "/home/u".toList "src/lib/x.c".toList = (foundEntry false "/home/u".toList "src".toList "lib/x.c".toList).abspath ∧
    absNorm "/home/u".toList "src".toList ≠ ['/'] := by decide

/-- C74 fails for the search directory `/`: the depth of a reference is 0 whereas that of the file is 1. -/
theorem C74_root_false : (foundEntry false "/home/u".toList "/".toList "etc/passwd".toList).path = "/etc/passwd".toList ∧
    (foundEntry false "/home/u".toList "/".toList "etc/passwd".toList).depth = 1 ∧
    (asReference (fun _ => true) "/home/u".toList ["/".toList] "/etc/passwd".toList).map Entry.depth = some 0 := by decide

/-- C74 fails with `--absolute-path`: the paths of references are still relative, so no file has the path of its own reference. -/
theorem C74_absolute_false : (foundEntry true "/home/u".toList "src".toList "x.c".toList).path = "/home/u/src/x.c".toList ∧
    (asReference (fun _ => true) "/home/u".toList ["src".toList] "src/x.c".toList).map Entry.path = some "src/x.c".toList := by decide

/-- C74 fails for the name of a file in the current directory, if that is not searched: the file exists and yet it is not found. -/
theorem C74_name_false (there : Str → Bool) (hempty : there [] = false) : asReference there "/home/u".toList ["src".toList] "x.c".toList = none := by
  have : referencePlace "/home/u".toList ["src".toList] "x.c".toList = ([], "x.c".toList) := by decide
  unfold asReference
  simp only [this, hempty, Bool.false_and, Bool.false_eq_true, if_false]

end FF
