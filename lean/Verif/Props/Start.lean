import Verif.Spec.Start
/-! C119: starting ff starts the installed program. -/
namespace FF
open Spec

/-- C119: the program is started with all words of the command line as they are, with assertions and debug code switched off, whatever these words are. -/
theorem C119_arguments (executable : Str) (argv : List Str) :
    ∃ w ws, execWords executable argv = w :: ws ∧ w = executable ∧ pyCommandLine false ws = some ⟨true, "ff".toList, argv.drop 1⟩ := by
  exact ⟨_, _, rfl, rfl, rfl⟩

theorem findIn_none {suffixes : List Str} {d : ModDir} {name : Str} (h : ¬ HasModule suffixes d name) : findIn suffixes d name = none := by
  simp only [HasModule, not_or, not_exists, not_and] at h
  have h1 : d.dirs.find? (·.1 = name) = none := by
    rw [List.find?_eq_none]
    rintro ⟨n, fs⟩ hm hc
    simp only [decide_eq_true_eq] at hc
    subst hc
    exact h.1 fs hm
  have h2 : (suffixes.find? fun s => decide (name ++ s ∈ d.files)) = none := by
    rw [List.find?_eq_none]
    intro s hs hc
    exact h.2 s hs (of_decide_eq_true hc)
  simp only [findIn, h1, h2, Option.map_none]

/-- C119, in a directory that offers none of the modules ff uses: they are loaded from where they are installed. -/
theorem C119_installed_partial (suffixes : List Str) (safe : Bool) (cwd : ModDir) (installed : List ModDir) (names : List Str)
    (h : ∀ n ∈ names, ¬ HasModule suffixes cwd n) :
    Independent suffixes safe cwd installed names ∧ ∀ n ∈ names, loadedFrom suffixes safe cwd installed n = findModule suffixes n installed := by
  have he : ∀ n, ¬ HasModule suffixes ⟨cwd.path, [], []⟩ n := by intro n; simp [HasModule]
  have key : ∀ d n, ¬ HasModule suffixes d n → loadedFrom suffixes safe d installed n = findModule suffixes n installed := by
    intro d n hn
    cases safe with
    | true => rfl
    | false =>
      show findModule suffixes n (d :: installed) = _
      rw [findModule, findIn_none hn]
  exact ⟨fun n hn => by rw [key _ n (h n hn), key _ n (he n)], fun n hn => key _ n (h n hn)⟩

/-- C119 with PYTHONSAFEPATH: the current directory does not matter. -/
theorem C119_safe (suffixes : List Str) (cwd : ModDir) (installed : List ModDir) (names : List Str) : Independent suffixes true cwd installed names :=
  fun _ _ => rfl

/-- C119 is false otherwise: in every directory with a file of the name of a module with a suffix, and without a directory of its name, this file is loaded instead of the
installed module, for every module that is not part of the interpreter. So a file `ff.py` in the current directory is executed instead of ff. -/
theorem C119_taken (suffixes : List Str) (cwd : ModDir) (installed : List ModDir) (name s : Str) (hs : s ∈ suffixes) (hf : name ++ s ∈ cwd.files)
    (hd : ∀ fs, (name, fs) ∉ cwd.dirs) : ∃ s' ∈ suffixes, name ++ s' ∈ cwd.files ∧
      loadedFrom suffixes false cwd installed name = some (cwd.path ++ '/' :: (name ++ s')) := by
  have h1 : cwd.dirs.find? (·.1 = name) = none := by
    rw [List.find?_eq_none]
    rintro ⟨n, fs⟩ hm hc
    simp only [decide_eq_true_eq] at hc
    subst hc
    exact hd fs hm
  cases h2 : suffixes.find? fun s => decide (name ++ s ∈ cwd.files) with
  | none =>
    rw [List.find?_eq_none] at h2
    exact absurd (decide_eq_true hf) (h2 s hs)
  | some s' =>
    have h3 := List.find?_some h2
    refine ⟨s', List.mem_of_find?_eq_some h2, of_decide_eq_true h3, ?_⟩
    show findModule suffixes name (cwd :: installed) = _
    rw [findModule]
    simp only [findIn, h1, h2, Option.map_some]

/-- The suffixes of modules, shortened, for the examples. -/
def moduleSuffixes : List Str := [".so".toList, ".py".toList, ".pyc".toList]
/-- Where ff is installed, for the examples. -/
def sitePackages : ModDir := ⟨"/usr/lib/python3/site-packages".toList, [], [("ff".toList, ["__init__.py".toList, "__main__.py".toList]), ("libff".toList, ["__init__.py".toList])]⟩

/-- C119 is false: in a directory with a file `ff.py` this file is executed, in one with a file `json.py` ff loads it. -/
theorem C119_false :
    loadedFrom moduleSuffixes false ⟨"/tmp/download".toList, ["ff.py".toList, "photo.jpg".toList], []⟩ [sitePackages] "ff".toList = some "/tmp/download/ff.py".toList ∧
    loadedFrom moduleSuffixes false ⟨"/tmp/download".toList, [], [("libff".toList, ["__init__.py".toList])]⟩ [sitePackages] "libff".toList =
      some "/tmp/download/libff/__init__.py".toList ∧
    ¬ Independent moduleSuffixes false ⟨"/tmp/download".toList, ["ff.py".toList, "photo.jpg".toList], []⟩ [sitePackages] ["ff".toList] := by
  refine ⟨by decide, by decide, fun h => ?_⟩
  exact absurd (h "ff".toList (by simp)) (by decide)

example : ¬ HasModule moduleSuffixes ⟨"/home".toList, ["photo.jpg".toList, "ff.txt".toList], [("src".toList, [])]⟩ "ff".toList := by
  simp [HasModule, moduleSuffixes]
example : loadedFrom moduleSuffixes false ⟨"/home".toList, ["photo.jpg".toList, "ff.txt".toList], [("src".toList, [])]⟩ [sitePackages] "ff".toList =
    some "/usr/lib/python3/site-packages/ff/__init__.py".toList := by decide
example : pyCommandLine false ((execWords "/usr/bin/python3".toList (["ff", "-m", "-O", "x=y"].map String.toList)).drop 1) =
    some ⟨true, "ff".toList, ["-m", "-O", "x=y"].map String.toList⟩ := by decide

end FF
