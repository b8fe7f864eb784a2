import Verif.Model.Start
/-! What it means to start the installed program. -/
namespace FF.Spec

/-- A module of this name could be in the directory: there is a directory of this name, or a file of this name with one of the suffixes of modules. -/
def HasModule (suffixes : List Str) (d : ModDir) (name : Str) : Prop := (∃ fs, (name, fs) ∈ d.dirs) ∨ ∃ s ∈ suffixes, name ++ s ∈ d.files

/-- The current directory does not matter for the modules `names`: they are loaded from the same files as from an empty directory. -/
def Independent (suffixes : List Str) (safe : Bool) (cwd : ModDir) (installed : List ModDir) (names : List Str) : Prop :=
  ∀ n ∈ names, loadedFrom suffixes safe cwd installed n = loadedFrom suffixes safe ⟨cwd.path, [], []⟩ installed n

end FF.Spec
