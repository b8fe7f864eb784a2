import Verif.Model.Media
/-! What the tracks of a file say, and which package owns a file. -/
namespace FF.Spec

/-- The first track of a kind. -/
def FirstTrack (kind : Str) (tracks : List Track) (t : Track) : Prop := ∃ a b, tracks = a ++ t :: b ∧ t.kind = kind ∧ ∀ u ∈ a, u.kind ≠ kind

/-- There is no track of a kind. -/
def NoTrack (kind : Str) (tracks : List Track) : Prop := ∀ t ∈ tracks, t.kind ≠ kind

/-- The tag that comes last in the tracks that describe the whole file. -/
def LastTag (attr : Track → Option Str) (tracks : List Track) (v : Str) : Prop :=
  ∃ a t b, tracks = a ++ t :: b ∧ t.kind = ['g', 'e', 'n', 'e', 'r', 'a', 'l'] ∧ attr t = some v ∧ v ≠ [] ∧ ∀ u ∈ b, u.kind = ['g', 'e', 'n', 'e', 'r', 'a', 'l'] → attr u = none ∨ attr u = some []

/-- `n` whole seconds in a number of milliseconds. -/
def Seconds (ms : Nat) (n : Int) : Prop := ∃ k : Nat, n = k ∧ k * 1000 ≤ ms ∧ ms < (k + 1) * 1000

/-- A package owns a file; directories are listed with a slash at the end. -/
def Owns (db : List (Str × Str)) (pkg path : Str) : Prop := (pkg, path) ∈ db ∨ (pkg, path ++ ['/']) ∈ db

end FF.Spec
