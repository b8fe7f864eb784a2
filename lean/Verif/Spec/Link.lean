import Verif.Model.Link
import Verif.Spec.Entry
/-! Where a path leads to. -/
namespace FF
namespace Spec

/-- Not a name of a file: nothing, a dot or two dots. -/
def Dots (c : Str) : Prop := c = [] ∨ c = ['.'] ∨ c = ['.', '.']

/-- A file system is a tree: everything but the root is in a directory under a name. -/
def Tree (fs : FileSystem) : Prop :=
  fs [] = some .dir ∧ ∀ p c, fs (p ++ [c]) ≠ none → fs p = some .dir ∧ ¬ Dots c ∧ '/' ∉ c

/-- The place a text is followed from, if the file it is about is in `base`. -/
def From (text : Str) (base start : List Str) : Prop := ((∃ r, text = '/' :: r) ∧ start = []) ∨ ((¬ ∃ r, text = '/' :: r) ∧ start = base)

/-- The names in a path, the slash of an absolute path left out. -/
def Parts (text : Str) (cs : List Str) : Prop := (∀ c ∈ cs, '/' ∉ c) ∧ cs ≠ [] ∧ (text = joinWith '/' cs ∧ text.head? ≠ some '/' ∨ text = '/' :: joinWith '/' cs)

/-- Going along the parts of a path from a place one gets to `r`, following `k` symbolic links (see path_resolution(7)): one goes on only from a directory, nothing
and a dot stay, two dots go up, a name goes to the file of this name, and a symbolic link is replaced by its text. -/
inductive Leads (fs : FileSystem) : Nat → List Str → List Str → List Str → Prop
  | here {p} : fs p ≠ none → Leads fs 0 p [] p
  | stay {k p c cs r} : fs p = some .dir → c = [] ∨ c = ['.'] → Leads fs k p cs r → Leads fs k p (c :: cs) r
  | up {k p cs r} : fs p = some .dir → Leads fs k p.dropLast cs r → Leads fs k p (['.', '.'] :: cs) r
  | down {k p c cs r} : fs p = some .dir → ¬ Dots c → fs (p ++ [c]) ≠ none → (∀ t, fs (p ++ [c]) ≠ some (.link t)) → Leads fs k (p ++ [c]) cs r →
      Leads fs k p (c :: cs) r
  | link {k p c cs r t s ts} : fs p = some .dir → ¬ Dots c → fs (p ++ [c]) = some (.link t) → From t p s → Parts t ts → Leads fs k s (ts ++ cs) r →
      Leads fs (k + 1) p (c :: cs) r

/-- A path, looked at from a current directory, is the one of an existing file, found at `r`. -/
def StatOf (fs : FileSystem) (cwd : List Str) (path : Str) (r : List Str) : Prop :=
  ∃ s cs k, From path cwd s ∧ Parts path cs ∧ k ≤ 40 ∧ Leads fs k s cs r

/-- The file of a name in a directory, given by a path, is a symbolic link; the directory is found at `p`. -/
def LinkAt (fs : FileSystem) (cwd : List Str) (dir name text : Str) (p : List Str) : Prop :=
  ∃ s cs k, From dir cwd s ∧ Parts dir cs ∧ k ≤ 40 ∧ Leads fs k s cs p ∧ IsFileName name ∧ ¬ Dots name ∧ fs (p ++ [name]) = some (.link text) ∧ text ≠ []

/-- A path leads to a file, however many symbolic links there are. -/
def PathReaches (fs : FileSystem) (cwd : List Str) (path : Str) (r : List Str) : Prop := ∃ s cs k, From path cwd s ∧ Parts path cs ∧ Leads fs k s cs r

/-- Dots are at the beginning only. -/
def DotsFirst (cs : List Str) : Prop := ∃ a b, cs = a ++ b ∧ (∀ c ∈ a, Dots c) ∧ ∀ c ∈ b, ¬ Dots c

/-- No symbolic link has dots after a name in its text. -/
def UpLinks (fs : FileSystem) : Prop := ∀ p t ts, fs p = some (.link t) → Parts t ts → DotsFirst ts

end Spec
end FF
