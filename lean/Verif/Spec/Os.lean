import Verif.Model.Os
import Verif.Spec.Walk
/-! Which entries can be seen by someone who lists directories and looks at what is listed. -/
namespace FF.Spec

/-- The directory can be listed, and the listing has this name. -/
def Listed (O : Os) (dir name : Str) : Prop := ∃ names err, O.scandir dir = .ok (names, err) ∧ name ∈ names

/-- The entry can be examined; the text of a symbolic link can be read. -/
def Examined (O : Os) (follow : Bool) (path : Str) (s : OsStat) : Prop :=
  O.stat follow path = .ok s ∧ (s.isLink = true → O.readlink path = .ok ())

/-- Examining the entry, or reading the text of the symbolic link, fails with this error. -/
def Unexaminable (O : Os) (follow : Bool) (path : Str) (e : OsErr) : Prop :=
  O.stat follow path = .error e ∨ ∃ s, O.stat follow path = .ok s ∧ s.isLink = true ∧ O.readlink path = .error e

/-- `Visible names d`: the names lead to an entry below the start directory that can be examined, and every directory on the way can be listed; `d` says whether it is a directory. -/
inductive Visible (O : Os) (follow : Bool) (root : Str) : List Str → Bool → Prop
  | top {n s} : Listed O root n → Examined O follow (absOf root [n]) s → Visible O follow root [n] s.isDir
  | deeper {ns n s} : Visible O follow root ns true → Listed O (absOf root ns) n → Examined O follow (absOf root (ns ++ [n])) s →
      Visible O follow root (ns ++ [n]) s.isDir

/-- An operating system lists file names, each only once, and refuses paths of 4096 bytes and more. -/
structure _root_.FF.Os.Proper (O : Os) : Prop where
  names : ∀ dir names err, O.scandir dir = .ok (names, err) → (∀ n ∈ names, IsFileName n) ∧ names.Nodup
  limit : ∀ dir : Str, 4096 ≤ dir.length → ∃ e, O.scandir dir = .error e

/-- An error that is neither that a file has vanished nor that access is denied. -/
def Worth (e : OsErr) : Prop := e ≠ .notFound ∧ e ≠ .permission

end FF.Spec
