import Verif.Model.PyStr
namespace FF.Spec

/-- A file name as found in a directory listing. -/
def IsFileName (n : Str) : Prop := n ≠ [] ∧ '/' ∉ n

/-- The slash separated path of a list of names. -/
def pathOf : List Str → Str
  | [] => []
  | [n] => n
  | n :: ns => n ++ '/' :: pathOf ns

/-- A mount point as listed in /proc/mounts: "/" or an absolute path without trailing slash. -/
def MountPath (m : Str) : Prop := m = ['/'] ∨ ((∃ t, m = '/' :: t) ∧ ∀ t, m ≠ t ++ ['/'])

/-- Mount point `m` is the absolute path `p` itself or one of its ancestor directories. -/
def Contains (m p : Str) : Prop := p = m ∨ (m = ['/'] ∧ ∃ q, p = '/' :: q) ∨ ∃ q, p = m ++ '/' :: q

end FF.Spec
