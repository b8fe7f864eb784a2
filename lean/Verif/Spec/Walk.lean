import Verif.Model.Walk
import Verif.Spec.Entry
/-! Which entries a search selects, independently of how the walk is done. -/
namespace FF.Spec

/-- `p` is a way down from the entries `kids`: each element but the last is a directory that holds the next one. -/
def Chain : List FNode → List FNode → Prop
  | _, [] => False
  | kids, [n] => n ∈ kids
  | kids, n :: p => n ∈ kids ∧ n.isDir = true ∧ Chain n.kids p

/-- The absolute path of the entry with these names below the start directory. -/
def absOf (absroot : Str) (names : List Str) : Str := if absroot = ['/'] then '/' :: pathOf names else absroot ++ '/' :: pathOf names

/-- The ignore files in a directory (given by its names and its listing). -/
def ignoresIn (isIgn : Str → Bool) (absroot : Str) (dir : List Str) (kids : List FNode) : List Str :=
  ((kids.map FNode.name).filter isIgn).map (fun n => absOf absroot (dir ++ [n]))

/-- The ignore files that apply at the end of a chain: those of every directory on the way, outermost first. -/
def ignoresOn (isIgn : Str → Bool) (absroot : Str) : List Str → List FNode → List FNode → List Str
  | dir, kids, n :: m :: p => ignoresIn isIgn absroot dir kids ++ ignoresOn isIgn absroot (dir ++ [n.name]) n.kids (m :: p)
  | dir, kids, _ => ignoresIn isIgn absroot dir kids

/-- The entry at the end of a chain below a start directory; `base` are the ignore files from outside. -/
def entryAt (isIgn : Str → Bool) (start : Start) (base : List Str) (kids : List FNode) (p : List FNode) : EntInfo :=
  { start := start, relpath := pathOf (p.map FNode.name), isDir := (p.getLast?.map FNode.isDir).getD false,
    ignorePaths := base ++ ignoresOn isIgn start.absroot [] kids p }

/-- Properties of all nodes of a tree: names are file names, and no two names of a directory are equal. -/
inductive GoodTree : List FNode → Prop
  | mk {kids : List FNode} : (∀ n ∈ kids, IsFileName n.name) → (kids.map FNode.name).Nodup → (∀ n ∈ kids, GoodTree n.kids) → GoodTree kids

/-- The entry is selected: it matches, and neither it nor any directory on the way is excluded. -/
def Selected (cfg : WalkCfg) (start : Start) (base : List Str) (kids : List FNode) (i : EntInfo) : Prop :=
  ∃ p, Chain kids p ∧ i = entryAt cfg.isIgnoreFile start base kids p ∧ cfg.keep i = true ∧
    ∀ q, q ≠ [] → q <+: p → cfg.excl (entryAt cfg.isIgnoreFile start base kids q) = false

/-- `Selected` with a further condition on all entries on the way. -/
def SelectedBut (cfg : WalkCfg) (start : Start) (base : List Str) (kids : List FNode) (i : EntInfo) (P : EntInfo → Prop) : Prop :=
  ∃ p, Chain kids p ∧ i = entryAt cfg.isIgnoreFile start base kids p ∧ cfg.keep i = true ∧
    ∀ q, q ≠ [] → q <+: p → cfg.excl (entryAt cfg.isIgnoreFile start base kids q) = false ∧ ¬ P (entryAt cfg.isIgnoreFile start base kids q)

end FF.Spec
