import Verif.Model.Glob
import Verif.Spec.Walk
/-! What ignore files mean, independently of how they are evaluated. -/
namespace FF.Spec

/-- An ignore file: its directory, its name, and its lines if it can be read. -/
structure IgnSrc where
  dir : Str
  name : Str
  lines : Option (List Str)

def IgnSrc.path (f : IgnSrc) : Str := absOf f.dir [f.name]

def IgnSrc.Ok (f : IgnSrc) : Prop := f.dir ≠ [] ∧ IsFileName f.name

/-- The patterns in a file: the lines without surrounding blanks that are neither empty nor comments. -/
def patternsOf (lines : List Str) : List Str := (lines.map strip).filter (fun p => p ≠ [] ∧ p.head? ≠ some '#')

/-- All patterns of a sequence of files, in order. -/
def allPatterns (files : List IgnSrc) : List (IgnSrc × Str) := files.flatMap (fun f => (patternsOf (f.lines.getD [])).map (fun p => (f, p)))

/-- `path` lies below `dir`, at these names. -/
def Below (dir : Str) (names : List Str) (path : Str) : Prop := names ≠ [] ∧ (∀ n ∈ names, IsFileName n) ∧ path = absOf dir names

/-- A pattern applies to the entry at `path`: it matches the entry's name or its path relative to the directory of the ignore file. -/
def Applies (path : Str) (isDir : Bool) (fp : IgnSrc × Str) : Prop :=
  ∃ names name, Below fp.1.dir names path ∧ names.getLast? = some name ∧ (translate fp.2 true).match' (pathOf names) name isDir = some true

/-- The result of the last pattern that applies. -/
def verdict (fp : IgnSrc × Str) : Bool × Option Str := if fp.2.head? = some '!' then (false, none) else (true, some fp.1.path)

/-- The last pattern that applies decides. -/
def LastDecides (files : List IgnSrc) (path : Str) (isDir : Bool) (result : Bool × Option Str) : Prop :=
  ((∀ fp ∈ allPatterns files, ¬ Applies path isDir fp) ∧ result = (false, none)) ∨
  ∃ a fp b, allPatterns files = a ++ fp :: b ∧ Applies path isDir fp ∧ (∀ x ∈ b, ¬ Applies path isDir x) ∧ result = verdict fp

/-- The absolute path of a directory. -/
def absDir (absroot : Str) (names : List Str) : Str := if names = [] then absroot else absOf absroot names

/-- The listing of the directory at the end of a way down. -/
def listing (kids : List FNode) (p : List FNode) : List FNode := (p.getLast?.map FNode.kids).getD kids

/-- Names and kinds along a way down. -/
def labels (p : List FNode) : List (Str × Bool) := p.map (fun n => (n.name, n.isDir))

/-- Two listings of the same tree, maybe in different orders: the same names and kinds are found. -/
def SameTree (kids kids' : List FNode) : Prop := ∀ l, (∃ p, Chain kids p ∧ labels p = l) ↔ (∃ p, Chain kids' p ∧ labels p = l)

/-- No directory of the tree has more than one ignore file. -/
def OneIgnore (isIgn : Str → Bool) (kids : List FNode) : Prop :=
  ((kids.map FNode.name).filter isIgn).length ≤ 1 ∧ ∀ p n, Chain kids (p ++ [n]) → n.isDir = true → ((n.kids.map FNode.name).filter isIgn).length ≤ 1

end FF.Spec
