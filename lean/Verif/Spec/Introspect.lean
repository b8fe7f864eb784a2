import Verif.Model.Introspect
/-! What the first line of a script says, and what Python's import statements import. -/
namespace FF.Spec

/-- Blanks, tabs, line ends and the separators of ASCII. -/
def White (c : Char) : Prop := c = ' ' ∨ (9 ≤ c.toNat ∧ c.toNat ≤ 13) ∨ (28 ≤ c.toNat ∧ c.toNat ≤ 31)

/-- `v` is the line without the white space at its end. -/
def Trimmed (line v : Str) : Prop := ∃ w, line = v ++ w ∧ (∀ c ∈ w, White c) ∧ ∀ u c, v = u ++ [c] → ¬ White c

/-- The line at the beginning of the text `s`. -/
def FirstLine (s line : Str) : Prop := '\n' ∉ line ∧ (s = line ∨ ∃ r, s = line ++ '\n' :: r)

/-- The text begins with `#!` and `v` is the rest of its first line, which is ASCII. -/
def ShebangLine (content v : Str) : Prop := ∃ line, FirstLine content ('#' :: '!' :: line) ∧ (∀ c ∈ line, c.toNat < 128) ∧ Trimmed line v

/-- The same for the first of all lines that begin with `#!`. -/
inductive SomeShebang : Str → Str → Prop
  | here {s v} : ShebangLine s v → SomeShebang s v
  | later {l s v} : '\n' ∉ l → (∀ t, l ≠ '#' :: '!' :: t) → SomeShebang s v → SomeShebang (l ++ '\n' :: s) v

/-- The module a statement in a file of the directory with the given names (the outermost one first) imports. One dot stands for the package the file is in,
each further dot for the package around it. The name of a package is the name of its directory. -/
inductive Imports (dir : List Str) : ImportStmt → Str → Prop
  | plain {first others m} : m ∈ first :: others → Imports dir (.plain first others) m
  | absolute {m names} : Imports dir (.relative 0 (some m) names) m
  | member {up p down m names} : dir = up ++ p :: down → Imports dir (.relative (down.length + 1) (some m) names) (p ++ '.' :: m)
  | package {up p down names} : dir = up ++ p :: down → Imports dir (.relative (down.length + 1) none names) p

end FF.Spec
