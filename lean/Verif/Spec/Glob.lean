import Verif.Model.PyStr
import Verif.Spec.Entry
/-! Patterns as documented in gitignore(5), independently of regular expressions. -/
namespace FF.Spec

/-- One element of a path component of a pattern. -/
inductive Item
  | lit (c : Char)
  | any
  | star
  | cls (neg : Bool) (ranges : List (Char × Char))
  /-- a negated class written with `^` instead of `!` -/
  | hat (ranges : List (Char × Char))
  deriving DecidableEq

/-- Wildcard matching within one path component. -/
inductive Wild : List Item → Str → Prop
  | nil : Wild [] []
  | lit {is s} (c : Char) : Wild is s → Wild (.lit c :: is) (c :: s)
  | any {is s} (c : Char) : c ≠ '/' → Wild is s → Wild (.any :: is) (c :: s)
  | skip {is s} : Wild is s → Wild (.star :: is) s
  | eat {is s} (c : Char) : c ≠ '/' → Wild (.star :: is) s → Wild (.star :: is) (c :: s)
  | cls {is s} (neg : Bool) (l : List (Char × Char)) (c : Char) : c ≠ '/' → (neg = true ↔ ¬ ∃ r ∈ l, r.1 ≤ c ∧ c ≤ r.2) → Wild is s →
      Wild (.cls neg l :: is) (c :: s)
  | hat {is s} (l : List (Char × Char)) (c : Char) : c ≠ '/' → (¬ ∃ r ∈ l, r.1 ≤ c ∧ c ≤ r.2) → Wild is s → Wild (.hat l :: is) (c :: s)

/-- A path component of a pattern: `**` or something with wildcards. -/
inductive Comp
  | deep
  | wild (items : List Item)
  deriving DecidableEq

/-- Matching of pattern components against the names of a relative path: `**` stands for zero or more directories, at the end for everything inside. -/
inductive Comps : List Comp → List Str → Prop
  | nil : Comps [] []
  | wild {cs ns} (items : List Item) (n : Str) : Wild items n → Comps cs ns → Comps (.wild items :: cs) (n :: ns)
  | deepNone {cs ns} : cs ≠ [] → Comps cs ns → Comps (.deep :: cs) ns
  | deepSome {cs ns} (n : Str) : cs ≠ [] → Comps (.deep :: cs) ns → Comps (.deep :: cs) (n :: ns)
  | inside {n ns} : Comps [.deep] (n :: ns)

/-- Characters that stand for themselves. -/
def plainChar (c : Char) : Prop := c ∉ ['*', '?', '[', '\\', '/']
/-- Characters allowed here within `[...]`. -/
def classChar (c : Char) : Prop := c ∉ [']', '\\', '/']
/-- What is allowed within `[...]`: characters and ranges, a hyphen for itself at the beginning or at the end only. -/
def Ranges (l : List (Char × Char)) : Prop :=
  l ≠ [] ∧ (∀ r ∈ l, classChar r.1 ∧ classChar r.2 ∧ r.1 ≤ r.2) ∧
  ∀ a r b, l = a ++ r :: b → (r.1 = '-' ∨ r.2 = '-') → r = ('-', '-') ∧ (a = [] ∨ b = [])

def classText : List (Char × Char) → Str
  | [] => []
  | (a, b) :: l => (if a = b then [a] else [a, '-', b]) ++ classText l

def Item.text : Item → Str
  | .lit c => [c]
  | .any => ['?']
  | .star => ['*']
  | .cls neg l => (if neg then ['[', '!'] else ['[']) ++ classText l ++ [']']
  | .hat l => ['[', '^'] ++ classText l ++ [']']

def Item.Ok : Item → Prop
  | .lit c => plainChar c
  | .cls neg l => Ranges l ∧ (neg = false → ∀ c ∈ (classText l).head?, c ≠ '!' ∧ c ≠ '^')
  | .hat l => Ranges l
  | _ => True

/-- The item never matches a slash. (gitignore(5): a class does not match a slash. ff does not ensure this.) -/
def Item.noSlash : Item → Prop
  | .cls neg l => (neg = true ↔ ∃ r ∈ l, r.1 ≤ '/' ∧ '/' ≤ r.2)
  | .hat l => ∃ r ∈ l, r.1 ≤ '/' ∧ '/' ≤ r.2
  | _ => True

/-- No two asterisks in a row. -/
def noDouble : List Item → Prop
  | .star :: .star :: _ => False
  | _ :: is => noDouble is
  | [] => True

def itemsText (is : List Item) : Str := is.flatMap Item.text

def Comp.text : Comp → Str
  | .deep => ['*', '*']
  | .wild is => itemsText is

def Comp.Ok : Comp → Prop
  | .deep => True
  | .wild is => is ≠ [] ∧ (∀ i ∈ is, i.Ok) ∧ noDouble is

def Comp.noSlash : Comp → Prop
  | .deep => True
  | .wild is => ∀ i ∈ is, i.noSlash

/-- A whole pattern: negated, with a leading slash, its components, with a trailing slash. -/
structure Pat where
  neg : Bool
  lead : Bool
  comps : List Comp
  dirOnly : Bool

/-- The text without the negation marker. -/
def Pat.core (p : Pat) : Str := (if p.lead then ['/'] else []) ++ pathOf (p.comps.map Comp.text) ++ (if p.dirOnly then ['/'] else [])

/-- How the pattern is written in an ignore file: a literal exclamation mark at the beginning is escaped. -/
def Pat.text (p : Pat) : Str := (if p.neg then ['!'] else []) ++ (if p.core.head? = some '!' then ['\\'] else []) ++ p.core

/-- Whether the pattern applies to an entry, given by the names of its path relative to the ignore file. A pattern with a slash at the
beginning or in the middle is matched against the path, any other one against the last name; a trailing slash demands a directory. -/
def Pat.Applies (p : Pat) (ns : List Str) (isDir : Bool) : Prop :=
  (p.dirOnly = true → isDir = true) ∧
  if p.lead = true ∨ 1 < p.comps.length then Comps p.comps ns else ∃ n, ns.getLast? = some n ∧ Comps p.comps [n]

end FF.Spec
