import Verif.Spec.ArgParse
/-! What numbers, ranges, slices and directory arguments on the command line mean. -/
namespace FF.Spec

/-- The decimal digits. -/
def digits : List (Char × Nat) := [('0', 0), ('1', 1), ('2', 2), ('3', 3), ('4', 4), ('5', 5), ('6', 6), ('7', 7), ('8', 8), ('9', 9)]

/-- Decimal numerals. -/
inductive Numeral : Str → Nat → Prop
  | digit {c d} : (c, d) ∈ digits → Numeral [c] d
  | snoc {w n c d} : Numeral w n → (c, d) ∈ digits → Numeral (w ++ [c]) (10 * n + d)

/-- The documented forms of a depth range: `N`, `A-B` (bounds in any order), `A-`, `-B`, `-`; lower and upper bound, both inclusive. -/
inductive RangeText : Str → Int × Option Int → Prop
  | single {w n} : Numeral w n → RangeText w ((n : Int), some (n : Int))
  | both {a m b n} : Numeral a m → Numeral b n → RangeText (a ++ '-' :: b) ((min m n : Nat), some ((max m n : Nat) : Int))
  | from {a m} : Numeral a m → RangeText (a ++ ['-']) ((m : Int), none)
  | upto {b n} : Numeral b n → RangeText ('-' :: b) (0, some (n : Int))
  | all : RangeText ['-'] (0, none)

/-- A position in a slice, from the beginning or from the end. -/
inductive Position : Str → Int → Prop
  | pos {w n} : Numeral w n → Position w n
  | neg {w n} : Numeral w n → Position ('-' :: w) (-(n : Int))

/-- The documented forms of a slice: `START:STOP`, each of which may be omitted, and `PAGESIZE,PAGE`. -/
inductive SliceText : Str → Int × Option Int → Prop
  | both {a m b n} : Position a m → Position b n → SliceText (a ++ ':' :: b) (m, some n)
  | from {a m} : Position a m → SliceText (a ++ [':']) (m, none)
  | upto {b n} : Position b n → SliceText (':' :: b) (0, some n)
  | all : SliceText [':'] (0, none)
  | page {a m b n} : Numeral a m → Numeral b n → SliceText (a ++ ',' :: b) ((m * n : Nat), some ((m * (n + 1) : Nat) : Int))

/-- A depth lies in a range. -/
def InRange (d : Int) (r : Int × Option Int) : Prop := r.1 ≤ d ∧ ∀ stop, r.2 = some stop → d ≤ stop

/-- One component of a path followed from a directory given by its components. -/
def follow (dir : List Str) (c : Str) : List Str :=
  if c = [] ∨ c = ['.'] then dir else if c = ['.', '.'] then dir.dropLast else dir ++ [c]

/-- The directory a path leads to, following its components from the root or from the current directory. -/
def target (cwd path : Str) : List Str :=
  match path with
  | '/' :: _ => (splitOn '/' path).foldl follow []
  | _ => (splitOn '/' path).foldl follow ((splitOn '/' cwd).foldl follow [])

/-- The path starts with exactly two slashes, which POSIX treats specially. -/
def TwoSlashes (path : Str) : Prop := ∃ r, path = '/' :: '/' :: r ∧ ∀ r', r ≠ '/' :: r'

/-- Elementwise relation of two lists. -/
inductive All2 {α β : Type} (R : α → β → Prop) : List α → List β → Prop
  | nil : All2 R [] []
  | cons {a b as bs} : R a b → All2 R as bs → All2 R (a :: as) (b :: bs)

end FF.Spec
