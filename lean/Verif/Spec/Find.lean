import Verif.Model.PyStr
/-! Words as in the shell. -/
namespace FF.Spec

/-- White space between words. -/
def blanks : List Char := [' ', '\t', '\r', '\n']

/-- Text between double quotes and what it stands for: a backslash escapes double quotes and backslashes, and stands for itself before everything else. -/
inductive InQuotes : Str → Str → Prop
  | nil : InQuotes [] []
  | char {c s v} : c ≠ '"' → c ≠ '\\' → InQuotes s v → InQuotes (c :: s) (c :: v)
  | escaped {c s v} : c = '"' ∨ c = '\\' → InQuotes s v → InQuotes ('\\' :: c :: s) (c :: v)
  | backslash {c s v} : c ≠ '"' → c ≠ '\\' → InQuotes s v → InQuotes ('\\' :: c :: s) ('\\' :: c :: v)

/-- WordPieces of words and what they stand for. -/
inductive Piece : Str → Str → Prop
  | plain {c} : c ∉ blanks → c ≠ '\'' → c ≠ '"' → c ≠ '\\' → Piece [c] [c]
  | escaped {c} : Piece ['\\', c] [c]
  | single {s} : '\'' ∉ s → Piece ('\'' :: s ++ ['\'']) s
  | double {s v} : InQuotes s v → Piece ('"' :: s ++ ['"']) v

/-- Words: one or more pieces. -/
inductive ShellWord : Str → Str → Prop
  | piece {s v} : Piece s v → ShellWord s v
  | cons {s v t w} : Piece s v → ShellWord t w → ShellWord (s ++ t) (v ++ w)

/-- Words separated by white space. -/
inductive ShellWords : Str → List Str → Prop
  | nil : ShellWords [] []
  | blank {c s vs} : c ∈ blanks → ShellWords s vs → ShellWords (c :: s) vs
  | last {w v} : ShellWord w v → ShellWords w [v]
  | word {w v c s vs} : ShellWord w v → c ∈ blanks → ShellWords s vs → ShellWords (w ++ c :: s) (v :: vs)

end FF.Spec
