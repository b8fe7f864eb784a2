/-!
Python string primitives used throughout ff, on `List Char`.
(CPython builtins, not code of /repo; `os.sep` is '/'.)
-/
namespace FF

-- Equality of results (for checking concrete examples).
deriving instance DecidableEq for Except

/-- Python `str` without surrogates. -/
abbrev Str := List Char

/-- `s.rfind(c)` for a one-character `c`, -1 if absent. -/
def rfind : Str → Char → Int
  | [], _ => -1
  | x :: xs, c => if rfind xs c ≥ 0 then rfind xs c + 1 else if x = c then 0 else -1

/-- `s[:i]` for `i ≥ 0`. -/
def sliceTo (s : Str) (i : Int) : Str := s.take i.toNat

/-- `s[i:]` for `i ≥ 0`. -/
def sliceFrom (s : Str) (i : Int) : Str := s.drop i.toNat

/-- `s.split(c)` for a one-character `c`; never empty. -/
def splitOn (c : Char) : Str → List Str
  | [] => [[]]
  | x :: xs =>
    if x = c then [] :: splitOn c xs
    else match splitOn c xs with
      | [] => [[x]]
      | w :: ws => (x :: w) :: ws

/-- `s.startswith(p)`. -/
def startsWith (s p : Str) : Bool := p.isPrefixOf s

/-- `c.join(parts)` for a one-character `c`. -/
def joinWith (c : Char) : List Str → Str
  | [] => []
  | [w] => w
  | w :: ws => w ++ c :: joinWith c ws

/-- `s.rstrip(c)` for a one-character `c`. -/
def rstripChar (c : Char) (s : Str) : Str := (s.reverse.dropWhile (· = c)).reverse

end FF
