import Verif.Model.PyInt
import Verif.Model.PySort
import Verif.Model.Entry
import Verif.Model.Grep
/-!
Model of /repo/plugins/introspect.py: the plugins shebang and py.
Bytes are characters below 256. `ast.parse` is a parameter: the import statements of a file.
-/
namespace FF

/-- White space of `str.rstrip()` among the ASCII characters: CPython also takes the four separators 0x1c to 0x1f for white space. -/
def isAsciiSpace (c : Char) : Bool := isSpace c || (28 ≤ c.toNat && c.toNat ≤ 31)

/-- `s.rstrip()` for a text of ASCII characters. -/
def rstripSpace (s : Str) : Str := (s.reverse.dropWhile isAsciiSpace).reverse

/-- `b.decode("ascii")`, `none` is UnicodeDecodeError. -/
def decodeAscii (s : Str) : Option Str := if s.all (fun c => c.toNat < 128) then some s else none

/-- The loop of introspect.py:98-100 over the lines of a file. -/
def shebangLoop : List Str → Option Str
  | [] => none
  | line :: lines => if startsWith line ['#', '!'] then (decodeAscii (line.drop 2)).map rstripSpace else shebangLoop lines

/-- introspect.py:91-104 `extract_shebang`; `content` is `none` if the file cannot be read. Iterating over a binary file gives the parts that end in `\n`. -/
def extractShebang (content : Option Str) : Option Str :=
  match content with
  | none => none
  | some s => shebangLoop (readlines s)

/-- introspect.py:106-112 `can_handle` and `process` of Shebang: the attribute `shebang`. -/
def shebangProcess (isFile : Bool) (content : Option Str) : Option Str := if isFile then extractShebang content else none

/-- `p in s` for strings. -/
def hasSub (p : Str) : Str → Bool
  | [] => p.isEmpty
  | c :: s => startsWith (c :: s) p || hasSub p s

/-- An import statement as `ast` gives it, without the names of `as`. -/
inductive ImportStmt where
  /-- `import a.b, c` -/
  | plain (first : Str) (others : List Str)
  /-- `from ..m import x, y`: the number of dots, `m` if there is one, and the names. -/
  | relative (level : Nat) (modname : Option Str) (names : List Str)
  deriving DecidableEq, Repr

/-- CPython `posixpath.split`. -/
def osPathSplit (p : Str) : Str × Str :=
  let i := rfind p '/' + 1
  let head := sliceTo p i
  if head ≠ [] ∧ ¬ head.all (· = '/') then (rstripChar '/' head, sliceFrom p i) else (head, sliceFrom p i)

/-- introspect.py:135-138: the loop over the dots of a relative import. -/
def relativeParts : Nat → Str → List Str → List Str
  | 0, _, parts => parts
  | n + 1, dirname, parts => relativeParts n (osPathSplit dirname).1 ((osPathSplit dirname).2 :: parts)

/-- introspect.py:131-144: what a statement yields. -/
def stmtImports (dir : Str) : ImportStmt → List Str
  | .relative level (some m) _ => if level > 0 then [joinWith '.' (relativeParts level dir [m])] else [m]
  | .relative _ none _ => []
  | .plain first _ => [first]

/-- introspect.py:124-144, 152-156 `parse_imports` and `process`: the attribute `imports`; `stmts` is `none` if the file cannot be read or is not Python. -/
def pyImports (dir : Str) (stmts : Option (List ImportStmt)) : Option (List Str) :=
  stmts.map (fun l => pySort strLe (l.flatMap (stmtImports dir)))

/-- introspect.py:146-150 `can_handle` of Py; `lower` is `str.lower`. -/
def pyCanHandle (lower : Str → Str) (e : Entry) (content : Option Str) : Bool :=
  if lower e.ext = ['p', 'y'] then true
  else match extractShebang content with
    | none => false
    | some s => hasSub ['p', 'y', 't', 'h', 'o', 'n'] s

end FF
