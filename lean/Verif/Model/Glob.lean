import Verif.Model.Re
import Verif.Model.Path
import Verif.Model.PyInt
/-! Model of /repo/libff/ignore.py and of the ignore plugin /repo/libff/builtin/ignore.py. -/
namespace FF

/-- Length of the separator ignore.py:92 that matches at the beginning of `s`, 0 if none:
`/\*\*/|\*\*/|/\*\*|\*|\?|\[![^\]]+\]|\[[^\]]+\]`. The last two alternatives always match the same text. -/
def sepLen : Str → Nat
  | '/' :: '*' :: '*' :: '/' :: _ => 4
  | '*' :: '*' :: '/' :: _ => 3
  | '/' :: '*' :: '*' :: _ => 3
  | '*' :: _ => 1
  | '?' :: _ => 1
  | '[' :: rest => if rest.takeWhile (· ≠ ']') ≠ [] ∧ rest.dropWhile (· ≠ ']') ≠ [] then (rest.takeWhile (· ≠ ']')).length + 2 else 0
  | _ => 0

/-- ignore.py:92 `re.split` with one group: literal text and separators alternate. `cur` is the literal text so far, the number counts
characters of a separator still to be skipped. -/
def globSplit (cur : Str) : Nat → Str → List Str
  | _, [] => [cur]
  | n + 1, _ :: cs => globSplit cur n cs
  | 0, c :: cs => match sepLen (c :: cs) with
    | 0 => globSplit (cur ++ [c]) 0 cs
    | k + 1 => cur :: (c :: cs).take (k + 1) :: globSplit [] k cs

/-- Content of a character class as CPython's `re` reads it (library semantics): single characters and ranges; `none` for a reversed range
(re.error) and for content with a backslash or a closing bracket, which is not modelled. -/
def parseClass : Str → Option (List (Char × Char))
  | [] => some []
  | a :: '-' :: b :: rest =>
    if a = ']' ∨ a = '\\' ∨ b = ']' ∨ b = '\\' ∨ b < a then none else (parseClass rest).map (fun l => (a, b) :: l)
  | a :: rest => if a = ']' ∨ a = '\\' then none else (parseClass rest).map (fun l => (a, a) :: l)

/-- Membership in a class. -/
def inClass (l : List (Char × Char)) (c : Char) : Bool := l.any (fun r => r.1 ≤ c && c ≤ r.2)

/-- `[content]` in a regular expression: a leading `^` negates. An empty class is a syntax error or swallows what follows: not modelled. -/
def classRe (content : Str) : Option Re :=
  match content with
  | [] => none
  | '^' :: [] => none
  | '^' :: content => (parseClass content).map (fun l => .chr (fun c => !inClass l c))
  | content => (parseClass content).map (fun l => .chr (inClass l))

/-- ignore.py:93-108: regular expression of one part; a part of literal text that begins with `[` is treated like a class, too. -/
def partRe (part : Str) : Option Re :=
  if part = ['/', '*', '*', '/'] then some (.alt (.lit '/') (.seq (.lit '/') (.seq (.plus true Re.dot) (.lit '/'))))
  else if part = ['*', '*', '/'] then some (.opt (.seq (.plus true Re.dot) (.lit '/')))
  else if part = ['/', '*', '*'] then some (.opt (.seq (.lit '/') (.plus true Re.dot)))
  else if part = ['*'] then some (.star true (· ≠ '/'))
  else if part = ['?'] then some (.chr (· ≠ '/'))
  else if startsWith part ['[', '!'] then classRe ('^' :: (part.drop 2).dropLast)
  else if startsWith part ['['] then classRe (part.drop 1).dropLast
  else some (.str part)

/-- Concatenation of the parts. -/
def partsRe : List Str → Option Re
  | [] => some .eps
  | p :: ps => match partRe p, partsRe ps with
    | some r, some rs => some (.seq r rs)
    | _, _ => none

/-- `s.lstrip(c)` for a one-character `c`. -/
def lstripChar (c : Char) (s : Str) : Str := s.dropWhile (· = c)

/-- Position of the first `c`. -/
def findChar (c : Char) : Str → Option Nat
  | [] => none
  | x :: xs => if x = c then some 0 else (findChar c xs).map (· + 1)

/-- The outcome of ignore.py:51-111: the regular expression without `^` and `$` (`none`: not compilable or not modelled), and the flags. -/
structure Glob where
  body : Option Re
  incl : Bool
  anchored : Bool
  directory : Bool

/-- ignore.py:59-64, after a leading `\#` has lost its backslash (56-57). -/
def globNegated (pattern : Str) : Bool × Str :=
  let pattern := if startsWith pattern ['\\', '#'] then pattern.drop 1 else pattern
  if startsWith pattern ['!'] then (true, pattern.drop 1) else (false, pattern)

/-- ignore.py:71-81: anchoring and the pattern without leading slashes. -/
def globAnchored (pathPattern : Bool) (pattern : Str) : Bool × Str :=
  if pathPattern then
    match findChar '/' pattern with
    | some i => if i + 1 < pattern.length then (true, lstripChar '/' pattern) else (false, pattern)
    | none => (false, pattern)
  else (false, pattern)

/-- ignore.py:84-88: directory marker. -/
def globDirectory (pattern : Str) : Bool × Str :=
  if pattern.getLast? = some '/' then (true, pattern.dropLast) else (false, pattern)

/-- ignore.py:51-111 `Glob.translate`. -/
def translate (pattern : Str) (pathPattern : Bool) : Glob :=
  let (neg, pattern) := globNegated pattern
  let pattern := if startsWith pattern ['\\', '!'] then pattern.drop 1 else pattern
  let (anchored, pattern) := globAnchored pathPattern pattern
  let (directory, pattern) := globDirectory pattern
  { body := partsRe (globSplit [] 0 pattern), incl := !neg, anchored := anchored, directory := directory }

/-- `re.match("^body$", s)`. -/
def bodyMatch (body : Re) (s : Str) : Bool := ((Re.seq body .eol).match' s).isSome

/-- ignore.py:113-133 `Glob.match` with basename and is_dir given; `none` if the pattern does not compile (or is not modelled). -/
def Glob.match' (g : Glob) (path basename : Str) (isDir : Bool) : Option Bool :=
  match g.body with
  | none => none
  | some body =>
    let path := lstripChar '/' path
    some (bodyMatch body (if g.anchored then path else basename) && (!g.directory || isDir))

/-- ignore.py:135-139. -/
def Glob.key (g : Glob) : Bool × Bool × Bool := (g.incl, g.anchored, g.directory)

/-- ignore.py:182-187: the patterns of the lines of an ignore file. -/
def ignorePatterns (lines : List Str) : List Glob :=
  (lines.map strip).filterMap (fun p => if p = [] ∨ startsWith p ['#'] = true then none else some (translate p true))

/-- A group of patterns with the same key, and the alternatives of its regular expression. -/
abbrev Group := (Bool × Bool × Bool) × List Re

/-- ignore.py:188-193: `key` is that of the last group of `groups` if any; `none` if a regular expression does not compile. -/
def groupPatterns : List Group → List Glob → Option (List Group)
  | groups, [] => some groups
  | groups, g :: gs =>
    match g.body with
    | none => none
    | some body =>
      match groups.getLast? with
      | some (key, bodies) =>
        if g.key ≠ key then groupPatterns (groups ++ [(g.key, [body])]) gs
        else groupPatterns (groups.dropLast ++ [(key, bodies ++ [body])]) gs
      | none => groupPatterns [(g.key, [body])] gs

/-- A `GitIgnore` object. -/
structure IgnoreFile where
  dirname : Str
  path : Str
  groups : List Group

/-- ignore.py:164-197 `GitIgnore.__init__`, given the lines of the file. The regular expressions of a group are joined with `|`. -/
def mkIgnoreFile (dirname name : Str) (lines : List Str) : Option IgnoreFile :=
  let dirname := if dirname = [] then ['/'] else dirname
  (groupPatterns [] (ignorePatterns lines)).map (fun gs => { dirname := dirname, path := pathJoin dirname name, groups := gs })

/-- The joined regular expression of a group (ignore.py:196), each alternative being `^...$`. -/
def groupRe (bodies : List Re) : Re := .alts (bodies.map (fun b => .seq b .eol))

/-- ignore.py:212-218, the inner loop; the state is (exclude, ignore_path). -/
def matchGroups (f : Str) (relpath name : Str) (isDir : Bool) : Bool × Option Str → List Group → Bool × Option Str
  | st, [] => st
  | st, ((incl, anchored, directory), bodies) :: gs =>
    if directory && !isDir then matchGroups f relpath name isDir st gs
    else if ((groupRe bodies).match' (if anchored then relpath else name)).isSome then matchGroups f relpath name isDir (incl, some f) gs
    else matchGroups f relpath name isDir st gs

/-- ignore.py:209-218, the outer loop. -/
def matchIgnores (path name : Str) (isDir : Bool) : Bool × Option Str → List IgnoreFile → Bool × Option Str
  | st, [] => st
  | st, i :: is => matchIgnores path name isDir (matchGroups i.path (lstripChar '/' (path.drop i.dirname.length)) name isDir st i.groups) is

/-- ignore.py:199-220 `GitIgnore.match`. -/
def gitIgnoreMatch (ignores : List IgnoreFile) (path name : Str) (isDir : Bool) : Bool × Option Str :=
  let st := matchIgnores path name isDir (false, none) ignores
  (st.1, if st.1 then st.2 else none)

/-- What reading an ignore file gives: an OSError (`none`) or its lines. -/
abbrev ReadFile := Str → Option (List Str)

/-- builtin/ignore.py:47-73 `get_ignores`: files that cannot be read are skipped; an uncompilable pattern is an exception that ends the process
(`none`). The two caches are not modelled: the files are assumed not to change during the search. -/
def getIgnores (read : ReadFile) : List Str → Option (List IgnoreFile)
  | [] => some []
  | p :: ps =>
    match read p with
    | none => getIgnores read ps
    | some lines =>
      match mkIgnoreFile (pathSplit p).1 (pathSplit p).2 lines, getIgnores read ps with
      | some i, some is => some (i :: is)
      | _, _ => none

/-- builtin/ignore.py:75-82 `is_ignored`. -/
def isIgnored (read : ReadFile) (ignorePaths : List Str) (abspath name : Str) (isDir : Bool) : Option (Bool × Option Str) :=
  if ignorePaths = [] then some (false, none)
  else (getIgnores read ignorePaths).map (fun is => gitIgnoreMatch is abspath name isDir)

/-- CPython `os.path.dirname` (posixpath.py): everything before the last slash without trailing slashes unless it consists of slashes. -/
def dirname (path : Str) : Str :=
  let head := sliceTo path (rfind path '/' + 1)
  if head.all (· = '/') then head else rstripChar '/' head

/-- CPython `os.path.abspath` for paths without `.`, `..` and empty components. -/
def abspath (cwd path : Str) : Str := if startsWith path ['/'] then path else pathJoin cwd path

/-- ignore.py:155-161, the loop over the components of the directory name. -/
def parentLoop (exist : Str → Bool) (ignoreFiles : List Str) : Str → List Str → List Str
  | _, [] => []
  | parent, part :: parts =>
    let parent := pathJoin parent part
    ((ignoreFiles.map (pathJoin parent)).filter exist) ++ parentLoop exist ignoreFiles parent parts

/-- ignore.py:149-162 `from_parent_directories`. The set of names is enumerated in some order. -/
def fromParentDirectories (cwd : Str) (exist : Str → Bool) (ignoreFiles : List Str) (path : Str) : List Str :=
  parentLoop exist ignoreFiles ['/'] (splitOn '/' (dirname (abspath cwd path)))

/-- main.py:158-167: ignore files of the parents of a start directory with -I. -/
def startIgnores (cwd : Str) (exist : Str → Bool) (ignoreFiles : List Str) (path : Str) : List Str :=
  fromParentDirectories cwd exist ignoreFiles (dirname path)

end FF
