import Verif.Model.Arguments
import Verif.Model.PyInt
import Verif.Model.Glob
/-! Model of /repo/plugins/git.py. -/
namespace FF

/-- CPython `str.splitlines`: the characters at which lines end. -/
def isLineBreak (c : Char) : Bool :=
  c = '\n' || c = '\r' || c = '\x0b' || c = '\x0c' || c = '\x1c' || c = '\x1d' || c = '\x1e' || c = '\u0085' || c = '\u2028' || c = '\u2029'

/-- CPython `str.splitlines()`; the first argument is the current line in reverse. -/
def splitlinesLoop (cur : Str) : Str → List Str
  | [] => if cur = [] then [] else [cur.reverse]
  | '\r' :: '\n' :: s => cur.reverse :: splitlinesLoop [] s
  | c :: s => if isLineBreak c then cur.reverse :: splitlinesLoop [] s else splitlinesLoop (c :: cur) s

/-- CPython `str.splitlines()`. -/
def splitlines (s : Str) : List Str := splitlinesLoop [] s

/-- CPython `a, b = s.split(None, 1)`; `none` is the ValueError if there are not two words. Simplified: ASCII whitespace. -/
def splitWord (s : Str) : Option (Str × Str) :=
  let s := s.dropWhile isSpace
  let rest := (s.dropWhile (fun c => !isSpace c)).dropWhile isSpace
  if s.takeWhile (fun c => !isSpace c) = [] ∨ rest = [] then none else some (s.takeWhile (fun c => !isSpace c), rest)

/-- What the plugin asks for: `os.path.isdir`, and the output of `git -C dirname ls-files` and `git -C dirname status --porcelain`. -/
structure GitWorld where
  isdir : Str → Bool
  lsFiles : Str → Str
  status : Str → Str

/-- plugins/git.py:26-37 `Filelist`, a set of paths as a list. -/
def gitFilelist (w : GitWorld) (dir : Str) : List Str := (splitlines (w.lsFiles dir)).map (osJoin dir)

/-- plugins/git.py:49-53: one line of the status. -/
def gitStatusLine (dir line : Str) : Option (List Str) :=
  (splitWord line).map (fun r => if r.1 = ['?', '?'] then [] else [osJoin dir r.2])

/-- plugins/git.py:40-53 `Status`, a set of paths as a list; `none` is the ValueError of a line that cannot be unpacked. -/
def gitStatus (w : GitWorld) (dir : Str) : Option (List Str) := ((splitlines (w.status dir)).mapM (gitStatusLine dir)).map List.flatten

/-- What is known about the repository of a directory: its base directory, the tracked and the changed files; `none` if there is no repository. -/
abbrev GitRepo := Option (Str × List Str × List Str)

/-- plugins/git.py:80-94 `find_repo`; the first argument bounds the recursion (`none` is the RecursionError, or an exception of `Status`).
The dictionary is a list of pairs. -/
def findRepo (w : GitWorld) : Nat → List (Str × GitRepo) → Str → Option (GitRepo × List (Str × GitRepo))
  | 0, _, _ => none
  | n + 1, cache, dir =>
    match cache.lookup dir with
    | some r => some (r, cache)
    | none =>
      if w.isdir (osJoin dir ".git".toList) then
        (gitStatus w dir).map (fun st => (some (dir, gitFilelist w dir, st), (dir, some (dir, gitFilelist w dir, st)) :: cache))
      else if dir = ['/'] then some (none, (dir, none) :: cache)
      else (findRepo w n cache (dirname dir)).map (fun r => (r.1, (dir, r.1) :: r.2))

/-- The attributes of the plugin. -/
structure GitData where
  repoDir : Str
  repo : Bool
  tracked : Bool
  dirty : Bool
deriving DecidableEq, Repr

/-- plugins/git.py:110-115: membership of an entry in a set of paths. -/
def gitIn (abspath : Str) (isDir : Bool) (paths : List Str) : Bool :=
  if isDir then paths.any (fun p => startsWith p (abspath ++ ['/'])) else paths.contains abspath

/-- plugins/git.py:96-117 `process`; the inner `none` is NoData. -/
def gitProcess (w : GitWorld) (cache : List (Str × GitRepo)) (abspath : Str) (isDir : Bool) : Option (Option GitData × List (Str × GitRepo)) :=
  let dir := if isDir then abspath else dirname abspath
  (findRepo w (dir.length + 1) cache dir).map (fun r =>
    (r.1.map (fun g => ⟨g.1, g.1 = abspath, gitIn abspath isDir g.2.1, gitIn abspath isDir g.2.2⟩), r.2))

/-- The entries a process looks at, one after the other, with the cache of the plugin. -/
def gitEntries (w : GitWorld) : List (Str × GitRepo) → List (Str × Bool) → Option (List (Option GitData))
  | _, [] => some []
  | cache, e :: es =>
    match gitProcess w cache e.1 e.2 with
    | none => none
    | some (d, cache) => (gitEntries w cache es).map (d :: ·)

end FF
