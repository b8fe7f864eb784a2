import Verif.Model.Glob
/-! Model of the caches of /repo/libff/builtin/ignore.py. -/
namespace FF

/-- builtin/ignore.py:41-42: the two dictionaries of the plugin as lists of pairs. -/
structure IgnoreCaches where
  files : List (Str × IgnoreFile)
  lists : List (List Str × List IgnoreFile)

/-- builtin/ignore.py:55-69, the loop over the ignore files with the cache of files; `none` is an exception. -/
def ignoresLoop (read : ReadFile) : List (Str × IgnoreFile) → List Str → Option (List IgnoreFile × List (Str × IgnoreFile))
  | cache, [] => some ([], cache)
  | cache, p :: ps =>
    match cache.lookup p with
    | some i => (ignoresLoop read cache ps).map (fun r => (i :: r.1, r.2))
    | none =>
      match read p with
      | none => ignoresLoop read cache ps
      | some lines =>
        match mkIgnoreFile (pathSplit p).1 (pathSplit p).2 lines with
        | none => none
        | some i => (ignoresLoop read ((p, i) :: cache) ps).map (fun r => (i :: r.1, r.2))

/-- builtin/ignore.py:47-73 `get_ignores` with its caches. -/
def cachedIgnores (read : ReadFile) (c : IgnoreCaches) (paths : List Str) : Option (List IgnoreFile × IgnoreCaches) :=
  match c.lists.lookup paths with
  | some is => some (is, c)
  | none => (ignoresLoop read c.files paths).map (fun r => (r.1, ⟨r.2, (paths, r.1) :: c.lists⟩))

/-- What the plugin is asked about. -/
structure IgnoreQuery where
  ignorePaths : List Str
  abspath : Str
  name : Str
  isDir : Bool

/-- builtin/ignore.py:75-87 `is_ignored` and `process`, with the caches: the attributes `ignored` and `path`. -/
def ignoreProcess (read : ReadFile) (c : IgnoreCaches) (q : IgnoreQuery) : Option ((Bool × Str) × IgnoreCaches) :=
  if q.ignorePaths = [] then some ((false, []), c)
  else (cachedIgnores read c q.ignorePaths).map (fun r =>
    (((gitIgnoreMatch r.1 q.abspath q.name q.isDir).1, (gitIgnoreMatch r.1 q.abspath q.name q.isDir).2.getD []), r.2))

/-- The entries a process looks at, one after the other; `none` is an exception. -/
def ignoreEntries (read : ReadFile) : IgnoreCaches → List IgnoreQuery → Option (List (Bool × Str))
  | _, [] => some []
  | c, q :: qs =>
    match ignoreProcess read c q with
    | none => none
    | some (r, c) => (ignoreEntries read c qs).map (r :: ·)

end FF
