import Verif.Model.Entry
/-! Model of /repo/libff/walk.py: what one worker process does. -/
namespace FF

/-- What the search finds below a name: the kids are listed in the order of `os.scandir`. Entries whose stat() fails (walk.py:150-158) are
left out, a directory that cannot be listed (walk.py:171-178) has no kids. `isDir` is `entry.is_dir()`: with -L it says whether a link leads
to a directory. -/
inductive FNode
  | mk (name : Str) (isDir : Bool) (kids : List FNode)

def FNode.name : FNode → Str
  | .mk n _ _ => n
def FNode.isDir : FNode → Bool
  | .mk _ d _ => d
def FNode.kids : FNode → List FNode
  | .mk _ _ k => k

/-- entry.py:70-86 `StartDirectory` (path part): the root as given and its absolute path. -/
structure Start where
  root : Str
  absroot : Str
  deriving DecidableEq, Repr

/-- What tests can see of an entry (entry.py:119-142, path part) apart from file contents. -/
structure EntInfo where
  start : Start
  relpath : Str
  isDir : Bool
  ignorePaths : List Str
  deriving DecidableEq, Repr

/-- The `Entry` object. -/
def EntInfo.entry (i : EntInfo) : Entry := mkEntry i.start.root i.start.absroot i.relpath

/-- An entry in the hands of a worker, together with what is below. -/
structure EntT where
  info : EntInfo
  kids : List FNode

/-- `Directory` (__init__.py:58), together with what the scan will find. -/
structure DirT where
  start : Start
  relpath : Str
  ignorePaths : List Str
  kids : List FNode

/-- The parts of the context that a worker uses: the names of ignore files, the excluder, the matcher, the number of jobs and whether there
are slow plugins. The tests are total functions: OSErrors raised by tests (walk.py:222-223, which drop the rest of the chunk) are not modelled. -/
structure WalkCfg where
  isIgnoreFile : Str → Bool
  excl : EntInfo → Bool
  keep : EntInfo → Bool
  jobs : Nat
  slow : Bool

/-- walk.py:144-169, the loop over the directory entries: the entries made so far and the shared list `ignore_paths`, which all entries refer to. -/
def scanLoop (isIgnoreFile : Str → Bool) (parent : DirT) : List (Str × FNode) × List Str → List FNode → List (Str × FNode) × List Str
  | st, [] => st
  | (entries, ignorePaths), n :: ns =>
    let relpath := pathJoin parent.relpath n.name
    let e := mkEntry parent.start.root parent.start.absroot relpath
    scanLoop isIgnoreFile parent (entries ++ [(relpath, n)], if isIgnoreFile e.name then ignorePaths ++ [e.abspath] else ignorePaths) ns

/-- walk.py:135-180 `scan_directory`. All entries hold a reference to the same list, so they see its final value. -/
def scanDirectory (isIgnoreFile : Str → Bool) (parent : DirT) : List EntT :=
  let (entries, ignorePaths) := scanLoop isIgnoreFile parent ([], parent.ignorePaths) parent.kids
  entries.map (fun (relpath, n) => ⟨⟨parent.start, relpath, n.isDir, ignorePaths⟩, n.kids⟩)

/-- walk.py:210: the `Directory` to search for a directory entry. -/
def EntT.toDir (e : EntT) : DirT := ⟨e.info.start, e.info.relpath, e.info.ignorePaths, e.kids⟩

/-- walk.py:200-210: one turn of the loop, for the lists `search` and `process`. -/
def testEntry (cfg : WalkCfg) (e : EntT) (search : List DirT) (process : List EntInfo) : List DirT × List EntInfo :=
  if cfg.excl e.info then (search, process)
  else
    let process := if cfg.keep e.info then process ++ [e.info] else process
    (if e.info.isDir then search ++ [e.toDir] else search, process)

/-- walk.py:228. `int(len(search) / jobs)` is float division, exact for realistic sizes. -/
def chunkSize (jobs len : Nat) : Nat := min 100 (max 10 (len / jobs + 1))

/-- walk.py:230-231: `for i in range(0, len, n): l[i:i+n]`. -/
def chunksFrom (l : List α) (n : Nat) : Nat → Nat → List (List α)
  | _, 0 => []
  | i, fuel + 1 => if i < l.length then (l.drop i).take n :: chunksFrom l n (i + n) fuel else []

def chunksOf (n : Nat) (l : List α) : List (List α) := chunksFrom l n 0 l.length

/-- walk.py:233-237: `process[:100]`, `process[100:]` while there is something. -/
def hundreds : Nat → List α → List (List α)
  | 0, _ => []
  | fuel + 1, l => if l = [] then [] else l.take 100 :: hundreds fuel (l.drop 100)

/-- walk.py:218-220: where the rest of the entries is split. -/
def splitAtHalf (l : List α) : List α × List α := (l.take (l.length / 2 + 1), l.drop (l.length / 2 + 1))

end FF
