import Verif.Model.Path
import Verif.Model.PySort
/-! Model of /repo/libff/entry.py: the attributes derived from path names, and the mount table. -/
namespace FF

/-- entry.py:119-132, the path related fields of an `Entry`. `absroot` is entry.py:79 `os.path.abspath(root)`,
taken as given. The `status` (stat) part is modelled where needed. -/
structure Entry where
  root : Str
  relpath : Str
  path : Str
  abspath : Str
  dir : Str
  name : Str
  deriving DecidableEq, Repr

/-- entry.py:119-131 `Entry.__init__` (path part). -/
def mkEntry (root absroot relpath : Str) : Entry :=
  let path := if root ≠ ['.'] then pathJoin root relpath else relpath
  { root := root, relpath := relpath, path := path, abspath := pathJoin absroot relpath,
    dir := (pathSplit path).1, name := (pathSplit path).2 }

/-- entry.py:142 `self.hide = self.name[0] == "."`; `none` is the IndexError for an empty name. -/
def Entry.hide (e : Entry) : Option Bool := e.name.head?.map (· = '.')

/-- entry.py:176-180 `ext`. -/
def Entry.ext (e : Entry) : Str := (splitext e.path).2.drop 1

/-- entry.py:329-332 `pathx`. -/
def Entry.pathx (e : Entry) : Str := (splitext e.path).1

/-- entry.py:335-338 `namex`. -/
def Entry.namex (e : Entry) : Str := basename e.pathx

/-- entry.py:201-204 `depth`. -/
def Entry.depth (e : Entry) : Nat := e.relpath.count '/'

/-- entry.py:298-302 `hidden`. -/
def Entry.hidden (e : Entry) : Bool := (splitOn '/' e.path).any (fun part => startsWith part ['.'])

/-- A row (mpath, devname, fstype) of entry.py:41 `self.entries`. -/
abbrev MountRow := Str × Str × Str

/-- CPython `str` comparison `a <= b` (by code points). -/
def strLe : Str → Str → Bool
  | [], _ => true
  | _ :: _, [] => false
  | x :: xs, y :: ys => if x = y then strLe xs ys else x.val < y.val

/-- CPython tuple comparison `a <= b` of rows. -/
def rowLe (a b : MountRow) : Bool :=
  if a.1 = b.1 then (if a.2.1 = b.2.1 then strLe a.2.2 b.2.2 else strLe a.2.1 b.2.1) else strLe a.1 b.1

/-- entry.py:40-51 `Mountpoints.__init__`, from the (devname, mpath, fstype) fields of the lines of /proc/mounts.
The field splitting `line.split(None, 3)` is not modelled. `sort(reverse=True)`: descending. -/
def mountTable (lines : List (Str × Str × Str)) : List MountRow :=
  pySortRev rowLe (lines.map (fun l => (rstripChar '/' l.2.1 ++ ['/'], l.1, l.2.2)))

/-- entry.py:53-60 `Mountpoints.get` (without the lru_cache). -/
def mountGet : List MountRow → Str → MountRow
  | [], _ => (['/'], "root_device".toList, "rootfs".toList)
  | (mpath, dev, fs) :: rest, path =>
    if mpath = path ∨ startsWith path mpath = true then (mpath, dev, fs) else mountGet rest path

end FF
