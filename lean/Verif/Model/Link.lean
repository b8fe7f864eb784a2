import Verif.Model.Path
/-!
Where symbolic links point to: entry.py:133-140, on top of `os.path.realpath`, `os.path.exists` and the way the kernel follows a path.
-/
namespace FF

/-- What is at a place in the file system. Other kinds of files are like `file` here. -/
inductive FileNode where
  | dir
  | file
  | link (text : Str)
  deriving DecidableEq, Repr

/-- A file system: what is found at the place reached from the root by the given names, no symbolic link being followed on the way. -/
abbrev FileSystem := List Str → Option FileNode

/-- Where the walk along the text of a symbolic link that is in `base` begins, and the names it goes along. -/
def linkStart (text : Str) (base : List Str) : List Str := if startsWith text ['/'] then [] else base

/-- The parts of a path between the slashes; the slash at the beginning of an absolute path is not one of them. -/
def pathParts (text : Str) : List Str := if startsWith text ['/'] then splitOn '/' (text.drop 1) else splitOn '/' text

/-- One walk of the kernel along the parts of a path (path_resolution(7)) until the next symbolic link, which is followed by `follow`: the place reached and
the number of symbolic links that may still be followed. Permissions are not modelled. -/
def kernelLoop (fs : FileSystem) (left : Nat) (follow : List Str → List Str → Option (List Str × Nat)) : List Str → List Str → Option (List Str × Nat)
  | base, [] => if fs base = none then none else some (base, left)
  | base, c :: cs =>
    if fs base ≠ some .dir then none
    else if c = [] ∨ c = ['.'] then kernelLoop fs left follow base cs
    else if c = ['.', '.'] then kernelLoop fs left follow base.dropLast cs
    else match fs (base ++ [c]) with
      | none => none
      | some (.link text) => follow (linkStart text base) (pathParts text ++ cs)
      | some _ => kernelLoop fs left follow (base ++ [c]) cs

/-- The walk of the kernel; at most `left` symbolic links are followed. -/
def kernelWalk (fs : FileSystem) : Nat → List Str → List Str → Option (List Str × Nat)
  | 0 => kernelLoop fs 0 (fun _ _ => none)
  | left + 1 => kernelLoop fs (left + 1) (kernelWalk fs left)

/-- The number of symbolic links Linux follows before it gives up (`MAXSYMLINKS`). -/
def maxSymlinks : Nat := 40

/-- `os.path.exists` of an absolute path given by its names: whether `stat()` succeeds. -/
def osPathExists (fs : FileSystem) (names : List Str) : Bool := (kernelWalk fs maxSymlinks [] names).isSome

/-- The dictionary `seen` of `os.path.realpath`; `none` stands for a symbolic link that is being resolved. -/
abbrev Seen := List (List Str × Option (List Str))

/-- `posixpath.normpath` of the names of an absolute path. -/
def normNames : List Str → List Str → List Str
  | acc, [] => acc
  | acc, c :: cs =>
    if c = [] ∨ c = ['.'] then normNames acc cs else if c = ['.', '.'] then normNames acc.dropLast cs else normNames (acc ++ [c]) cs

/-- `posixpath.join(path, rest)` for the parts of `rest`: a rest beginning with a slash is taken alone. -/
def joinRest (path : List Str) : List Str → List Str
  | [] :: c :: cs => c :: cs
  | cs => path ++ cs

/-- CPython `posixpath._joinrealpath` with `strict=False`: the loop over the parts. `follow` is the function calling itself. The path so far is kept as the list
of its names below the root, the path of the current directory being put in front of a relative path as `abspath()` does in the end. The result is
the path, whether there is no loop of symbolic links and `seen`; `none` stands for `RecursionError`. -/
def realLoop (fs : FileSystem) (follow : List Str → List Str → Seen → Option (List Str × Bool × Seen)) :
    List Str → List Str → Seen → Option (List Str × Bool × Seen)
  | path, [], seen => some (path, true, seen)
  | path, c :: cs, seen =>
    if c = [] ∨ c = ['.'] then realLoop fs follow path cs seen
    else if c = ['.', '.'] then realLoop fs follow path.dropLast cs seen
    else match fs (path ++ [c]) with
      | some (.link text) =>
        match seen.lookup (path ++ [c]) with
        | some (some p) => realLoop fs follow p cs seen
        | some none => some (joinRest (path ++ [c]) cs, false, seen)
        | none =>
          match follow (linkStart text path) (pathParts text) ((path ++ [c], none) :: seen) with
          | none => none
          | some (p, true, seen') => realLoop fs follow p cs ((path ++ [c], some p) :: seen')
          | some (p, false, seen') => some (joinRest p cs, false, seen')
      | _ => realLoop fs follow (path ++ [c]) cs seen

/-- CPython `posixpath._joinrealpath`; `depth` is the number of calls inside each other that are possible. -/
def joinRealPath (fs : FileSystem) : Nat → List Str → List Str → Seen → Option (List Str × Bool × Seen)
  | 0 => realLoop fs (fun _ _ _ => none)
  | depth + 1 => realLoop fs (joinRealPath fs depth)

/-- CPython `os.path.realpath`; `cwd` is the current directory. -/
def realPath (fs : FileSystem) (depth : Nat) (cwd : List Str) (path : Str) : Option (List Str) :=
  (joinRealPath fs depth (linkStart path cwd) (pathParts path) []).map (fun r => normNames [] r.1)

/-- What entry.py:133-140 find out about an entry. -/
structure LinkInfo where
  /-- `self.link`, if set -/
  link : Option Str
  /-- the names of `self.target`, if set -/
  target : Option (List Str)
  broken : Bool
  deriving DecidableEq, Repr

/-- entry.py:133-140. `status` is what `os.stat()` of the entry has found (a symbolic link itself without `--follow-symlinks`), `dir` the attribute dir;
`none` stands for `RecursionError`. -/
def linkInfo (fs : FileSystem) (depth : Nat) (cwd : List Str) (dir : Str) : FileNode → Option LinkInfo
  | .link text =>
    match realPath fs depth cwd (pathJoin dir text) with
    | none => none
    | some target => some { link := some text, target := some target, broken := !osPathExists fs target }
  | _ => some { link := none, target := none, broken := false }

end FF
