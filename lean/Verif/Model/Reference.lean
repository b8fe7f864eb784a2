import Verif.Model.Arguments
import Verif.Model.Entry
/-! Model of /repo/libff/entry.py: reference files, and of /repo/libff/main.py: start directories. -/
namespace FF

/-- entry.py:99-112: the start directory and the relative path of a reference file; `dirs` is `args.directories`. -/
def referencePlace (cwd : Str) (dirs : List Str) (path : Str) : Str × Str :=
  let abspath := absNorm cwd path
  match dirs.find? (fun d => startsWith abspath (absNorm cwd d ++ ['/'])) with
  | some d => (d, abspath.drop (absNorm cwd d ++ ['/']).length)
  | none => pathSplit path

/-- entry.py:93-117 `Entry.as_reference`; `none` is the FileNotFoundError of `os.stat` of the start directory (entry.py:80) or of the path; `there` tells
whether `os.stat` finds a path. -/
def asReference (there : Str → Bool) (cwd : Str) (dirs : List Str) (path : Str) : Option Entry :=
  let p := referencePlace cwd dirs path
  if there p.1 && there path then some (mkEntry p.1 (absNorm cwd p.1) p.2) else none

/-- main.py:154-156: the start directory for an argument. -/
def startRoot (absolute : Bool) (cwd dir : Str) : Str := if absolute then absNorm cwd dir else dir

/-- main.py:176, walk.py:149-150: the entry that is found in a search directory under a relative path. -/
def foundEntry (absolute : Bool) (cwd dir relpath : Str) : Entry :=
  mkEntry (startRoot absolute cwd dir) (absNorm cwd (startRoot absolute cwd dir)) relpath

end FF
