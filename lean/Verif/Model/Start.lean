import Verif.Model.PyStr
/-!
How the installed program starts: /repo/bin/ff, /repo/ff/__main__.py, and what CPython does with the words it is given there (CPython is no code of /repo:
`Modules/main.c`, `importlib/_bootstrap_external.py`).
-/
namespace FF

/-- bin/ff:34 `os.execv(sys.executable, [sys.executable, "-O", "-m", "ff"] + sys.argv[1:])`: the words the interpreter is given. -/
def execWords (executable : Str) (argv : List Str) : List Str := [executable, "-O".toList, "-m".toList, "ff".toList] ++ argv.drop 1

/-- What the interpreter is to do. -/
structure PyRun where
  /-- `-O`: `__debug__` is false and assertions are not checked -/
  optimised : Bool
  /-- the module after `-m` -/
  module' : Str
  /-- `sys.argv[1:]` -/
  args : List Str
  deriving DecidableEq, Repr

/-- How CPython reads its own words: the options `-O` and `-m`, which is the last one; the words after it are for the program. `none` for everything else. -/
def pyCommandLine : Bool → List Str → Option PyRun
  | _, [] => none
  | opt, w :: ws =>
    if w = "-O".toList then pyCommandLine true ws
    else if w = "-m".toList then
      match ws with
      | [] => none
      | m :: args => some ⟨opt, m, args⟩
    else none

/-- A directory of `sys.path`: its files, and its directories with the files in them. -/
structure ModDir where
  path : Str
  files : List Str
  dirs : List (Str × List Str)

/-- importlib `FileFinder.find_spec`: the file of a module in a directory. A directory with a file `__init__` comes before files. `suffixes` are the suffixes of modules,
as `.so`, `.py` and `.pyc`. -/
def findIn (suffixes : List Str) (d : ModDir) (name : Str) : Option Str :=
  let file := (suffixes.find? fun s => decide (name ++ s ∈ d.files)).map (name ++ ·)
  match d.dirs.find? (·.1 = name) with
  | none => file
  | some (_, fs) =>
    match suffixes.find? fun s => decide ("__init__".toList ++ s ∈ fs) with
    | some s => some (name ++ "/__init__".toList ++ s)
    | none => file

/-- importlib `PathFinder._get_spec`: the first directory that has the module. Directories without `__init__`, which make a package if no directory has the module, are left out. -/
def findModule (suffixes : List Str) (name : Str) : List ModDir → Option Str
  | [] => none
  | d :: ds => match findIn suffixes d name with
    | some f => some (d.path ++ '/' :: f)
    | none => findModule suffixes name ds

/-- `sys.path` of a program that is started with `-m`: the current directory comes first, unless PYTHONSAFEPATH is set (CPython 3.11 and later). -/
def startPath (safe : Bool) (cwd : ModDir) (installed : List ModDir) : List ModDir := if safe then installed else cwd :: installed

/-- bin/ff:34, ff/__main__.py:21 and the import statements of ff: the file from which a module is loaded. -/
def loadedFrom (suffixes : List Str) (safe : Bool) (cwd : ModDir) (installed : List ModDir) (name : Str) : Option Str :=
  findModule suffixes name (startPath safe cwd installed)

end FF
