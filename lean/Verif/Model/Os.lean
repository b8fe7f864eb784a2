import Verif.Model.Walk
/-! Model of /repo/libff/walk.py:135-180 `scan_directory` as far as the operating system is concerned: which errors are passed over in silence, which ones are
warned about, and what a search sees of the files. -/
namespace FF

/-- The exceptions that walk.py:151-158 and 171-178 tell apart: FileNotFoundError, PermissionError and any other OSError. -/
inductive OsErr
  | notFound | permission | other (message : Str)
  deriving DecidableEq, Repr

/-- What ff uses of the result of `os.stat`. -/
structure OsStat where
  isDir : Bool
  isLink : Bool
  dev : Nat
  deriving DecidableEq, Repr

/-- The operating system. -/
structure Os where
  /-- `os.stat(path, follow_symlinks=...)` and `DirEntry.stat` -/
  stat : Bool → Str → Except OsErr OsStat
  /-- `os.readlink`: whether it fails -/
  readlink : Str → Except OsErr Unit
  /-- `os.scandir(path)`: the names that are found, and the error if there is one before the end of the directory -/
  scandir : Str → Except OsErr (List Str × Option OsErr)

/-- walk.py:146-148: the status of an entry; `Entry` (entry.py:135-136) reads the text of symbolic links. -/
def Os.entry (O : Os) (follow : Bool) (path : Str) : Except OsErr OsStat :=
  match O.stat follow path with
  | .error e => .error e
  | .ok st => if st.isLink then
      match O.readlink path with
      | .error e => .error e
      | .ok _ => .ok st
    else .ok st

/-- walk.py:150-158 and 171-178: the warning about an error. -/
def OsErr.warning : OsErr → List OsErr
  | .notFound => []
  | .permission => []
  | .other m => [.other m]

/-- walk.py:144-160: the loop, with the entries and the warnings so far. -/
def Os.scanLoop (O : Os) (follow : Bool) (dir : Str) : List (Str × OsStat) × List OsErr → List Str → List (Str × OsStat) × List OsErr
  | st, [] => st
  | (entries, warnings), n :: ns =>
    match O.entry follow (pathJoin dir n) with
    | .error e => O.scanLoop follow dir (entries, warnings ++ e.warning) ns
    | .ok s => O.scanLoop follow dir (entries ++ [(n, s)], warnings) ns

/-- walk.py:135-180 `scan_directory`: the entries and the warnings. -/
def Os.scan (O : Os) (follow : Bool) (dir : Str) : List (Str × OsStat) × List OsErr :=
  match O.scandir dir with
  | .error e => ([], e.warning)
  | .ok (names, err) =>
    let (entries, warnings) := O.scanLoop follow dir ([], []) names
    (entries, warnings ++ match err with
      | none => []
      | some e => e.warning)

/-- walk.py:143, 147 and 210: what a search that follows symbolic links, or not, sees below a directory, down to a given depth. -/
def Os.kids (O : Os) (follow : Bool) (root : Str) : Nat → Str → List FNode
  | 0, _ => []
  | depth + 1, relpath => (O.scan follow (pathJoin root relpath)).1.map (fun (n, s) =>
      .mk n s.isDir (if s.isDir then O.kids follow root depth (pathJoin relpath n) else []))

/-- All that is seen below a start directory: linux refuses paths of 4096 bytes and more (PATH_MAX), so nothing can be deeper. -/
def Os.tree (O : Os) (follow : Bool) (root : Str) : List FNode := O.kids follow root 4096 []

/-- entry.py:77-81, 195-198: `samedev` of an entry. -/
def Os.samedev (O : Os) (follow : Bool) (root path : Str) : Option Bool :=
  match O.stat follow root, O.entry follow path with
  | .ok r, .ok s => some (s.dev = r.dev)
  | _, _ => none

end FF
