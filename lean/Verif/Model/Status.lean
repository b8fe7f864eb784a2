import Verif.Model.PyStr
/-! Model of /repo/libff/entry.py: the attributes derived from stat(2), with the constants and functions of Python's `stat` that it uses (on Linux). -/
namespace FF

/-- The part of `os.stat_result` that attributes are made from. Times are the whole seconds of `st_mtime` etc. (`int()` of a time after 1970). -/
structure Status where
  mode : Nat
  ino : Nat
  dev : Nat
  nlink : Nat
  uid : Nat
  gid : Nat
  size : Nat
  atime : Int
  mtime : Int
  ctime : Int

/-- `stat.S_IFMT(mode)`. -/
def S_IFMT (mode : Nat) : Nat := mode &&& 0o170000

/-- `stat.S_ISDIR`. -/
def S_ISDIR (mode : Nat) : Bool := S_IFMT mode = 0o040000
/-- `stat.S_ISREG`. -/
def S_ISREG (mode : Nat) : Bool := S_IFMT mode = 0o100000
/-- `stat.S_ISLNK`. -/
def S_ISLNK (mode : Nat) : Bool := S_IFMT mode = 0o120000
/-- `stat.S_ISSOCK`. -/
def S_ISSOCK (mode : Nat) : Bool := S_IFMT mode = 0o140000
/-- `stat.S_ISFIFO`. -/
def S_ISFIFO (mode : Nat) : Bool := S_IFMT mode = 0o010000
/-- `stat.S_ISCHR`. -/
def S_ISCHR (mode : Nat) : Bool := S_IFMT mode = 0o020000
/-- `stat.S_ISBLK`. -/
def S_ISBLK (mode : Nat) : Bool := S_IFMT mode = 0o060000

/-- entry.py:146-167: `type`. `S_ISDOOR`, `S_ISPORT` and `S_ISWHT` are always false on Linux. -/
def Status.type (s : Status) : Str :=
  if S_ISDIR s.mode then "directory".toList
  else if S_ISREG s.mode then "file".toList
  else if S_ISLNK s.mode then "symlink".toList
  else if S_ISSOCK s.mode then "socket".toList
  else if S_ISFIFO s.mode then "fifo".toList
  else if S_ISCHR s.mode then "char".toList
  else if S_ISBLK s.mode then "block".toList
  else "other".toList

/-- entry.py:244-248 `perm`; type.py:290-291 `MODE_ALL`. -/
def Status.perm (s : Status) : Nat := s.mode &&& 0o7777

/-- entry.py:423-429 `is_executable`, entry.py:207-210 `exec`. -/
def Status.exec (s : Status) : Bool :=
  if s.type = "directory".toList ∨ s.type = "symlink".toList then false
  else ((s.perm &&& 0o100) ||| (s.perm &&& 0o010)) ||| (s.perm &&& 0o001) > 0

/-- entry.py:213-219 `size`. -/
def Status.fileSize (s : Status) : Nat := if S_ISREG s.mode then s.size else 0

/-- entry.py:304-326 `empty`; `listing` is what `os.scandir` finds, `none` is OSError. -/
def Status.empty (s : Status) (listing : Option (List Str)) : Bool :=
  if S_ISDIR s.mode then
    match listing with
    | some (_ :: _) => false
    | some [] => true
    | none => false
  else if S_ISREG s.mode then s.fileSize = 0
  else false

/-- entry.py:195-198 `samedev`, with the device of the start directory. -/
def Status.samedev (s : Status) (device : Nat) : Bool := s.dev = device

/-- The letter of `stat.filemode` for the file type (CPython's `filetype` in _stat.c). -/
def filetypeChar (mode : Nat) : Char :=
  if S_ISREG mode then '-' else if S_ISDIR mode then 'd' else if S_ISLNK mode then 'l' else if S_ISBLK mode then 'b'
  else if S_ISCHR mode then 'c' else if S_ISFIFO mode then 'p' else if S_ISSOCK mode then 's' else '?'

/-- `stat.filemode` (CPython's `fileperm` in _stat.c); used by type.py:362-363. -/
def fileMode (mode : Nat) : Str :=
  let bit (b : Nat) : Bool := mode &&& b ≠ 0
  [filetypeChar mode,
   if bit 0o400 then 'r' else '-',
   if bit 0o200 then 'w' else '-',
   if bit 0o4000 then (if bit 0o100 then 's' else 'S') else (if bit 0o100 then 'x' else '-'),
   if bit 0o040 then 'r' else '-',
   if bit 0o020 then 'w' else '-',
   if bit 0o2000 then (if bit 0o010 then 's' else 'S') else (if bit 0o010 then 'x' else '-'),
   if bit 0o004 then 'r' else '-',
   if bit 0o002 then 'w' else '-',
   if bit 0o1000 then (if bit 0o001 then 't' else 'T') else (if bit 0o001 then 'x' else '-')]

/-! ### Names of users and groups -/

/-- entry.py:266-278 `user`, entry.py:280-292 `group`: the name and the new `_pwd_cache` resp. `_grp_cache`; `db` is `pwd.getpwuid` resp. `grp.getgrgid`, where
`none` is KeyError. -/
def ownerName (db : Nat → Option Str) (cache : List (Nat × Str)) (id : Nat) : Str × List (Nat × Str) :=
  match cache.find? (fun r => r.1 = id) with
  | some r => (r.2, cache)
  | none =>
    let name := (db id).getD []
    (name, (id, name) :: cache)

/-- The names that are returned for a sequence of requests, beginning with an empty cache. -/
def ownerNames (db : Nat → Option Str) : List (Nat × Str) → List Nat → List Str
  | _, [] => []
  | cache, id :: ids => (ownerName db cache id).1 :: ownerNames db (ownerName db cache id).2 ids

end FF
