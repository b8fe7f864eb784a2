import Verif.Model.StatAttr
/-! The attributes of the file plugin that are neither made from the path nor fields of the status of a file (/repo/libff/entry.py). -/
namespace FF

/-- entry.py:31-33 `pseudo_fs`. -/
def pseudoFs : List Str :=
  ["binfmt_misc", "bpf", "cgroup2", "configfs", "debugfs", "devpts", "devtmpfs", "efivarfs", "hugetlbfs", "mqueue", "proc", "pstore", "securityfs", "sysfs", "tmpfs",
    "tracefs"].map String.toList

/-- What the system says about entries. -/
structure FileWorld where
  /-- the status, entry.py:122 -/
  status : EntInfo → Status
  /-- the device of the start directory, entry.py:77-87 -/
  device : EntInfo → Nat
  /-- what `os.scandir` finds, `none` is OSError -/
  listing : EntInfo → Option (List Str)
  /-- `pwd.getpwuid` and `grp.getgrgid`, `none` is KeyError -/
  users : Nat → Option Str
  groups : Nat → Option Str
  /-- `os.readlink` -/
  readlink : EntInfo → Str
  /-- `os.path.realpath` -/
  realpath : Str → Str
  /-- `os.path.exists` -/
  exists' : Str → Bool
  /-- `st_dev` of `os.lstat`, `none` is OSError -/
  lstatDev : Str → Option Nat
  /-- entry.py:40-51 -/
  mounts : List MountRow

/-- entry.py:340-358 `mount`. -/
def FileWorld.mount (W : FileWorld) (i : EntInfo) : Bool :=
  let e := i.entry
  if (W.status i).type ≠ "directory".toList then false
  else
    let parent := W.realpath (pathJoin e.path "..".toList)
    if parent = e.path then true
    else match W.lstatDev parent with
      | none => false
      | some dev => (W.status i).dev ≠ dev

/-- entry.py:133-140, 195-198, 266-292, 304-326, 340-381: the remaining attributes; `none` is the KeyError of entry.py:446. The caches of the names are left out, see `ownerName`. -/
def FileWorld.rest (W : FileWorld) (i : EntInfo) (name : Str) : Option Val :=
  let e := i.entry
  let s := W.status i
  let target := W.realpath (pathJoin e.dir (W.readlink i))
  let m := mountGet W.mounts e.abspath
  if name = "samedev".toList then some (.bool (s.samedev (W.device i))) else
  if name = "user".toList then some (.str (ownerName W.users [] s.uid).1) else
  if name = "group".toList then some (.str (ownerName W.groups [] s.gid).1) else
  if name = "empty".toList then some (.bool (s.empty (W.listing i))) else
  if name = "link".toList then (if S_ISLNK s.mode then some (.str (W.readlink i)) else none) else
  if name = "target".toList then (if S_ISLNK s.mode then some (.str target) else none) else
  if name = "broken".toList then some (.bool (if S_ISLNK s.mode then !W.exists' target else false)) else
  if name = "mount".toList then some (.bool (W.mount i)) else
  if name = "mpath".toList then some (.str m.1) else
  if name = "devname".toList then some (.str m.2.1) else
  if name = "fstype".toList then some (.str m.2.2) else
  if name = "pseudofs".toList then some (.bool (pseudoFs.contains m.2.2)) else none

/-- All attributes that need the system. -/
def FileWorld.stat (W : FileWorld) : EntInfo → Str → Option Val := statAttr W.status W.rest

end FF
