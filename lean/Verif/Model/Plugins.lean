import Verif.Model.Field
import Verif.Model.Console
import Verif.Model.Entry
import Verif.Model.Arguments
import Verif.Model.Reading
/-! Model of the plugins /repo/plugins/tar.py, xattr.py and fs.py. -/
namespace FF

/-- A value of an attribute of type ListOfStrings: a list, or a set, whose elements are given in the order in which python iterates over it. -/
inductive PyColl where
  | list (l : List Str)
  | set (l : List Str)
  deriving DecidableEq, Repr

/-- The elements in the order of iteration. -/
def PyColl.elems : PyColl → List Str
  | .list l => l
  | .set l => l

/-- plugins/tar.py:51-59: `names` is `tar.getnames()`. The order of a set depends on the hash seed, which is different in each process. -/
inductive TarValue (names : List Str) : PyColl → Prop
  | mk (order : List Str) : order.Nodup → (∀ x, x ∈ order ↔ x ∈ names) → TarValue names (.set order)

/-- type.py:229-231 `ListOfStrings.test`. -/
def PyColl.test (low : Str → Str) (t : Test) (v : PyColl) : Bool := v.elems.any fun s => stringTest low t s

/-- type.py:233-235 `ListOfStrings.output`. -/
def PyColl.output (v : PyColl) : Str := joinStr [','] v.elems

/-- `json.dump`; `none` is TypeError. -/
def PyColl.json : PyColl → Option Str
  | .list l => some (jsonVal (some (.strs l)))
  | .set _ => none

/-- `a < b` in python; `none` is TypeError. For sets it means that `a` is a proper subset of `b`. -/
def PyColl.lt : PyColl → PyColl → Option Bool
  | .list a, .list b => SKey.lt (.strs a) (.strs b)
  | .set a, .set b => some (a.all b.contains && !b.all a.contains)
  | _, _ => none

/-- type.py:224: `sort_none`, used for files without the attribute. -/
def PyColl.sortNone : PyColl := .list []

/-- An extended attribute: its name, and its value, `none` if it cannot be read (OSError). -/
abbrev XAttr := Str × Option Str

/-- plugins/xattr.py:38-51 `process`; `attrs` is the result of `listxattr`, `none` if it fails. The values are decoded by `os.fsdecode`, which does not fail. -/
def xattrValue (attrs : Option (List XAttr)) : PyColl :=
  .list (((attrs.getD []).takeWhile fun a => a.2.isSome).map fun a => a.1 ++ ['='] ++ a.2.getD [])

/-- plugins/fs.py:28-67 `fs_types`. -/
def fsTypes : List (Nat × Str × Bool) :=
  ([
    (0x61636673, "acfs", true), (0xADF5, "adfs", false), (0xADFF, "affs", false), (0x5346414F, "afs", true), (0x09041934, "anon-inode FS", false),
    (0x61756673, "aufs", true), (0x0187, "autofs", false), (0x42465331, "befs", false), (0x62646576, "bdevfs", false), (0x1BADFACE, "bfs", false),
    (0xCAFE4A11, "bpf_fs", false), (0x42494E4D, "binfmt_misc", false), (0x9123683E, "btrfs", false), (0x73727279, "btrfs_test", false), (0x00C36400, "ceph", true),
    (0x0027E0EB, "cgroupfs", false), (0xFF534D42, "cifs", true), (0x73757245, "coda", true), (0x012FF7B7, "coh", false), (0x62656570, "configfs", false),
    (0x28CD3D45, "cramfs", false), (0x453DCD28, "cramfs-wend", false), (0x64626720, "debugfs", false), (0x1373, "devfs", false), (0x1CD1, "devpts", false),
    (0xF15F, "ecryptfs", false), (0xDE5E81E4, "efivarfs", false), (0x00414A53, "efs", false), (0x5DF5, "exofs", false), (0x137D, "ext", false),
    (0xEF53, "ext2/ext3", false), (0xEF51, "ext2", false), (0xF2F52010, "f2fs", false), (0x4006, "fat", false), (0x19830326, "fhgfs", true),
    (0x65735546, "fuseblk", true), (0x65735543, "fusectl", true), (0x0BAD1DEA, "futexfs", false), (0x01161970, "gfs/gfs2", true), (0x47504653, "gpfs", true),
    (0x4244, "hfs", false), (0x482B, "hfs+", false), (0x4858, "hfsx", false), (0x00C0FFEE, "hostfs", false), (0xF995E849, "hpfs", false),
    (0x958458F6, "hugetlbfs", false), (0x11307854, "inodefs", false), (0x013111A8, "ibrix", true), (0x2BAD1DEA, "inotifyfs", false), (0x9660, "isofs", false),
    (0x4004, "isofs", false), (0x4000, "isofs", false), (0x07C0, "jffs", false), (0x72B6, "jffs2", false), (0x3153464A, "jfs", false),
    (0x6B414653, "k-afs", true), (0xC97E8168, "logfs", false), (0x0BD00BD0, "lustre", true), (0x137F, "minix", false), (0x138F, "minix (30 char.)", false),
    (0x2468, "minix v2", false), (0x2478, "minix v2 (30 char.)", false), (0x4D5A, "minix3", false), (0x19800202, "mqueue", false), (0x4D44, "msdos", false),
    (0x564C, "novell", true), (0x6969, "nfs", true), (0x6E667364, "nfsd", true), (0x3434, "nilfs", false), (0x6E736673, "nsfs", false),
    (0x5346544E, "ntfs", false), (0x9FA1, "openprom", false), (0x7461636F, "ocfs2", true), (0x794C7630, "overlayfs", true), (0xAAD7AAEA, "panfs", true),
    (0x50495045, "pipefs", true), (0x9FA0, "proc", false), (0x6165676C, "pstorefs", false), (0x002F, "qnx4", false), (0x68191122, "qnx6", false),
    (0x858458F6, "ramfs", false), (0x52654973, "reiserfs", false), (0x7275, "romfs", false), (0x67596969, "rpc_pipefs", false), (0x73636673, "securityfs", false),
    (0xF97CFF8C, "selinux", false), (0x43415D53, "smackfs", false), (0x517B, "smb", true), (0xBEEFDEAD, "snfs", true), (0x534F434B, "sockfs", false),
    (0x73717368, "squashfs", false), (0x62656572, "sysfs", false), (0x012FF7B6, "sysv2", false), (0x012FF7B5, "sysv4", false), (0x01021994, "tmpfs", false),
    (0x74726163, "tracefs", false), (0x24051905, "ubifs", false), (0x15013346, "udf", false), (0x00011954, "ufs", false), (0x54190100, "ufs", false),
    (0x9FA2, "usbdevfs", false), (0x01021997, "v9fs", false), (0xBACBACBC, "vmhgfs", true), (0xA501FCF5, "vxfs", true), (0x565A4653, "vzfs", false),
    (0xABBA1974, "xenfs", false), (0x012FF7B4, "xenix", false), (0x58465342, "xfs", false), (0x012FD16D, "xia", false), (0x2FC12FC1, "zfs", false)] : List (Nat × String × Bool)).map fun r => (r.1, r.2.1.toList, r.2.2)

/-- plugins/fs.py:81-96 `get_fs_type`; `statfs` gives the type of the file system a path is on, `none` is an error. Only 32 bits of the type are looked at. -/
def fsType (statfs : Str → Option Nat) (path : Str) : Except PyExc (Str × Bool) :=
  match statfs path with
  | none => .error .osError
  | some t => .ok ((fsTypes.lookup (t % 2 ^ 32)).getD ("unknown".toList, false))

/-- plugins/fs.py:101-110 `process`, type and remote; `cwd` is the current directory. -/
def fsValue (cwd : Str) (statfs : Str → Option Nat) (isDir : Bool) (path dir : Str) : Except PyExc (List (Str × Val)) :=
  match fsType statfs (absNorm cwd (if isDir then path else dir)) with
  | .error e => .error e
  | .ok (name, remote) => .ok [("type".toList, .str name), ("remote".toList, .bool remote)]

end FF
