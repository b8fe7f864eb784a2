import Verif.Model.Search
import Verif.Model.Status
/-! The attributes of the file plugin that come from stat(2), for searches (/repo/libff/entry.py). -/
namespace FF

/-- entry.py:134-167 and 182-265: attributes that are fields of the status of an entry or made from it. `rest` are the remaining ones (names of users and groups,
links, mount points). -/
def statAttr (st : EntInfo → Status) (rest : EntInfo → Str → Option Val) (i : EntInfo) (name : Str) : Option Val :=
  let s := st i
  if name = "mode".toList then some (.int s.mode) else
  if name = "type".toList then some (.str s.type) else
  if name = "device".toList then some (.int s.dev) else
  if name = "inode".toList then some (.int s.ino) else
  if name = "exec".toList then some (.bool s.exec) else
  if name = "size".toList then some (.int s.fileSize) else
  if name = "time".toList then some (.int s.mtime) else
  if name = "mtime".toList then some (.int s.mtime) else
  if name = "ctime".toList then some (.int s.ctime) else
  if name = "atime".toList then some (.int s.atime) else
  if name = "perm".toList then some (.int s.perm) else
  if name = "links".toList then some (.int s.nlink) else
  if name = "uid".toList then some (.int s.uid) else
  if name = "gid".toList then some (.int s.gid) else rest i name

/-- builtin/grep.py:24-33: the grep plugin. -/
def grepPlugin : PluginDef where
  name := "grep".toList
  speed := 1
  attrs := [("text", Ty.boolean), ("linecount", .number), ("lines", .listOfStrings)].map (fun a => (a.1.toList, a.2))

/-- builtin/media.py:26-48: the medium plugin. -/
def mediumPlugin : PluginDef where
  name := "medium".toList
  speed := 2
  attrs := [("duration", Ty.duration), ("artist", .string), ("album", .string), ("title", .string), ("genre", .string), ("date", .string), ("format", .string),
    ("width", .number), ("height", .number)].map (fun a => (a.1.toList, a.2))

/-- builtin/mime.py:26-40: the mime plugin. -/
def mimePlugin : PluginDef where
  name := "mime".toList
  speed := 2
  attrs := [("mime", Ty.string), ("type", .string), ("subtype", .string), ("encoding", .string), ("name", .string)].map (fun a => (a.1.toList, a.2))

/-- plugins/tar.py:26-39: the tar plugin. -/
def tarPlugin : PluginDef where
  name := "tar".toList
  speed := 2
  attrs := [("members", Ty.listOfStrings)].map (fun a => (a.1.toList, a.2))

end FF
