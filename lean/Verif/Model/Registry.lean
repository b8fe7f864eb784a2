import Verif.Model.Types
/-! Model of /repo/libff/registry.py: which plugins are loaded and what attribute names mean. -/
namespace FF

/-- A plugin class: plugin.py:56 `name`, `attributes` (names with types; plugins' own types are not modelled), `speed`. -/
structure PluginDef where
  name : Str
  attrs : List (Str × Ty)
  speed : Nat
  deriving DecidableEq

/-- attribute.py:24 `Attribute(plugin, name)`. The alias takes no part in comparisons. -/
abbrev Attr := Str × Str

/-- registry.py:59-79 `iter_plugin_dirs`: `contrib` is line 69 or 71, `dirs` the value of FF_PLUGIN_DIRS. -/
def pluginDirs (builtin contrib user : Str) (dirs : Option Str) : List Str :=
  [builtin, contrib] ++ (match dirs with
    | none => []
    | some s => (splitOn ':' s).filter (fun d => d ≠ [])) ++ [user]

/-- registry.py:109-119 `register_plugin`. -/
def registerPlugin (reg : List PluginDef) (p : PluginDef) : List PluginDef :=
  if reg.any (fun q => q.name = p.name) then reg else reg ++ [p]

/-- registry.py:126-144 `load_plugins`: `content` are the plugin classes of the files in a directory in the order of os.scandir, none if it
cannot be read. Loading errors, which are fatal, are not modelled. -/
def loadPlugins (content : Str → List PluginDef) (dirs : List Str) : List PluginDef :=
  (dirs.flatMap content).foldl registerPlugin []

/-- registry.py:146-150: the keys and values of `attributes`. The order does not matter as the keys are different. -/
def attributeTable (reg : List PluginDef) : List (Attr × Ty) := reg.flatMap (fun p => p.attrs.map (fun a => ((p.name, a.1), a.2)))

/-- The elements of a list without repetitions, for `set(...)`. -/
def setOf : List Str → List Str
  | [] => []
  | x :: xs => if x ∈ setOf xs then setOf xs else x :: setOf xs

/-- registry.py:312-315 `get_plugin_for_attribute`, a set. -/
def pluginsFor (reg : List PluginDef) (name : Str) : List Str :=
  setOf (((attributeTable reg).filter (fun r => r.1.2 = name)).map (fun r => r.1.1))

/-- registry.py:291-298 `get_attribute_type`; `none` is the BadAttributeError. -/
def attributeType (reg : List PluginDef) (a : Attr) : Option Ty := ((attributeTable reg).find? (fun r => r.1 = a)).map Prod.snd

/-- `name.split(".", 1)` if there is a dot. -/
def splitDot : Str → Option (Str × Str)
  | [] => none
  | c :: s => if c = '.' then some ([], s) else (splitDot s).map (fun r => (c :: r.1, r.2))

/-- registry.py:172-201 `parse_attribute`; `none` is the BadAttributeError. -/
def parseAttribute (reg : List PluginDef) (name : Str) : Option Attr :=
  match splitDot name with
  | some a => some a
  | none =>
    let ps := pluginsFor reg name
    if "file".toList ∈ ps then some ("file".toList, name)
    else match ps with
      | [p] => some (p, name)
      | _ => none

/-- registry.py:203-216 `setup_attribute`, without the initialisation of the plugin. -/
def setupAttribute (reg : List PluginDef) (name : Str) : Option Attr :=
  match parseAttribute reg name with
  | none => none
  | some a => if reg.any (fun p => p.name = a.1) then some a else none

/-- registry.py:300-303 `get_plugin_speed`. -/
def pluginSpeed (reg : List PluginDef) (a : Attr) : Nat := ((reg.find? (fun p => p.name = a.1)).map PluginDef.speed).getD 0

/-- builtin/file.py:38-86: the file plugin. -/
def filePlugin : PluginDef where
  name := "file".toList
  speed := 0
  attrs := [("path", .path), ("root", .path), ("relpath", .path), ("dir", .path), ("name", .string), ("ext", .string), ("pathx", .path),
    ("namex", .path), ("mode", .mode), ("type", .fileType), ("device", .number), ("inode", .number), ("samedev", .boolean), ("depth", .number),
    ("exec", .boolean), ("size", .size), ("mtime", .time), ("ctime", .time), ("atime", .time), ("time", .time), ("perm", .mode), ("links", .number),
    ("uid", .number), ("gid", .number), ("user", .string), ("group", .string), ("hide", .boolean), ("hidden", .boolean), ("empty", .boolean),
    ("link", .path), ("target", .path), ("broken", .boolean), ("mount", .boolean), ("mpath", .string), ("devname", .string), ("fstype", .string),
    ("pseudofs", Ty.boolean)].map (fun a => (a.1.toList, a.2))

/-- builtin/ignore.py:26-36: the ignore plugin. -/
def ignorePlugin : PluginDef where
  name := "ignore".toList
  speed := 2
  attrs := [("ignored", Ty.boolean), ("path", .string)].map (fun a => (a.1.toList, a.2))

end FF
