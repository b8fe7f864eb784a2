import Verif.Model.Cache
/-! The plugins that read files and use the cache, for files that change between two runs. -/
namespace FF

/-- An entry at the time it is looked at: its absolute path, its own modification time in nanoseconds, whether it is a regular file, when the file that is opened under this path, which for a symbolic link
is the one it leads to, was written, and the content of this file, `none` if it cannot be read. -/
structure FileNow where
  path : UStr
  mtime : Int
  regular : Bool
  written : Int
  bytes : Option (List Nat)

/-- A plugin that reads a file: whether it handles other entries than regular files, what it extracts from the content, `none` if it raises NoData, and the data it makes of it. -/
structure FileReader (V D : Type) where
  others : Bool
  extract : List Nat → Option V
  shown : V → D
  nothing : D

variable {V D : Type}

/-- The plugins with `use_cache`: plugins/hash.py:28-51, plugins/introspect.py:32-78, libff/builtin/mime.py:31-68, and plugins/tar.py:35-57, libff/builtin/media.py:34-127, whose `can_handle` only looks at the
name (`others`). That some look at the name or the first bytes of the content is simplified to a part of the extraction. An OSError is NoData. None of them has a `get_entry_cache_tag` of its own, so
the tag is plugin.py:94-99 with entry.py:221-231: `int(st_mtime)`, whole seconds, of the entry itself unless -L is given. That `st_mtime` is a double is not modelled. -/
def FileReader.plugin (r : FileReader V D) (name : Str) (version : Nat) : CPlugin FileNow Int V D :=
  { name := name
    cacheTag := version
    useCache := true
    canHandle := fun f => f.regular || r.others
    tag := fun f => f.mtime.tdiv 1000000000
    cache := fun f => f.bytes.bind r.extract
    process := fun _ v => match v with
      | some v => r.shown v
      | none => r.nothing
    empty := r.nothing }

/-- cache.py:39-64 `NullCache`, which main.py:84-88 uses with --no-cache: nothing is found. -/
def FileReader.uncached (r : FileReader V D) (objs : Pickle (Obj V)) (name : Str) (version : Nat) (f : FileNow) : D := ((r.plugin name version).getData objs none f).1

end FF
