import Verif.Model.Registry
import Verif.Model.Reading
/-! Model of /repo/libff/registry.py: how plugin files are found and loaded. A plugin file is any Python program; what is modelled is what its namespace contains afterwards. -/
namespace FF

/-- A plugin class: what other parts use of it, and for each attribute the type class with its base classes (as numbers), `none` if it is no class at all. `init` says whether
plugin.py:64-75 `initialize` succeeds: the plugin file can be read, the cache tag is a number that is not negative. -/
structure PluginClass where
  plugin : PluginDef
  types : List (Option (List Nat))
  init : Bool
  deriving DecidableEq

/-- The objects in the namespace of a module: registry.py:94-102. -/
inductive ModObj
  /-- everything else, including the classes `Type` and `Plugin` themselves -/
  | other
  /-- a subclass of `Type` -/
  | type (id : Nat)
  /-- a subclass of `Plugin` -/
  | plugin (c : PluginClass)
  deriving DecidableEq

/-- What `os.scandir` finds. -/
structure DirItem where
  name : Str
  /-- `is_file()`, `none` if it raises OSError -/
  isFile : Option Bool
  /-- registry.py:85-87: the namespace after the module has been executed, `none` if there is an exception -/
  run : Option (List ModObj)
  deriving DecidableEq

/-- registry.py:44-48: the attributes of the class `Registry`, which live as long as the program; `warnings` are the names of the plugins that are skipped, with the path. -/
structure RegState where
  types : List Nat
  plugins : List PluginClass
  table : List (Attr × Ty)
  warnings : List (Str × Str)
  deriving DecidableEq

/-- registry.py:44-48 -/
def RegState.empty : RegState := ⟨[], [], [], []⟩

/-- registry.py:122: `issubclass(type_cls, tuple(self.registered_types))`; a TypeError if it is no class. -/
def typeKnown (types : List Nat) : Option (List Nat) → Bool
  | none => false
  | some bases => bases.any (fun b => types.contains b)

/-- registry.py:109-124 `register_plugin`; the flag is false if there is an exception. -/
def RegState.register (s : RegState) (path : Str) (c : PluginClass) : RegState × Bool :=
  if s.plugins.any (fun q => q.plugin.name = c.plugin.name) then ({ s with warnings := s.warnings ++ [(c.plugin.name, path)] }, true)
  else if c.init then ({ s with plugins := s.plugins ++ [c] }, c.types.all (typeKnown s.types))
  else (s, false)

/-- registry.py:90-107 `inspect_namespace`. -/
def RegState.inspect (s : RegState) (path : Str) : List ModObj → RegState × Bool
  | [] => (s, true)
  | .other :: objs => s.inspect path objs
  | .type t :: objs => RegState.inspect { s with types := s.types ++ [t] } path objs
  | .plugin c :: objs => match s.register path c with
    | (s', true) => s'.inspect path objs
    | (s', false) => (s', false)

/-- registry.py:131-144: the files of one directory; the flag is false if there is a BadPluginError. An OSError of `is_file` ends the loop like one of `os.scandir`. -/
def RegState.loadDir (s : RegState) (dir : Str) : List DirItem → RegState × Bool
  | [] => (s, true)
  | it :: items => match it.isFile with
    | none => (s, true)
    | some f =>
      if !f || !endsWith it.name ".py".toList || startsWith it.name "_".toList then s.loadDir dir items
      else match it.run with
        | none => (s, false)
        | some objs => match s.inspect (dir ++ '/' :: it.name) objs with
          | (s', true) => s'.loadDir dir items
          | (s', false) => (s', false)

/-- registry.py:129-144: all directories, with what is in them, `none` if they cannot be read. -/
def RegState.loadDirs (s : RegState) : List (Str × Option (List DirItem)) → RegState × Bool
  | [] => (s, true)
  | (_, none) :: dirs => s.loadDirs dirs
  | (dir, some items) :: dirs => match s.loadDir dir items with
    | (s', true) => s'.loadDirs dirs
    | (s', false) => (s', false)

/-- registry.py:149: `sorted(plugin_cls.attributes)` compares names, then types, which is a TypeError if these are different: then two attributes have the same name and different
types. (Sorting must compare some such pair.) -/
def attrsComparable (p : PluginDef) : Bool := p.attrs.all (fun a => p.attrs.all (fun b => decide (a.1 = b.1 → a.2 = b.2)))

/-- How `Registry.__init__` ends. -/
inductive LoadResult
  | ok
  /-- BadPluginError -/
  | badPlugin
  /-- TypeError -/
  | crash
  deriving DecidableEq

/-- registry.py:126-150 `load_plugins`. What is in the table when sorting fails is not modelled. -/
def RegState.load (s : RegState) (dirs : List (Str × Option (List DirItem))) : RegState × LoadResult :=
  match s.loadDirs dirs with
  | (s', false) => (s', .badPlugin)
  | (s', true) =>
    if s'.plugins.all (fun c => attrsComparable c.plugin) then ({ s' with table := attributeTable (s'.plugins.map PluginClass.plugin) }, .ok)
    else (s', .crash)

/-- registry.py:50-57 `__init__`. -/
def RegState.construct (s : RegState) (dirs : List (Str × Option (List DirItem))) : RegState × LoadResult :=
  if s.plugins = [] then s.load dirs else (s, .ok)

end FF
