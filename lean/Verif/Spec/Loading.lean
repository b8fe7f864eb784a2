import Verif.Model.Loading
/-! Which files are plugin files, and what they offer. -/
namespace FF.Spec

/-- A plugin file is a regular file, or a link to one, whose name ends with `.py` and does not begin with an underscore. -/
def PluginFile (it : DirItem) : Prop := it.isFile = some true ∧ (∃ stem, it.name = stem ++ ['.', 'p', 'y']) ∧ ∀ rest, it.name ≠ '_' :: rest

/-- What the plugin files offer, in the order of the directories and of the files in them, with the path of the file; there is such a list if all of them can be executed. -/
inductive Offers : List (Str × Option (List DirItem)) → List (Str × ModObj) → Prop
  | nil : Offers [] []
  | unreadable {d ds l} : Offers ds l → Offers ((d, none) :: ds) l
  | last {d ds l} : Offers ds l → Offers ((d, some []) :: ds) l
  | file {d ds it items objs l} : PluginFile it → it.run = some objs → Offers ((d, some items) :: ds) l →
      Offers ((d, some (it :: items)) :: ds) (objs.map (fun o => (d ++ '/' :: it.name, o)) ++ l)
  | no {d ds it items l} : ¬ PluginFile it → Offers ((d, some items) :: ds) l → Offers ((d, some (it :: items)) :: ds) l

/-- The plugin is offered under a name that nothing before it has. -/
def FirstOffered (l : List (Str × ModObj)) (c : PluginClass) (pre : List (Str × ModObj)) : Prop :=
  ∃ path post, l = pre ++ (path, .plugin c) :: post ∧ ∀ p q, (p, .plugin q) ∈ pre → q.plugin.name ≠ c.plugin.name

/-- The plugins that are offered under a name that something before them has, or one of `seen`, with the paths. -/
inductive Repeated : List Str → List (Str × ModObj) → List (Str × Str) → Prop
  | nil {seen} : Repeated seen [] []
  | other {seen p l ws} : Repeated seen l ws → Repeated seen ((p, .other) :: l) ws
  | type {seen p t l ws} : Repeated seen l ws → Repeated seen ((p, .type t) :: l) ws
  | first {seen p c l ws} : c.plugin.name ∉ seen → Repeated (c.plugin.name :: seen) l ws → Repeated seen ((p, .plugin c) :: l) ws
  | again {seen p c l ws} : c.plugin.name ∈ seen → Repeated seen l ws → Repeated seen ((p, .plugin c) :: l) ((c.plugin.name, p) :: ws)

/-- The class can be used: it can be initialised, and each of its attributes has a type that has been offered, or one that is derived from it. -/
def Usable (pre : List (Str × ModObj)) (c : PluginClass) : Prop :=
  c.init = true ∧ ∀ ty ∈ c.types, ∃ bases, ty = some bases ∧ ∃ b ∈ bases, ∃ p, (p, .type b) ∈ pre

/-- `is_file` raises no OSError. -/
def Examinable (dirs : List (Str × Option (List DirItem))) : Prop := ∀ d items, (d, some items) ∈ dirs → ∀ it ∈ items, it.isFile ≠ none

end FF.Spec
