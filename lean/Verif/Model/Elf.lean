import Verif.Model.Entry
import Verif.Model.PySort
/-! Model of the plugin `elf` in /repo/plugins/introspect.py. The module pyelftools, which reads the files, is not part of /repo. -/
namespace FF

/-- An entry of a dynamic table: the name of a shared object that is needed (`DT_NEEDED`), the end of the table (`DT_NULL`), or anything else. -/
inductive DynTag
  | needed (name : Str)
  | null
  | other
  deriving DecidableEq, Repr

/-- A section as pyelftools gives it: a `DynamicSection` with its table, or any other. -/
inductive ElfSection
  | dynamic (table : List DynTag)
  | other

/-- pyelftools `DynamicSection.iter_tags`: the table up to `DT_NULL`, which belongs to it. -/
def iterTags : List DynTag → List DynTag
  | [] => []
  | .null :: _ => [.null]
  | t :: ts => t :: iterTags ts

/-- introspect.py:57-61: the names one section yields. -/
def sectionNames : ElfSection → List Str
  | .other => []
  | .dynamic table => (iterTags table).filterMap fun t => match t with | .needed n => some n | _ => none

/-- What pyelftools makes of a file: its sections, an OSError or ELFError, or another exception. -/
inductive ElfRead
  | sections (l : List ElfSection)
  | bad
  | raises

/-- The outcome of a plugin for a file: the value of its attribute, no data, or an exception that ends the search. -/
inductive ElfData
  | names (l : List Str)
  | noData
  | fails
  deriving DecidableEq, Repr

/-- introspect.py:48-63 `extract_sonames` and 74-75 `cache`; an exception at any place of the file leaves nothing of the names before it. -/
def elfCache : ElfRead → ElfData
  | .sections l => .names (pySort strLe (l.flatMap sectionNames))
  | .bad => .noData
  | .raises => .fails

/-- introspect.py:65-78 `can_handle`, `cache` and `process` of Elf: the attribute `sonames`; `content` is `none` if the file cannot be read. -/
def elfSonames (isFile : Bool) (content : Option (List Nat)) (read : ElfRead) : ElfData :=
  if isFile then
    match content with
    | none => .noData
    | some bytes => if bytes.take 4 = [0x7f, 0x45, 0x4c, 0x46] then elfCache read else .noData
  else .noData

end FF
