import Verif.Model.Elf
/-! Which shared objects an executable file needs. -/
namespace FF.Spec

/-- The dynamic linker reads the table of the program up to its end: `name` is needed if an entry before the end says so. -/
def Needs (table : List DynTag) (name : Str) : Prop := ∃ a b, table = a ++ .needed name :: b ∧ DynTag.null ∉ a

/-- The sections describe the program: there is one dynamic section, and its table is that of the program. -/
def Describes (sections : List ElfSection) (table : List DynTag) : Prop :=
  ∃ a b, sections = a ++ .dynamic table :: b ∧ (∀ s ∈ a, s = .other) ∧ ∀ s ∈ b, s = .other

end FF.Spec
