import Verif.Model.Registry
namespace FF.Spec

/-- Plugin `p` is loaded and provides an attribute `a`. -/
def Provides (reg : List PluginDef) (p a : Str) : Prop := ∃ q ∈ reg, q.name = p ∧ ∃ ty, (a, ty) ∈ q.attrs

/-- A plugin of this name is loaded. -/
def Loaded (reg : List PluginDef) (p : Str) : Prop := ∃ q ∈ reg, q.name = p

/-- Plugin names are unique, and so are the attribute names of each plugin. -/
structure Regular (reg : List PluginDef) : Prop where
  names : (reg.map PluginDef.name).Nodup
  attrs : ∀ q ∈ reg, (q.attrs.map Prod.fst).Nodup

end FF.Spec
