import Verif.Spec.Glob
/-! Glob patterns in tests. -/
namespace FF.Spec

/-- The test `NAME%TEXT`. -/
def likeGlob (name text : Str) : Str := name ++ '%' :: text

/-- What a pattern selects: what it applies to, or with a `!` everything else. -/
def Pat.Selects (p : Pat) (ns : List Str) (isDir : Bool) : Prop := p.Applies ns isDir ↔ p.neg = false

/-- The pattern looks at more than the last name of a path. -/
def Pat.Anchored (p : Pat) : Prop := p.lead = true ∨ 1 < p.comps.length

end FF.Spec
