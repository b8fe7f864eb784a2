/-! Specification for C110: what it means that the outputs of several processes are not mixed. -/
namespace FF.Spec

/-- The elements of the lists one after the other, those of each list in their order. -/
inductive Merged {α : Type} : List (List α) → List α → Prop
  | nil {ls : List (List α)} : (∀ l ∈ ls, l = []) → Merged ls []
  | snoc {a b : List (List α)} {l t : List α} {x : α} : Merged (a ++ l :: b) t → Merged (a ++ (l ++ [x]) :: b) (t ++ [x])

/-- The lists are beginnings of others, one by one. -/
inductive Beginnings {α : Type} : List (List α) → List (List α) → Prop
  | nil : Beginnings [] []
  | cons {p l : List α} {ps ls : List (List α)} : p <+: l → Beginnings ps ls → Beginnings (p :: ps) (l :: ls)

end FF.Spec
