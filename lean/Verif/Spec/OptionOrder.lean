import Verif.Spec.ArgParse
/-! Command lines compared with each other. -/
namespace FF.Spec

/-- The elements of a command line that are about one setting. -/
def about (args : ArgOpt) (k : Str) (items : List CItem) : List CItem := items.filter (fun i => decide (i.dest args = k))

/-- Two command lines with the same elements, those about the same setting in the same order. -/
def Rearranged (args : ArgOpt) (items items' : List CItem) : Prop := ∀ k, about args k items = about args k items'

/-- The arguments of the options about a setting. -/
def collected (k : Str) (items : List CItem) : List Str := items.filterMap (fun i => match i with
  | .arg o v => if o.dest = k then some v else none
  | _ => none)

/-- The value an element of the command line gives to its setting, if it replaces whatever was said before. -/
def CItem.Gives (maxCpu : Int) : CItem → NVal → Prop
  | .flag o, x => x = flagVal o
  | .arg o v, x => o.action ≠ .append ∧ o.type.conv maxCpu v = .ok x
  | .bare o, x => ∃ c, o.action = .storeOptional c ∧ o.type.conv maxCpu c = .ok x
  | _, _ => False

/-- The first command line has an option without argument, the second one has an exclude test instead, at any place. Everything else is the same. -/
structure Instead (args : ArgOpt) (key test : Str) (items items' : List CItem) : Prop where
  given : about args key items ≠ []
  absent : about args key items' = []
  exclude : (collected "exclude".toList items').Perm (test :: collected "exclude".toList items)
  same : ∀ k, k ≠ key → k ≠ "exclude".toList → about args k items = about args k items'

end FF.Spec
