import Verif.Spec.ArgParse
/-! What options from the environment, together with those on the command line, mean. -/
namespace FF.Spec

/-- The options whose arguments add up. -/
def addingUp : List Str := ["exclude".toList, "directories".toList]

/-- The words of a setting that is a list. -/
def listed : NVal → List Str
  | .strs l => l
  | _ => []

/-- A command line contains tests. -/
def HasWords (items : List CItem) : Prop := ∃ ws, CItem.words ws ∈ items

/-- A command line contains a command, which takes the rest of the line. -/
def HasRest (items : List CItem) : Prop := ∃ o ws, CItem.rest o ws ∈ items

/-- The last element is complete: it does not take the following word if that is none of the options. -/
def Complete (items : List CItem) : Prop :=
  ∀ i, items.getLast? = some i → (∀ o, i ≠ .bare o) ∧ ∀ ws, i ≠ .words ws

/-- The settings `ns` are those of `ns1` overridden by those of `ns2`, which are the result of the elements `items`; excludes and directories are
those of both. -/
def Overridden (args : ArgOpt) (ns1 : NS) (items : List CItem) (ns2 ns : NS) : Prop := ∀ k,
  (k ∈ addingUp → ns k = .strs (listed (ns1 k) ++ listed (ns2 k))) ∧
  (k ∉ addingUp → (∃ i ∈ items, i.dest args = k) → ns k = ns2 k) ∧
  (k ∉ addingUp → (∀ i ∈ items, i.dest args ≠ k) → ns k = ns1 k)

/-- A command line mentions a setting. -/
def Mentions (args : ArgOpt) (items : List CItem) (k : String) : Prop := ∃ i ∈ items, i.dest args = k.toList

/-- Options that do not go together: counting produces no list of results that commands could be run on or that could be limited. The option `--profile` (of
debugging builds) does not go together with commands. -/
def Conflicting (args : ArgOpt) (items : List CItem) : Prop :=
  (Mentions args items "count" ∧ (Mentions args items "exec" ∨ Mentions args items "exec_batch" ∨ Mentions args items "limit")) ∨
  (Mentions args items "profile" ∧ (Mentions args items "exec" ∨ Mentions args items "exec_batch"))

/-- The fields of `--count`; if there are none, sizes and types are counted. -/
def countAsked (words : Option (List Str)) (json : Bool) : Option (List Str) :=
  if words = some [[]] then some [if json then "file.size".toList else "file.size:h".toList, "file.type".toList] else words

/-- Options for which all results must be there before the first one is processed. -/
def NeedsAll (args : ArgOpt) (items : List CItem) : Prop :=
  Mentions args items "sort" ∨ Mentions args items "count" ∨ Mentions args items "limit" ∨ Mentions args items "exec_batch"

end FF.Spec
