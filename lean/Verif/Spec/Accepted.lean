import Verif.Spec.ArgParse
/-! All command lines that ff accepts: those of `Spells`, and some more that are not documented. -/
namespace FF.Spec

/-- The letters of a bundle, written as separate words: an option that takes an argument takes all letters that follow it, even if there are none. -/
inductive Letters (opts : List ArgOpt) : Str → List Str → Prop
  | nil : Letters opts [] []
  | plain {o c cs ws} : o ∈ opts → o.action ≠ .arguments → ¬ TakesArg o → ['-', c] ∈ o.strings → Letters opts cs ws →
      Letters opts (c :: cs) (['-', c] :: ws)
  | arg {o c cs} : o ∈ opts → TakesArg o → ['-', c] ∈ o.strings → Letters opts (c :: cs) [['-', c], cs]

/-- `Reads opts items words`: the words are read as the items. Every option is one of the table, in full, and has an argument exactly if it
takes one; the only abbreviations are `--name=argument` and bundles of letters, which are read as if their parts had been separate words. -/
inductive Reads (opts : List ArgOpt) : List CItem → List Str → Prop
  | nil : Reads opts [] []
  | flag {o s is ws} : o ∈ opts → IsFlag o → s ∈ o.strings → Reads opts is ws → Reads opts (.flag o :: is) (s :: ws)
  | arg {o s v is ws} : o ∈ opts → TakesArg o → s ∈ o.strings → (OptArg o → ¬ Dash v) → Reads opts is ws →
      Reads opts (.arg o v :: is) (s :: v :: ws)
  | bare {o s is ws} : o ∈ opts → OptArg o → s ∈ o.strings → DashNext ws → Reads opts is ws → Reads opts (.bare o :: is) (s :: ws)
  | rest {o s ws} : o ∈ opts → o.action = .storeRemainder → s ∈ o.strings → ws ≠ [] → Reads opts [.rest o ws] (s :: ws)
  | words {us is ws} : us ≠ [] → (∀ u ∈ us, ¬ Dash u) → DashNext ws → Reads opts is ws → Reads opts (.words us :: is) (us ++ ws)
  | long {o s v is ws} : o ∈ opts → TakesArg o → ('-' :: '-' :: s) ∈ o.strings → Reads opts is (('-' :: '-' :: s) :: v :: ws) →
      Reads opts is (('-' :: '-' :: s ++ '=' :: v) :: ws)
  | bundle {c d cs vs is ws} : c ≠ '-' → Letters opts (c :: d :: cs) vs → Reads opts is (vs ++ ws) →
      Reads opts is (('-' :: c :: d :: cs) :: ws)

end FF.Spec
