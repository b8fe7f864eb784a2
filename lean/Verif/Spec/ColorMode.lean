import Verif.Spec.ArgParse
/-! When output is coloured. -/
namespace FF.Spec

/-- Colours are asked for: always, or on a terminal. -/
def InColor (setting : Str) (terminal : Bool) : Prop := setting = "always".toList ∨ setting = "auto".toList ∧ terminal = true

/-- The value of `--color`: that of the last one, or else what the environment variable NO_COLOR says. -/
inductive ColorSetting (args : ArgOpt) (noColor : Bool) : List CItem → Str → Prop
  | default {items} : (∀ i ∈ items, i.dest args ≠ "color".toList) → ColorSetting args noColor items (if noColor then "never".toList else "auto".toList)
  | given {a b o v} : o.dest = "color".toList → (∀ i ∈ b, i.dest args ≠ "color".toList) → ColorSetting args noColor (a ++ .arg o v :: b) v

end FF.Spec
