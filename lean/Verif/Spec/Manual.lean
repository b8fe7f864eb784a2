import Verif.Model.Manual
import Verif.Spec.Help
/-! What is shown of the manual, and what should be. -/
namespace FF.Spec

/-- The characters of a text, without white space and the backticks that mark words. -/
def textChars (K : CharKinds) (t : Str) : Str := t.filter fun c => !Unseen K c

/-- The characters a reader sees. -/
def shownChars (K : CharKinds) (l : List Seen) : Str :=
  textChars K (l.flatMap fun
    | .heading s => s
    | .item s => s
    | .brk => []
    | .ch c => [c])

/-- What should be shown of a template: the characters of its lines, with that of the included lines instead of the markers. -/
def expectedChars (K : CharKinds) (inc : Str → Option (List Str)) : Nat → List Str → Str
  | 0, _ => []
  | n + 1, lines => lines.flatMap fun l => if isMarker K l then expectedChars K inc n ((inc (lstripK K (rstripK K l) |>.drop 2)).getD []) else textChars K l

/-- An empty line. -/
def blankLine (K : CharKinds) (l : Str) : Bool := l.all K.space

/-- Every marker stands in a line of its own that is indented, after an empty line or one that is not indented, and before an empty line. -/
def markersAlone (K : CharKinds) : Bool → List Str → Bool
  | _, [] => true
  | before, l :: ls =>
    (!isMarker K l || (before && 0 < indentOf K (rstripK K l) && ls.head?.all (blankLine K))) && markersAlone K (blankLine K l || indentOf K (rstripK K l) = 0) ls

/-- A paragraph that can be shown: no backslashes, and nothing that looks like a request. -/
def PlainParagraph (K : CharKinds) (line : Str) : Prop :=
  if isHeader line then True
  else if startsWith (lstripK K line) ['$'] then OneLine line
  else if hasDouble (lstripK K line) then PlainName (splitDouble (lstripK K line)).1 ∧ PlainText K (splitDouble (lstripK K line)).2
  else PlainText K line

/-- A template that can be shown. -/
def PlainManual (K : CharKinds) (inc : Str → Option (List Str)) : Nat → List Str → Prop
  | 0, _ => False
  | n + 1, lines => markersAlone K true lines = true ∧ ∀ p ∈ wrapLines K lines,
      if isMarker K p then ∃ inner, inc ((lstripK K (rstripK K p)).drop 2) = some inner ∧ PlainManual K inc n inner else PlainParagraph K (rstripK K p)

/-- A help text of an option that can be shown. -/
def PlainHelp (K : CharKinds) (t : Str) : Prop := OneLine t ∧ ∃ c, (lstripK K t).head? = some c ∧ c ≠ '.' ∧ c ≠ '\''

/-- What should be shown of the options: the groups, the spellings and arguments, and the help texts. -/
def optionsShown (K : CharKinds) (items : List HelpItem) : Str :=
  items.flatMap fun
    | .group name => textChars K name ++ [':']
    | .option strings action metavar help => textChars K (formatOption strings action (optionMetavar strings action metavar)) ++ textChars K help

end FF.Spec
