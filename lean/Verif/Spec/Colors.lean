import Verif.Spec.Path
import Verif.Spec.Field
/-! What LS_COLORS says (dir_colors(5), ls): a list of items separated by colons, `di=01;34` for a kind of file and `*.gz=31` for an extension. -/
namespace FF.Spec

/-- An item of LS_COLORS. -/
inductive ColorItem
  | kind (k v : Str)
  | ext (e v : Str)
  deriving DecidableEq

/-- How an item is written. -/
def ColorItem.text : ColorItem → Str
  | .kind k v => k ++ '=' :: v
  | .ext e v => '*' :: '.' :: (e ++ '=' :: v)

/-- Kinds are two letters; extensions are not empty and consist of a single part; no value contains a colon. -/
def ColorItem.Ok : ColorItem → Prop
  | .kind k v => (∃ a b, k = [a, b] ∧ Letter a ∧ Letter b) ∧ ':' ∉ v
  | .ext e v => e ≠ [] ∧ (∀ c ∈ e, c ≠ '.' ∧ c ≠ ':' ∧ c ≠ '=' ∧ c ≠ '/') ∧ ':' ∉ v

/-- `LS_COLORS` consists of the items. -/
def IsColors (colors : Str) (items : List ColorItem) : Prop :=
  items ≠ [] ∧ (∀ i ∈ items, i.Ok) ∧ colors = joinWith ':' (items.map ColorItem.text)

/-- The colour of a kind: the last item for it counts. -/
def kindColor (k : Str) : List ColorItem → Option Str
  | [] => none
  | .kind k' v :: rest => (kindColor k rest).or (if k' = k then some v else none)
  | .ext _ _ :: rest => kindColor k rest

/-- The colour of an extension: the last item for it counts. -/
def extColor (e : Str) : List ColorItem → Option Str
  | [] => none
  | .ext e' v :: rest => (extColor e rest).or (if e' = e then some v else none)
  | .kind _ _ :: rest => extColor e rest

/-- The escape sequence for a colour; there is none for the empty colour. -/
def escape (v : Str) : Str := if v = [] then [] else '\x1b' :: '[' :: (v ++ ['m'])

/-- A text in a colour. Afterwards the colour is reset by means of the item `rs`, or 0. -/
def inColor (items : List ColorItem) (color : Option Str) (text : Str) : Str :=
  match color with
  | none => text
  | some v => escape v ++ text ++ escape ((kindColor "rs".toList items).getD ['0'])

/-- What there is to know about an entry. -/
structure Looks where
  symlink : Bool
  followed : Bool
  broken : Bool
  executable : Bool

/-- The colour of a name with the extension `e` (with its dot, if there is one). -/
def nameColor (items : List ColorItem) (l : Looks) (e : Str) : Option Str :=
  if l.symlink = true ∧ l.followed = false then
    if l.broken = true then kindColor "or".toList items else kindColor "ln".toList items
  else if l.executable = true then kindColor "ex".toList items
  else extColor (e.drop 1) items

/-- A coloured text in a column: the width counts the characters of the text `plain` alone, not the escape sequences. -/
def PaddedAs (n : Int) (plain colored out : Str) : Prop :=
  ∃ k, k = n.natAbs - plain.length ∧ out = if n < 0 then colored ++ List.replicate k ' ' else List.replicate k ' ' ++ colored

end FF.Spec
