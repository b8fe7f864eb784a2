import Verif.Model.Help
/-! What a reader sees of a page in the language of roff(7) with the macros of man(7), as far as ff uses them, and what they are supposed to see. -/
namespace FF.Spec

/-- What is seen: headings of sections, titles of items, line breaks, and the characters of the text. -/
inductive Seen where
  | heading (s : Str)
  | item (s : Str)
  | brk
  | ch (c : Char)
  deriving DecidableEq, Repr

/-- A text without the font changes `\fB`, `\fI` and `\fR`. -/
def dropFonts : Str → Str
  | '\\' :: 'f' :: _ :: s => dropFonts s
  | c :: s => c :: dropFonts s
  | [] => []

/-- A request, i.e. a line that begins with a dot or an apostrophe; those that are not known are ignored, as roff does. -/
def request (line : Str) : List Seen :=
  if startsWith line "SH ".toList then [.heading (line.drop 3)]
  else if startsWith line "IP \"".toList then [.item (dropFonts ((line.drop 4).takeWhile (· ≠ '"')))]
  else if line = "br".toList then [.brk]
  else []

/-- Where a reader is in the text. -/
inductive RoffMode where
  /-- at the beginning of a line -/
  | start
  /-- in a line of text -/
  | mid
  /-- after a backslash -/
  | esc
  /-- after a backslash and an f -/
  | font
  /-- in a request, of which this has been read -/
  | req (line : Str)
  deriving DecidableEq

/-- What is seen of a page. -/
def seen : RoffMode → Str → List Seen
  | .req line, [] => request line
  | .req line, c :: s => if c = '\n' then request line ++ seen .start s else seen (.req (line ++ [c])) s
  | .esc, c :: s => if c = 'f' then seen .font s else .ch c :: seen .mid s
  | .font, _ :: s => seen .mid s
  | .start, c :: s =>
    if c = '\\' then seen .esc s else if c = '\n' then seen .start s else if c = '.' ∨ c = '\'' then seen (.req []) s else .ch c :: seen .mid s
  | .mid, c :: s => if c = '\\' then seen .esc s else if c = '\n' then seen .start s else .ch c :: seen .mid s
  | _, [] => []

/-- Blanks, which are of no importance, and backticks, which mark what is shown in another font. -/
def Unseen (K : CharKinds) (c : Char) : Bool := K.space c || c = '`'

/-- What is seen, without those. -/
def visible (K : CharKinds) (l : List Seen) : List Seen := l.filter fun x => match x with | .ch c => !Unseen K c | _ => true

/-- What should be seen of a text. -/
def textSeen (K : CharKinds) (t : Str) : List Seen := (t.filter fun c => !Unseen K c).map .ch

/-- The white space is as in python, as far as it matters here. -/
structure Blanks (K : CharKinds) : Prop where
  blank : K.space ' ' = true
  newline : K.space '\n' = true
  printable : ∀ c : Char, 33 ≤ c.toNat → c.toNat < 127 → K.space c = false

/-- These are no digits. -/
def NotDigits (K : CharKinds) : Prop := K.digit '\n' = false ∧ K.digit '\\' = false ∧ K.digit '-' = false

/-- A text that does not look like a request anywhere: it has no backslash, and none of its paragraphs begins with a dot or an apostrophe. -/
def PlainText (K : CharKinds) (t : Str) : Prop :=
  '\\' ∉ t ∧ ∀ p ∈ splitNN t, ∀ c, (p.dropWhile K.space).head? = some c → c ≠ '.' ∧ c ≠ '\''

/-- A name that can be shown as a heading or title. -/
def PlainName (n : Str) : Prop := '\n' ∉ n ∧ '"' ∉ n ∧ '\\' ∉ n

/-- A text in one line without backslashes. -/
def OneLine (t : Str) : Prop := '\n' ∉ t ∧ '\\' ∉ t

/-- The attributes of a plugin as they should be seen: the name, which for those of the plugin file may be used without it, the type with all of its operators, and the description. -/
def attributesSeen (K : CharKinds) (p : HelpPlugin) : List Seen :=
  p.attributes.flatMap fun a => .item ((if p.name = "file".toList then "[file.]".toList else p.name ++ ".".toList) ++ a.1) ::
    textSeen K "Type:".toList ++ textSeen K a.2.1.name ++ textSeen K "(".toList ++ textSeen K a.2.1.operators.flatten ++ textSeen K ")".toList ++ .brk :: textSeen K a.2.2

/-- The names and texts of the attributes can be shown. -/
def PlainAttributes (K : CharKinds) (p : HelpPlugin) : Prop :=
  PlainName p.name ∧ ∀ a ∈ p.attributes, PlainName a.1 ∧ (OneLine a.2.1.name ∧ ∀ o ∈ a.2.1.operators, OneLine o) ∧ PlainText K a.2.2

/-- The details of a plugin as they should be seen. -/
def detailSeen (K : CharKinds) (p : HelpPlugin) (full : Bool) : List Seen :=
  textSeen K "Name:".toList ++ textSeen K p.name ++ .brk :: textSeen K "Source:".toList ++ textSeen K p.source ++ .brk :: textSeen K "Path:".toList ++ textSeen K p.path ++
    .brk :: textSeen K "Usescache:".toList ++ textSeen K (if p.useCache then "Yes".toList else "No".toList) ++ [.brk] ++
    if full then textSeen K "Author:".toList ++ textSeen K p.author ++ .brk :: textSeen K "Email:".toList ++ textSeen K p.email ++ .brk :: textSeen K "Url:".toList ++
      textSeen K p.url ++ [.brk] else []

/-- The details can be shown. -/
def PlainDetails (p : HelpPlugin) : Prop := OneLine p.name ∧ OneLine p.source ∧ OneLine p.path ∧ OneLine p.author ∧ OneLine p.email ∧ OneLine p.url

/-- The title can be shown. -/
def PlainEnv (E : HelpEnv) : Prop := '\n' ∉ E.date ∧ '\n' ∉ E.version

end FF.Spec
