import Verif.Model.Message
/-! What it means that a text is shown. -/
namespace FF.Spec

/-- What can be read of a text: all but the blanks. -/
def ink (blank : Char → Bool) : Str → Str
  | [] => []
  | c :: cs => if blank c then ink blank cs else c :: ink blank cs

/-- `space` knows the ASCII white space at least. -/
def _root_.FF.CharKinds.Ascii (K : CharKinds) : Prop := ∀ c ∈ [' ', '\t', '\n', '\r', '\x0b', '\x0c'], K.space c = true

/-- The ASCII white space. -/
def Whitespace (c : Char) : Prop := c ∈ [' ', '\t', '\n', '\r', '\x0b', '\x0c']

/-- `w` is a word of the text: it stands between white space or at the ends, and there is none in it. -/
structure WordOf (text w : Str) : Prop where
  nonempty : w ≠ []
  solid : ∀ c ∈ w, ¬ Whitespace c
  stands : ∃ pre post, text = pre ++ w ++ post ∧ (pre = [] ∨ ∃ q c, pre = q ++ [c] ∧ Whitespace c) ∧ (post = [] ∨ ∃ c q, post = c :: q ∧ Whitespace c)

/-- The message at position `i` is the first with its tag, or has none. -/
def FirstOfTag (ms : List Message) (i : Nat) : Prop :=
  ∃ m, ms[i]? = some m ∧ ∀ t, m.tag = some t → ∀ j m', j < i → ms[j]? = some m' → m'.tag ≠ some t

end FF.Spec
