import Verif.Spec.Field
/-! What is said about output, independently of the code: padding, escape sequences, JSON (RFC 8259). -/
namespace FF.Spec

/-- `w` padded to the width `n`: spaces on the left, or on the right if the width is negative; never truncated. -/
def Padded (n : Int) (s out : Str) : Prop :=
  ∃ k, k = n.natAbs - s.length ∧ out = if n < 0 then s ++ List.replicate k ' ' else List.replicate k ' ' ++ s

/-- `v` is the value of an item `key=v` of LS_COLORS (a list separated by colons), or "0". -/
def ColorValue (colors v : Str) : Prop :=
  v = ['0'] ∨ (':' ∉ v ∧ ∃ a b, colors = a ++ '=' :: (v ++ b) ∧ (b = [] ∨ ∃ b', b = ':' :: b'))

/-- An escape sequence that selects a colour of LS_COLORS. -/
def IsEscape (colors e : Str) : Prop := ∃ v, v ≠ [] ∧ ColorValue colors v ∧ e = ['\x1b', '['] ++ v ++ ['m']

/-- `Inserted E a b`: `b` is `a` with sequences from `E` inserted. -/
inductive Inserted (E : Str → Prop) : Str → Str → Prop
  | nil : Inserted E [] []
  | char {a b : Str} (c : Char) : Inserted E a b → Inserted E (c :: a) (c :: b)
  | esc {a b e : Str} : E e → Inserted E a b → Inserted E a (e ++ b)

/-- JSON values, as far as ff produces them. -/
inductive JV
  | null
  | bool (b : Bool)
  | num (n : Int)
  | str (s : Str)
  | arr (l : List JV)
  | obj (l : List (Str × JV))

/-- RFC 8259, section 7: a character of a string and how it may be written. -/
inductive JChar : Char → Str → Prop
  | plain (c : Char) : 0x20 ≤ c.toNat → c ≠ '"' → c ≠ '\\' → JChar c [c]
  | quote : JChar '"' ['\\', '"']
  | backslash : JChar '\\' ['\\', '\\']
  | bs : JChar '\x08' ['\\', 'b']
  | ff : JChar '\x0c' ['\\', 'f']
  | lf : JChar '\n' ['\\', 'n']
  | cr : JChar '\r' ['\\', 'r']
  | tab : JChar '\t' ['\\', 't']
  | hex {c : Char} {ds : Str} : ds.length = 4 → (∀ d ∈ ds, d ∈ baseDigits) → readBase 16 ds = c.toNat → JChar c ('\\' :: 'u' :: ds)
  | pair {c : Char} {hi lo : Str} : hi.length = 4 → (∀ d ∈ hi, d ∈ baseDigits) → lo.length = 4 → (∀ d ∈ lo, d ∈ baseDigits) →
      0xD800 ≤ readBase 16 hi → readBase 16 hi < 0xDC00 → 0xDC00 ≤ readBase 16 lo → readBase 16 lo < 0xE000 →
      c.toNat = 0x10000 + (readBase 16 hi - 0xD800) * 0x400 + (readBase 16 lo - 0xDC00) → JChar c (('\\' :: 'u' :: hi) ++ ('\\' :: 'u' :: lo))

/-- The characters of a string. -/
inductive JChars : Str → Str → Prop
  | nil : JChars [] []
  | cons {c : Char} {s t u : Str} : JChar c t → JChars s u → JChars (c :: s) (t ++ u)

/-- A string. -/
def JString (s t : Str) : Prop := ∃ u, JChars s u ∧ t = '"' :: (u ++ ['"'])

/-- RFC 8259, section 6, integers. -/
def JInt (n : Int) (t : Str) : Prop := ∃ u, NumeralIn 10 u n.natAbs ∧ t = (if n < 0 then ['-'] else []) ++ u

/-- White space. -/
def JSpace (t : Str) : Prop := ∀ c ∈ t, c = ' ' ∨ c = '\n' ∨ c = '\r' ∨ c = '\t'

mutual
/-- RFC 8259: `JText v t` says that the text `t` denotes the value `v`. -/
inductive JText : JV → Str → Prop
  | null : JText .null "null".toList
  | true : JText (.bool true) "true".toList
  | false : JText (.bool false) "false".toList
  | num {n : Int} {t : Str} : JInt n t → JText (.num n) t
  | str {s t : Str} : JString s t → JText (.str s) t
  | arr {l : List JV} {t : Str} : JItems l t → JText (.arr l) ('[' :: (t ++ [']']))
  | obj {l : List (Str × JV)} {t : Str} : JMembers l t → JText (.obj l) ('{' :: (t ++ ['}']))
/-- The items of an array, separated by commas. -/
inductive JItems : List JV → Str → Prop
  | nil : JItems [] []
  | one {v : JV} {t : Str} : JText v t → JItems [v] t
  | cons {v w : JV} {l : List JV} {t sp u : Str} : JText v t → JSpace sp → JItems (w :: l) u → JItems (v :: w :: l) (t ++ ',' :: (sp ++ u))
/-- The members of an object, separated by commas. -/
inductive JMembers : List (Str × JV) → Str → Prop
  | nil : JMembers [] []
  | one {k : Str} {v : JV} {kt sp t : Str} : JString k kt → JSpace sp → JText v t → JMembers [(k, v)] (kt ++ ':' :: (sp ++ t))
  | cons {k : Str} {v : JV} {m : Str × JV} {l : List (Str × JV)} {kt sp t sp' u : Str} : JString k kt → JSpace sp → JText v t → JSpace sp' →
      JMembers (m :: l) u → JMembers ((k, v) :: m :: l) (kt ++ ':' :: (sp ++ (t ++ ',' :: (sp' ++ u))))
end

end FF.Spec
