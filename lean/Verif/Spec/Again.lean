import Verif.Spec.Expression
import Verif.Spec.Types
import Verif.Model.Search
import Verif.Model.Field
/-! A value that has been printed, used in a test. -/
namespace FF.Spec

/-- The test `NAME=TEXT`. -/
def equals (name text : Str) : Str := name ++ '=' :: text

/-- A text that looks like a reference: `{}PATH` or `{ATTRIBUTE}PATH`. -/
def LooksLikeReference (cc : CharClass) (v : Str) : Prop := ∃ r rest, (r = [] ∨ AttrName cc r) ∧ rest ≠ [] ∧ v = '{' :: r ++ '}' :: rest

/-- Values that are printed, with this modifier, in a way in which they can be given in tests. -/
inductive ReadBack (cc : CharClass) : Ty → Option Char → Val → Prop
  /-- texts in one line that do not begin with blanks -/
  | text {ty : Ty} {m : Option Char} {s : Str} : ty = .string ∨ ty = .path → PlainValue cc s → ¬LooksLikeReference cc s → ReadBack cc ty m (.str s)
  | kind {m : Option Char} {short k : Str} : (short, k) ∈ fileTypeNames → ReadBack cc .fileType m (.str k)
  | bool {m : Option Char} {b : Bool} : ReadBack cc .boolean m (.bool b)
  | number {m : Option Char} {n : Int} : m = none ∨ m = some 'h' → 0 ≤ n → ReadBack cc .number m (.int n)
  | size {n : Int} : 0 ≤ n → ReadBack cc .size none (.int n)
  | time {n : Int} : n.natAbs < 2 ^ 53 → ReadBack cc .time none (.int n)
  /-- durations as hours, minutes and seconds -/
  | duration {n : Int} : 0 ≤ n → ReadBack cc .duration (some 'h') (.int n)
  /-- modes as octal numbers -/
  | mode {n : Int} : 0 ≤ n → ReadBack cc .mode (some 'o') (.int n)

/-- What a test for a value is to find: the same value, in the same or any case as --case says, and the same permission bits of modes. -/
def SameValue (low : Str → Str) (case : CaseMode) (ty : Ty) (v w : Val) : Prop :=
  match ty, v, w with
  | .string, .str s, .str s' | .path, .str s, .str s' =>
    match case with
    | .smart => if low s = s then low s' = s else s' = s
    | .ignore => low s' = low s
    | .sensitive => s' = s
  | .mode, .int n, .int n' => n.toNat % 4096 = n'.toNat % 4096
  | _, _, _ => w = v

end FF.Spec
