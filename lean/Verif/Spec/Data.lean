import Verif.Model.Data
import Verif.Model.Attributes
import Verif.Spec.Processing
namespace FF.Spec
open FF

/-- Values of a type. -/
inductive IsOf : Ty → PyVal → Prop
  | text {ty s} : ty = .string ∨ ty = .path ∨ ty = .fileType → IsOf ty (.atom (.str s))
  | list (l : List Str) : IsOf .listOfStrings (.list (l.map .str))
  | set (l : List Str) : IsOf .listOfStrings (.set (l.map .str))
  | flag {b} : IsOf .boolean (.atom (.bool b))
  | number {ty n} : ty = .number ∨ ty = .mode ∨ ty = .size ∨ ty = .time ∨ ty = .duration → IsOf ty (.atom (.int n))

/-- Python takes True and False as numbers, too. -/
def Passes (ty : Ty) (v : PyVal) : Prop := IsOf ty v ∨ (ty = .number ∨ ty = .mode ∨ ty = .size ∨ ty = .time ∨ ty = .duration) ∧ ∃ b, v = .atom (.bool b)

/-- All values are of attributes that the plugin declares, and of their types. -/
def AsDeclared (p : PluginDef) (pairs : List (Str × PyVal)) : Prop := ∀ r ∈ pairs, ∃ ty, (r.1, ty) ∈ p.attrs ∧ IsOf ty r.2

/-- The same with True and False as numbers. -/
def AlmostDeclared (p : PluginDef) (pairs : List (Str × PyVal)) : Prop := ∀ r ∈ pairs, ∃ ty, (r.1, ty) ∈ p.attrs ∧ Passes ty r.2

/-- The value as tests and output fields see it; sets are lists in the order in which Python goes through them. -/
def valueOf : PyVal → Option Val
  | .atom (.str s) => some (.str s)
  | .atom (.int n) => some (.int n)
  | .atom (.bool b) => some (.bool b)
  | .list l | .set l => some (.strs (l.filterMap fun a => match a with
    | .str s => some s
    | _ => none))
  | _ => none

/-- The value that counts if a plugin gives several for the same attribute. -/
def lastFor {β : Type} (name : Str) (pairs : List (Str × β)) : Option β := ((pairs.filter (fun r => r.1 = name)).getLast?).map Prod.snd

/-- Tags are texts, sizes are numbers, or there are none. -/
structure Usual (t : RawTrack) : Prop where
  tag : ∀ a ∈ ["performer", "album", "title", "genre", "recorded_date", "format"], t.get a.toList = .none ∨ ∃ s, t.get a.toList = .str s
  size : ∀ a ∈ ["width", "height"], t.get a.toList = .none ∨ ∃ n, t.get a.toList = .int n
  duration : t.get "duration".toList = .none ∨ ∃ n, t.get "duration".toList = .int n

end FF.Spec
