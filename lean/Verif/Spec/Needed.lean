import Verif.Spec.Expr
/-! Which tests have to be made. -/
namespace FF.Spec

/-- A test holds; a missing attribute counts as false. -/
def Holds {T : Type} (env : T → Option Bool) (t : T) : Prop := env t = some true

/-- Two entries for which the tests `ts` have the same outcome. -/
def AgreeOn {T : Type} (env env' : T → Option Bool) (ts : List T) : Prop := ∀ t ∈ ts, Holds env t ↔ Holds env' t

/-- Alternatives, each of them a list of words, separated by `or`. -/
def alternatives (or' : Str) : List (List Str) → List Str
  | [] => []
  | [g] => g
  | g :: gs => g ++ or' :: alternatives or' gs

/-- The order in which things are taken up: all of them, the ones with lower rank first, those with the same rank as they were. -/
structure Ranked {α : Type} (rank : α → Nat) (given order : List α) : Prop where
  all : order.Perm given
  first : order.Pairwise fun a b => rank a ≤ rank b
  same : ∀ k, order.filter (fun a => rank a = k) = given.filter (fun a => rank a = k)

/-- The beginning of a list up to the first element with `p`, which belongs to it; the whole list if there is none. -/
def UpTo {α : Type} (p : α → Prop) (order asked : List α) : Prop :=
  ∃ rest, order = asked ++ rest ∧ (∀ a ∈ asked.dropLast, ¬ p a) ∧ (rest ≠ [] → ∃ a, asked.getLast? = some a ∧ p a)

end FF.Spec
