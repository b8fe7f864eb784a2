import Verif.Model.PyStr
/-! Specification of the test expression language (manpage section on tests): grammar and Boolean meaning. -/
namespace FF.Spec

/-- Case-insensitive keyword. -/
def Kw (k : String) (tok : Str) : Prop := tok.map Char.toUpper = k.toList
/-- Opening brackets. -/
def Open (tok : Str) : Prop := tok = "(".toList ∨ tok = "{{".toList
/-- Closing brackets. -/
def Close (tok : Str) : Prop := tok = ")".toList ∨ tok = "}}".toList
/-- A word that is a test. -/
def Word (tok : Str) : Prop := ¬ Open tok ∧ ¬ Close tok ∧ ¬ Kw "AND" tok ∧ ¬ Kw "OR" tok ∧ ¬ Kw "NOT" tok

/-- Boolean formulas over tests. -/
inductive Formula
  | atom (s : Str)
  | neg (f : Formula)
  | conj (f g : Formula)
  | disj (f g : Formula)

/-- Truth value of a formula. -/
def Formula.eval (v : Str → Bool) : Formula → Bool
  | .atom s => v s
  | .neg f => !f.eval v
  | .conj f g => f.eval v && g.eval v
  | .disj f g => f.eval v || g.eval v

/-- The tests occurring in a formula. -/
def Formula.atoms : Formula → List Str
  | .atom s => [s]
  | .neg f => f.atoms
  | .conj f g => f.atoms ++ g.atoms
  | .disj f g => f.atoms ++ g.atoms

/-- Precedence levels. -/
inductive Level | prim | item | conj | disj

/-- `Derives l ts f`: the words `ts` are a spelling of formula `f` at precedence level `l`.
NOT applies to a test or bracket; items side by side are a conjunction, ANDs in between, before or after are optional;
conjunctions separated by OR are a disjunction. -/
inductive Derives : Level → List Str → Formula → Prop
  | atom {t} : Word t → Derives .prim [t] (.atom t)
  | group {o ts c f} : Open o → Close c → Derives .disj ts f → Derives .prim (o :: ts ++ [c]) f
  | prim {ts f} : Derives .prim ts f → Derives .item ts f
  | neg {n ts f} : Kw "NOT" n → Derives .prim ts f → Derives .item (n :: ts) (.neg f)
  | item {ts f} : Derives .item ts f → Derives .conj ts f
  | andBefore {a ts f} : Kw "AND" a → Derives .conj ts f → Derives .conj (a :: ts) f
  | andAfter {a ts f} : Kw "AND" a → Derives .conj ts f → Derives .conj (ts ++ [a]) f
  | conj {ts us f g} : Derives .conj ts f → Derives .conj us g → Derives .conj (ts ++ us) (.conj f g)
  | single {ts f} : Derives .conj ts f → Derives .disj ts f
  | disj {ts o us f g} : Derives .disj ts f → Kw "OR" o → Derives .disj us g → Derives .disj (ts ++ o :: us) (.disj f g)

/-- No alternative inside brackets is empty: no OR follows (with only ANDs in between) an opening bracket or another OR. -/
def NoEmptyAlt (ts : List Str) : Prop :=
  ∀ a x ands o b, ts = a ++ x :: ands ++ o :: b → (Open x ∨ Kw "OR" x) → (∀ t ∈ ands, Kw "AND" t) → ¬ Kw "OR" o

/-- Brackets are balanced: `Balanced ts` (bracket kind is not considered). -/
inductive Balanced : List Str → Prop
  | nil : Balanced []
  | other {t ts} : ¬ Open t → ¬ Close t → Balanced ts → Balanced (t :: ts)
  | nest {o m c ts} : Open o → Close c → Balanced m → Balanced ts → Balanced (o :: m ++ c :: ts)

/-- Every NOT is followed by a test or an opening bracket. -/
def NotsFollowed (ts : List Str) : Prop :=
  ∀ a n b, ts = a ++ n :: b → Kw "NOT" n → ∃ t b', b = t :: b' ∧ (Word t ∨ Open t)

end FF.Spec
