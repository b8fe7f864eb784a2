import Verif.Model.Cache
/-! What the metadata cache is meant to do. -/
namespace FF.Spec

/-- A table is one of the tables of a plugin, whatever the version. -/
def TableOf (name : Str) (table : Str) : Prop := ∃ cacheTag, table = sqlTableName name cacheTag

/-- The data of an entry without a cache. -/
def plainData {E T V D : Type} (pl : CPlugin E T V D) (e : E) : D :=
  if pl.canHandle e = false then pl.empty
  else if pl.useCache = false then pl.process e none
  else match pl.cache e with
    | none => pl.empty
    | some v => pl.process e (some v)

/-- The row that a sequence of writes leaves for a path: the last one. -/
inductive LastWrite (path : Bytes) : List Row → Row → Prop
  | here {before after : List Row} {r : Row} : r.path = path → (∀ x ∈ after, x.path ≠ path) → LastWrite path (before ++ r :: after) r

/-- Cleaning keeps the tables and removes the rows of files that do not exist. -/
def Cleaned (pathExists : Bytes → Bool) (old new : Db) : Prop :=
  new.map (·.1) = old.map (·.1) ∧
  ∀ name r, (∃ rows, (name, rows) ∈ new ∧ r ∈ rows) ↔ (∃ rows, (name, rows) ∈ old ∧ r ∈ rows) ∧ pathExists r.path = true

end FF.Spec
