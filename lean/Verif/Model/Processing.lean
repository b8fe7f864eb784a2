import Verif.Model.Field
import Verif.Model.Console
import Verif.Model.PySort
/-! Model of /repo/libff/processing.py: limiting, sorting and counting the collected results, and running commands on them. -/
namespace FF

/-! ### `--limit` -/

/-- CPython: an index of a slice of a list of length `n`. -/
def sliceIndex (n : Nat) (i : Int) : Nat := if i < 0 then (i + n).toNat else min i.toNat n

/-- CPython `l[start:stop]`. -/
def pySlice {α : Type} (l : List α) (start : Int) (stop : Option Int) : List α :=
  (l.take (match stop with
    | none => l.length
    | some j => sliceIndex l.length j)).drop (sliceIndex l.length start)

/-- processing.py:228-235 `entries_range`. -/
def entriesRange {α : Type} (limit : Option (Int × Option Int)) (entries : List α) : List α :=
  match limit with
  | none => entries
  | some (start, stop) => pySlice entries start stop

/-! ### `--sort` -/

/-- `a < b` on sort keys does not raise TypeError. -/
def comparable (a b : List SKey) : Bool := (keyLt a b).isSome && (keyLt b a).isSome

/-- Not `b < a`. -/
def keyLe (a b : List SKey) : Bool := match keyLt b a with
  | some true => false
  | _ => true

/-- All elements are comparable with all elements. -/
def allComparable (ks : List (List SKey)) : Bool := ks.all (fun a => ks.all (fun b => comparable a b))

/-- `entries.sort(key=render, reverse=reverse)`; `none` is an exception. CPython computes all keys first. It does not compare all pairs of keys, so
the exception is raised here in some cases in which it is not in CPython (three or more entries); in all cases in which this function returns a
list, CPython returns the same list. -/
def sortEntries {α : Type} (key : α → Option (List SKey)) (reverse : Bool) (entries : List α) : Option (List α) :=
  match mapOption (fun e => (key e).map (fun k => (k, e))) entries with
  | none => none
  | some ks => if allComparable (ks.map Prod.fst) then some ((pySortKey keyLe Prod.fst reverse ks).map Prod.snd) else none

/-- processing.py:252-257 `CollectiveMixin.finalize`, the entries. -/
def RenderEnv.finalizeEntries (R : RenderEnv) (D : DigitEnv) (sort : Option (List Field)) (reverse : Bool) (entries : List EntInfo) :
    Option (List EntInfo) :=
  match sort with
  | none => some entries
  | some fields => sortEntries (R.sortKey D fields) reverse entries

/-! ### `--count` -/

/-- A value of the counter: a sum, or a count of each value. -/
inductive CVal
  | sum (n : Int)
  | hist (h : List (Val × Nat))
  deriving DecidableEq

/-- Equality of `Field` objects: a tuple of attribute (a tuple of plugin and name, attribute.py:28), type, width and modifier. -/
def Field.same (a b : Field) : Bool := a.attr = b.attr && a.type = b.type && a.width = b.width && a.modifier = b.modifier

/-- processing.py:223 `self.count`. -/
structure CountState where
  /-- `self.count["_total"]` -/
  total : Option Nat
  /-- the other keys, in the order of their insertion -/
  fields : List (Field × CVal)
  deriving DecidableEq

/-- `d[key] = f(d.get(key))`; an existing key object is kept. -/
def countUpdate (key : Field) (f : Option CVal → CVal) : List (Field × CVal) → List (Field × CVal)
  | [] => [(key, f none)]
  | (k, v) :: rest => if k.same key then (k, f (some v)) :: rest else (k, v) :: countUpdate key f rest

/-- `counter[value] += 1`. -/
def histAdd (v : Val) : List (Val × Nat) → List (Val × Nat)
  | [] => [(v, 1)]
  | (k, n) :: rest => if k = v then (k, n + 1) :: rest else (k, n) :: histAdd v rest

/-- `counter[field] += value` for a value that is an integer. -/
def sumAdd (v : Val) (old : Option CVal) : CVal :=
  .sum ((match old with
    | some (.sum n) => n
    | _ => 0) + match v with
    | .int n => n
    | _ => 0)

/-- `counter.setdefault(field, Counter())[value] += 1`. -/
def histStep (v : Val) (old : Option CVal) : CVal :=
  .hist (histAdd v (match old with
    | some (.hist h) => h
    | _ => []))

/-- processing.py:273-286: one field of one entry. -/
def collectField (attr : Attr → Option Val) (count : List (Field × CVal)) (field : Field) : List (Field × CVal) :=
  match attr field.attr with
  | none => count
  | some v => match field.type.count with
    | .total => countUpdate field (sumAdd v) count
    | .count => countUpdate field (histStep v) count
    | .uncountable => count

/-- processing.py:269-286: one entry. -/
def collectEntry (fields : List Field) (count : CountState) (attr : Attr → Option Val) : CountState :=
  ⟨some (count.total.getD 0 + 1), fields.foldl (collectField attr) count.fields⟩

/-- processing.py:267-286 `collect_count`. -/
def collectCount (S : SearchEnv) (fields : List Field) (count : CountState) (entries : List EntInfo) : CountState :=
  entries.foldl (fun c e => collectEntry fields c (S.attr e)) count

/-- processing.py:237-250 `loop`: the counter after all chunks have been received. -/
def countLoop (S : SearchEnv) (fields : List Field) (chunks : List (List EntInfo)) : CountState :=
  chunks.foldl (collectCount S fields) ⟨none, []⟩

/-- A value of the dictionary that is printed. -/
inductive PVal
  | num (n : Int)
  | text (s : Str)
  | dict (d : List (Str × Nat))
  deriving DecidableEq

/-- processing.py:299-315: the value for a field. -/
def prepareValue (o : OutEnv) (f : Field) : CVal → PVal
  | .hist h => .dict (h.foldl (fun d (kv : Val × Nat) => dictSet d (f.type.output o f.modifier kv.1) kv.2) [])
  | .sum n => if f.modifier = none then .num n else .text (f.type.output o f.modifier (.int n))

/-- processing.py:288-317 `prepare_count`. -/
def prepareCount (o : OutEnv) (c : CountState) : List (Str × PVal) :=
  c.fields.foldl (fun d fv => dictSet d fv.1.label (prepareValue o fv.1 fv.2)) (match c.total with
    | none => []
    | some n => [("_total".toList, .num n)])

/-- processing.py:333: the key for sorting the values of a dictionary; `none` is ValueError. -/
def histKey (D : DigitEnv) (s : Str) : Option NatPart := natToken D s

/-- `sorted(value.items(), key=...)` of processing.py:332-333; `none` is an exception: TypeError if there are numbers and strings (any sorting
algorithm has to compare two neighbours of the result, one of them a number, the other one a string), or ValueError. -/
def sortHist (D : DigitEnv) (d : List (Str × Nat)) : Option (List (Str × Nat)) :=
  match mapOption (fun kv => (histKey D kv.1).map (fun k => (k, kv))) d with
  | none => none
  | some ks =>
    if ks.all (fun a => ks.all (fun b => (NatPart.lt a.1 b.1).isSome)) then
      some ((pySort (fun a b => NatPart.lt b.1 a.1 ≠ some true) ks).map Prod.snd)
    else none

/-- processing.py:330-337: the lines for one key. -/
def printValue (D : DigitEnv) (key : Str) : PVal → Option (List Str)
  | .num n => some [key ++ '=' :: intStr n]
  | .text s => some [key ++ '=' :: s]
  | .dict d => (sortHist D d).map (fun d => d.map (fun kv => key ++ '[' :: kv.1 ++ "]=".toList ++ natStr kv.2))

/-- processing.py:329-337: `print_count` without `--json`: the lines; `none` is an exception. The keys of a dictionary are different, so sorting the
items is sorting the keys. -/
def printCount (D : DigitEnv) (d : List (Str × PVal)) : Option (List Str) :=
  (mapOption (fun kv => printValue D kv.1 kv.2) (pySort (fun a b => strLe a.1 b.1) d)).map List.flatten

/-- json.dump of a value of the dictionary, sort_keys=True. -/
def jsonPVal : PVal → Str
  | .num n => intStr n
  | .text s => jsonStr s
  | .dict d => '{' :: joinStr ", ".toList ((pySort (fun a b => strLe a.1 b.1) d).map
      (fun kv => jsonStr kv.1 ++ ": ".toList ++ natStr kv.2)) ++ ['}']

/-- processing.py:325-327: `print_count` with `--json`. -/
def jsonCount (d : List (Str × PVal)) : Str :=
  '{' :: joinStr ", ".toList ((pySort (fun a b => strLe a.1 b.1) d).map (fun kv => jsonStr kv.1 ++ ": ".toList ++ jsonPVal kv.2)) ++ ['}', '\n']

/-! ### Commands -/

/-- What happens to `subprocess.run(args)`. -/
inductive RunResult
  /-- OSError with errno E2BIG -/
  | tooBig
  /-- another OSError -/
  | osError
  /-- the command was run and returned this code -/
  | exited (code : Int)
  deriving DecidableEq

/-- How the loop of processing.py:369-389 ends. -/
inductive BatchEnd
  | done
  /-- SubprocessError -/
  | failed
  /-- the model's fuel is used up -/
  | fuel
  deriving DecidableEq

/-- processing.py:369-389: the commands run (the entries passed and the return code) and the end. `run` may depend on what was run before. -/
def batchLoop {α : Type} (run : List (List α × Int) → List α → RunResult) : Nat → List (List α × Int) → List α → List α →
    List (List α × Int) × BatchEnd
  | 0, log, _, _ => (log, .fuel)
  | fuel + 1, log, entries, remainder =>
    if entries = [] then (log, .done) else
      match run log entries with
      | .exited code => batchLoop run fuel (log ++ [(entries, code)]) remainder []
      | .tooBig => batchLoop run fuel log (entries.take (entries.length / 2)) (entries.drop (entries.length / 2) ++ remainder)
      | .osError => (log, .failed)

end FF
