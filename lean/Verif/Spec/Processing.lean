import Verif.Model.Types
import Verif.Spec.Path
import Verif.Spec.Arguments
import Verif.Spec.Console
/-! What `--limit`, `--sort`, `--count` and `--exec-batch` are meant to do. -/
namespace FF.Spec

/-- The manual on `--limit`: the position meant by a number, negative numbers count from the end. -/
def position (n : Nat) (i : Int) : Int := if 0 ≤ i then i else n + i

/-- The elements at the positions that satisfy `p`, in order, the first one has position `k`. -/
def atPositions {α : Type} (p : Int → Prop) [DecidablePred p] (k : Int) : List α → List α
  | [] => []
  | x :: xs => if p k then x :: atPositions p (k + 1) xs else atPositions p (k + 1) xs

/-- Lexicographic order: a list comes before every longer list that begins with it, otherwise the first difference decides. -/
inductive Lex {α : Type} (lt : α → α → Prop) : List α → List α → Prop
  | shorter (p : List α) (c : α) (r : List α) : Lex lt p (p ++ c :: r)
  | differ (p : List α) {x y : α} (r r' : List α) : lt x y → Lex lt (p ++ x :: r) (p ++ y :: r')

/-- Order of strings by code points. -/
def StrBefore : Str → Str → Prop := Lex (fun x y : Char => x.toNat < y.toNat)

/-- A value that results are sorted by. -/
inductive SortVal
  | text (s : Str)
  | list (l : List Str)
  | num (n : Int)
  | flag (b : Bool)
  deriving DecidableEq

/-- The order of the values of an attribute. -/
inductive SortVal.Before : SortVal → SortVal → Prop
  | text {a b} : StrBefore a b → Before (.text a) (.text b)
  | list {a b} : Lex StrBefore a b → Before (.list a) (.list b)
  | num {a b} : a < b → Before (.num a) (.num b)
  | flag : Before (.flag false) (.flag true)

/-- A path without the dots at the beginning of its components; `start` tells that a component begins. -/
def undot : Bool → Str → Str
  | _, [] => []
  | start, c :: s => if start ∧ c = '.' then undot true s else c :: undot (c = '/') s

/-- The value of an attribute for sorting: case does not matter for strings, in paths the dots of hidden files do not matter, and an attribute
that the file does not have is sorted as the empty string or list, as 0 or as false. -/
def sortVal (low : Str → Str) (ty : Ty) (v : Option Val) : SortVal :=
  match ty, v with
  | .string, some (.str s) => .text (low s)
  | .path, some (.str s) => .text (undot true (low s))
  | .fileType, some (.str s) => .text s
  | .listOfStrings, some (.strs l) => .list l
  | .boolean, some (.bool b) => .flag b
  | .string, _ | .path, _ | .fileType, _ => .text []
  | .listOfStrings, _ => .list []
  | .boolean, _ => .flag false
  | _, some (.int n) => .num n
  | _, _ => .num 0

/-- The value is one of the type. -/
def HasType (ty : Ty) (v : Val) : Prop :=
  match ty, v with
  | .string, .str _ | .path, .str _ | .fileType, .str _ => True
  | .listOfStrings, .strs _ => True
  | .boolean, .bool _ => True
  | .number, .int _ | .mode, .int _ | .size, .int _ | .time, .int _ | .duration, .int _ => True
  | _, _ => False

/-! Natural order -/

/-- A part of a name. -/
inductive Tok
  | text (s : Str)
  | num (n : Nat)
  deriving DecidableEq

/-- The order of texts is by code points, the one of numbers by their values. -/
inductive Tok.Before : Tok → Tok → Prop
  | text {a b} : StrBefore a b → Before (.text a) (.text b)
  | num {a b} : a < b → Before (.num a) (.num b)

/-- A run of decimal digits and its value; `dec` is the value of a digit. -/
inductive NumRun (dec : Char → Option Nat) : Str → Nat → Prop
  | one {c d} : dec c = some d → NumRun dec [c] d
  | snoc {w n c d} : NumRun dec w n → dec c = some d → NumRun dec (w ++ [c]) (10 * n + d)

/-- A name as a sequence of texts (the first and the last one may be empty) and numbers that are as long as possible. -/
inductive Chunked (dec : Char → Option Nat) : Str → List Tok → Prop
  | last {w} : (∀ c ∈ w, dec c = none) → Chunked dec w [.text w]
  | cons {w d n r ts} : (∀ c ∈ w, dec c = none) → NumRun dec d n → (∀ c, r.head? = some c → dec c = none) → Chunked dec r ts →
      Chunked dec (w ++ d ++ r) (.text w :: .num n :: ts)

/-- A name is made of a stem and extensions that do not begin with a digit, as many as possible. -/
inductive Extensions (dec : Char → Option Nat) : Str → Str → List Str → Prop
  | stop {s} : (∀ stem e, StemExt s stem ('.' :: e) → e = [] ∨ ∃ c, e.head? = some c ∧ dec c ≠ none) → Extensions dec s s []
  | ext {s stem c e st exts} : StemExt s stem ('.' :: c :: e) → dec c = none → Extensions dec stem st exts → Extensions dec s st (exts ++ [c :: e])

/-- A file name as what it is sorted by: its stem, then its extensions. -/
def Natural (dec : Char → Option Nat) (s : Str) (ts : List Tok) (exts : List Str) : Prop :=
  ∃ stem, Extensions dec s stem exts ∧ Chunked dec stem ts

/-- Natural order of file names: by stem, numbers in it by value; then names without extensions, then by extensions. -/
def NaturalBefore (dec : Char → Option Nat) (a b : Str) : Prop :=
  ∃ ta ea tb eb, Natural dec a ta ea ∧ Natural dec b tb eb ∧ (Lex Tok.Before ta tb ∨ (ta = tb ∧ Lex StrBefore ea eb))

/-- Natural order of paths without extensions: the components one after the other, numbers in them by value. -/
def NaturalPathBefore (dec : Char → Option Nat) (a b : List Str) : Prop :=
  ∃ ta tb, All2 (Chunked dec) a ta ∧ All2 (Chunked dec) b tb ∧ Lex (Lex Tok.Before) ta tb

/-! Counting -/

/-- The sum of an attribute over the results that have it. -/
def valueSum {α : Type} (value : α → Option Val) (results : List α) : Int :=
  (results.map (fun e => match value e with
    | some (.int n) => n
    | _ => 0)).sum

/-- The number of results with this value. -/
def valueCount {α : Type} (value : α → Option Val) (results : List α) (v : Val) : Nat := (results.filter (fun e => value e = some v)).length

/-- The different values of the results. -/
def IsValues {α : Type} (value : α → Option Val) (results : List α) (vs : List Val) : Prop := vs.Nodup ∧ ∀ v, v ∈ vs ↔ ∃ e ∈ results, value e = some v

/-- The lines of the statistics for one attribute: the sum of sizes and durations, or for each value the number of results that have it. `shown` is how
a value is printed, `str` how a number. -/
def statLines {α : Type} (str : Nat → Str) (ty : Ty) (label : Str) (shown : Val → Str) (value : α → Option Val) (results : List α) (vs : List Val) : List Str :=
  if ty = .size ∨ ty = .duration then
    if vs = [] then [] else [label ++ "=".toList ++ shown (.int (valueSum value results))]
  else vs.map (fun v => label ++ "[".toList ++ shown v ++ "]=".toList ++ str (valueCount value results v))

/-- The JSON value of the statistics for one attribute; without `raw` a sum is a string. -/
def IsStat {α : Type} (ty : Ty) (raw : Bool) (shown : Val → Str) (value : α → Option Val) (results : List α) (j : JV) : Prop :=
  (∃ e ∈ results, value e ≠ none) ∧
  if ty = .size ∨ ty = .duration then
    j = if raw then .num (valueSum value results) else .str (shown (.int (valueSum value results)))
  else ∃ d : List (Str × Nat), j = .obj (d.map (fun kn => (kn.1, .num kn.2))) ∧ (d.map Prod.fst).Nodup ∧
    ∀ k n, (k, n) ∈ d ↔ ∃ v, k = shown v ∧ n = valueCount value results v ∧ 0 < n

end FF.Spec
