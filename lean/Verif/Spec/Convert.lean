import Verif.Model.PyInt
namespace FF.Spec

/-- The documented units of durations and their length in seconds. -/
def durationUnits : List (Char × Nat) :=
  [('s', 1), ('m', 60), ('h', 60 * 60), ('d', 24 * 60 * 60), ('w', 7 * 24 * 60 * 60), ('M', 30 * 24 * 60 * 60), ('y', 365 * 24 * 60 * 60)]

/-- A run of decimal digits. -/
def Digits (s : Str) : Prop := s ≠ [] ∧ ∀ c ∈ s, isDigit c = true

/-- The text of a sequence of counts with units. -/
def durationText (ps : List (Str × Char)) : Str := ps.flatMap (fun p => p.1 ++ [p.2])

/-- A number as written: digits, optionally a point and more digits. -/
def NumText (w : Str) : Prop := Digits w ∨ ∃ a b, w = a ++ '.' :: b ∧ Digits a ∧ Digits b

/-- The units of sizes in upper case, with their factors. -/
def sizeFactors : List (Str × Nat) :=
  ['K', 'M', 'G', 'T', 'P', 'E', 'Z', 'Y'].zipIdx.flatMap (fun (u, i) =>
    [([u], 1024 ^ (i + 1)), ([u, 'B'], 1000 ^ (i + 1)), ([u, 'I', 'B'], 1024 ^ (i + 1))])

/-- A text that is read as a size, and this size in tenths of bytes. -/
inductive SizeText : Str → Nat → Prop
  | bytes {d : Str} : Digits d → SizeText d (10 * natOfDigits d)
  | whole {d u : Str} {f : Nat} : Digits d → (u, f) ∈ sizeFactors → SizeText (d ++ u) (10 * natOfDigits d * f)
  | tenths {d u : Str} {b : Char} {f : Nat} : Digits d → isDigit b = true → (u, f) ∈ sizeFactors →
      SizeText (d ++ '.' :: b :: u) ((10 * natOfDigits d + digitVal b) * f)

/-- A good human-readable text of the size `n`: the number of bytes if it is below the base; otherwise a number from 1 on and below the base, and a unit.
Below ten there is one decimal, and the error is at most 0.051 units; from ten on there is none, the number is not rounded up by more than 0.051 units, and
less than one unit is missing. -/
inductive HumanSize (base n : Nat) : Str → Prop
  | bytes {d : Str} : n < base → Digits d → natOfDigits d = n → HumanSize base n d
  | tenths {a b : Char} {u : Str} {k : Nat} : 1 ≤ digitVal a → isDigit a = true → isDigit b = true → 1 ≤ k → (u, base ^ k) ∈ sizeFactors →
      1000 * ((10 * digitVal a + digitVal b) * base ^ k) ≤ 1000 * (10 * n) + 510 * base ^ k →
      1000 * (10 * n) ≤ 1000 * ((10 * digitVal a + digitVal b) * base ^ k) + 510 * base ^ k → HumanSize base n (a :: '.' :: b :: u)
  | whole {d u : Str} {k : Nat} : Digits d → 10 ≤ natOfDigits d → natOfDigits d < base → 1 ≤ k → (u, base ^ k) ∈ sizeFactors →
      1000 * (natOfDigits d * base ^ k) ≤ 1000 * n + 51 * base ^ k → n < (natOfDigits d + 1) * base ^ k → HumanSize base n (d ++ u)

end FF.Spec
