import Verif.Model.PyInt
/-! Dates and times: what they should mean. -/
namespace FF.Spec

/-- Gregorian leap years. -/
def Leap (y : Nat) : Prop := y % 4 = 0 ∧ (y % 100 ≠ 0 ∨ y % 400 = 0)

instance (y : Nat) : Decidable (Leap y) := by unfold Leap; infer_instance

/-- The lengths of the months of a year. -/
def monthLens (y : Nat) : List Nat := [31, if Leap y then 29 else 28, 31, 30, 31, 30, 31, 31, 30, 31, 30, 31]

/-- The date exists (in the years that python knows). -/
def RealDate (y m d : Nat) : Prop := 1 ≤ y ∧ y ≤ 9999 ∧ 1 ≤ m ∧ m ≤ 12 ∧ 1 ≤ d ∧ d ≤ (monthLens y).getD (m - 1) 0

/-- The time of day exists. -/
def RealTime (h mi s : Nat) : Prop := h ≤ 23 ∧ mi ≤ 59 ∧ s ≤ 59

/-- The number of days from the beginning of the year 1 until the end of a day: those of all years before, of all months before, and of the month. -/
def dayNumber (y m d : Nat) : Nat := ((List.range (y - 1)).map (fun i => (monthLens (i + 1)).sum)).sum + ((monthLens y).take (m - 1)).sum + d

/-- Seconds that a clock shows since the beginning of 1970. -/
def clock (y m d h mi s : Nat) : Int := ((dayNumber y m d : Int) - dayNumber 1970 1 1) * 86400 + h * 3600 + mi * 60 + s

/-- Two digits. -/
def pad2 (n : Nat) : Str := [digitChar (n / 10), digitChar (n % 10)]

/-- Four digits. -/
def pad4 (n : Nat) : Str := [digitChar (n / 1000), digitChar (n / 100 % 10), digitChar (n / 10 % 10), digitChar (n % 10)]

/-- `YYYY-MM-DD` -/
def dateText (y m d : Nat) : Str := pad4 y ++ '-' :: (pad2 m ++ '-' :: pad2 d)

/-- `hh:mm` -/
def minuteText (h mi : Nat) : Str := pad2 h ++ ':' :: pad2 mi

/-- `hh:mm:ss` -/
def secondText (h mi s : Nat) : Str := pad2 h ++ ':' :: (pad2 mi ++ ':' :: pad2 s)

/-- `u` is the first moment at which a clock in the time zone (offset from UTC at every moment) shows `t`. -/
def FirstShown (z : Int → Int) (t u : Int) : Prop := u + z u = t ∧ ∀ u', u' + z u' = t → u ≤ u'

/-- Offsets are at most a day, and clocks are changed at most once, by at most a day, in the days around the time `t`. -/
def OneChange (z : Int → Int) (t : Int) : Prop :=
  (∀ u, -86400 ≤ z u ∧ z u ≤ 86400) ∧ ∃ c x y, x - y ≤ 86400 ∧ y - x ≤ 86400 ∧ ∀ u, t - 172800 ≤ u → u ≤ t + 86400 → z u = if u < c then x else y

end FF.Spec
