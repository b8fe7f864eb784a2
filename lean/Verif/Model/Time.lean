import Verif.Model.Convert
/-! Dates and times: convert.py:133-181 with the parts of `float`, `datetime` and `time` that it uses. -/
namespace FF

/-! ### Numbers -/

/-- Underscores stand between digits only (CPython's `_Py_string_to_number_with_underscores`); `prev` is the previous character. -/
def underscoresOk : Option Char → Str → Bool
  | _, [] => true
  | prev, '_' :: r => prev.any isDigit && r.head?.any isDigit && underscoresOk (some '_') r
  | _, c :: r => underscoresOk (some c) r

/-- The exponent of a float: nothing, or `e`, a sign and digits. -/
def floatExp : Str → Option Int
  | [] => some 0
  | c :: r => if c = 'e' ∨ c = 'E' then
      match r with
      | '-' :: d => if d ≠ [] ∧ d.all isDigit then some (-(natOfDigits d : Int)) else none
      | '+' :: d => if d ≠ [] ∧ d.all isDigit then some (natOfDigits d) else none
      | d => if d ≠ [] ∧ d.all isDigit then some (natOfDigits d) else none
    else none

/-- `int(float(s))` for an unsigned number without white space and underscores. -/
def floatAbs (s : Str) : Option Nat :=
  let a := s.takeWhile isDigit
  let r := s.dropWhile isDigit
  let br := match r with
    | '.' :: r => (r.takeWhile isDigit, r.dropWhile isDigit)
    | r => ([], r)
  if a = [] ∧ br.1 = [] then none else
  match floatExp br.2 with
  | none => none
  | some e =>
    let x := roundDouble (natOfDigits (a ++ br.1) * 10 ^ e.toNat, 10 ^ br.1.length * 10 ^ (-e).toNat)
    some (x.1 / x.2)

/-- convert.py:154-161 `int(float(string))`; `none` is an exception. Simplified: numbers that are too large for a double, `inf` and `nan` are refused by
`int()` or get here as `none`; since they are neither dates nor durations they are refused in any case. -/
def floatInt (s : Str) : Option Int :=
  let r := strip s
  if underscoresOk none r = false then none else
  match r.filter (· ≠ '_') with
  | '-' :: r => (floatAbs r).map (fun n : Nat => -(n : Int))
  | '+' :: r => (floatAbs r).map (fun n : Nat => (n : Int))
  | r => (floatAbs r).map (fun n : Nat => (n : Int))

/-! ### The calendar -/

/-- The fields of a `datetime`. -/
structure DateTime where
  year : Nat
  month : Nat
  day : Nat
  hour : Nat
  minute : Nat
  second : Nat
  deriving DecidableEq, Repr

/-- Leap years of `datetime`. -/
def isLeap (y : Nat) : Bool := y % 4 = 0 && (y % 100 ≠ 0 || y % 400 = 0)

/-- The number of days of a month. -/
def daysInMonth (y m : Nat) : Nat :=
  if m = 2 then (if isLeap y then 29 else 28) else if m = 4 ∨ m = 6 ∨ m = 9 ∨ m = 11 then 30 else 31

/-- What the constructor of `datetime` accepts. -/
def DateTime.valid (t : DateTime) : Bool :=
  1 ≤ t.year && t.year ≤ 9999 && 1 ≤ t.month && t.month ≤ 12 && 1 ≤ t.day && t.day ≤ daysInMonth t.year t.month && t.hour ≤ 23 && t.minute ≤ 59 && t.second ≤ 59

/-- Days of a year before a month. -/
def daysBeforeMonth (y m : Nat) : Nat :=
  [0, 31, 59, 90, 120, 151, 181, 212, 243, 273, 304, 334].getD (m - 1) 0 + (if m > 2 ∧ isLeap y then 1 else 0)

/-- `date.toordinal()`; 1 is 0001-01-01. -/
def ordinal (y m d : Nat) : Int :=
  ((y : Int) - 1) * 365 + ((y : Int) - 1) / 4 - ((y : Int) - 1) / 100 + ((y : Int) - 1) / 400 + daysBeforeMonth y m + d

/-- `(self - datetime(1970, 1, 1)) // timedelta(0, 1)`. -/
def DateTime.seconds (t : DateTime) : Int :=
  (ordinal t.year t.month t.day - 719163) * 86400 + t.hour * 3600 + t.minute * 60 + t.second

/-- Month and day from the day of a year, counted from 0. -/
def monthDay (y n : Nat) : Nat × Nat :=
  let m := if n < daysBeforeMonth y 2 then 1 else if n < daysBeforeMonth y 3 then 2 else if n < daysBeforeMonth y 4 then 3
    else if n < daysBeforeMonth y 5 then 4 else if n < daysBeforeMonth y 6 then 5 else if n < daysBeforeMonth y 7 then 6
    else if n < daysBeforeMonth y 8 then 7 else if n < daysBeforeMonth y 9 then 8 else if n < daysBeforeMonth y 10 then 9
    else if n < daysBeforeMonth y 11 then 10 else if n < daysBeforeMonth y 12 then 11 else 12
  (m, n - daysBeforeMonth y m + 1)

/-- `date.fromordinal` as in CPython's `_ord2ymd`, for ordinals from 1 on. -/
def fromOrdinal (n : Nat) : Nat × Nat × Nat :=
  let n := n - 1
  let n400 := n / 146097
  let n := n % 146097
  let n100 := n / 36524
  let n := n % 36524
  let n4 := n / 1461
  let n := n % 1461
  let n1 := n / 365
  let n := n % 365
  let y := n400 * 400 + 1 + n100 * 100 + n4 * 4 + n1
  if n1 = 4 ∨ n100 = 4 then (y - 1, 12, 31) else (y, monthDay y n)

/-- `time.gmtime` of seconds since epoch, not before the year 1. -/
def gmtime (u : Int) : DateTime :=
  let d := fromOrdinal (u / 86400 + 719163).toNat
  let s := (u % 86400).toNat
  ⟨d.1, d.2.1, d.2.2, s / 3600, s % 3600 / 60, s % 60⟩

/-! ### Local time -/

/-- The time zone: the offset from UTC at every moment, in seconds. -/
abbrev Zone := Int → Int

/-- `time.localtime`. -/
def localtime (z : Zone) (u : Int) : DateTime := gmtime (u + z u)

/-- `datetime.timestamp()` of a local time with `fold=0` (CPython's `local_to_seconds` and `_mktime`), from the seconds of the local time. -/
def mktime (z : Zone) (t : Int) : Int :=
  let a := z t
  let u1 := t - a
  let t1 := u1 + z u1
  if t1 = t then
    let u2 := u1 - 86400
    let b := z u2
    if a = b then u1 else
      let u2 := t - b
      if u2 + z u2 = t then u2 else u1
  else
    let b := t1 - u1
    let u2 := t - b
    if u2 + z u2 = t then u2 else max u1 u2

/-- convert.py:133-136 `format_time`; `%Y` is not padded by glibc. -/
def formatTime (z : Zone) (u : Int) : Str :=
  let t := localtime z u
  natStr t.year ++ '-' :: (natStr2 t.month ++ '-' :: (natStr2 t.day ++ ' ' :: (natStr2 t.hour ++ ':' :: (natStr2 t.minute ++ ':' :: natStr2 t.second))))

/-! ### Patterns -/

/-- The directives of the patterns. -/
inductive Directive | Y | m | d | H | M | S
  deriving DecidableEq

/-- The parts of a pattern. -/
inductive FmtItem | field (x : Directive) | space | lit (c : Char)
  deriving DecidableEq

/-- A digit of a range. -/
def Re.range (lo hi : Char) : Re := .chr (fun c => lo ≤ c && c ≤ hi)

/-- The regular expressions of directives in CPython's `_strptime`; `\d` is ASCII. -/
def Directive.re : Directive → Re
  | .Y => .seqs [.chr isDigit, .chr isDigit, .chr isDigit, .chr isDigit]
  | .m => .alts [.seq (.lit '1') (.range '0' '2'), .seq (.lit '0') (.range '1' '9'), .range '1' '9']
  | .d => .alts [.seq (.lit '3') (.range '0' '1'), .seq (.range '1' '2') (.chr isDigit), .seq (.lit '0') (.range '1' '9'), .range '1' '9',
      .seq (.lit ' ') (.range '1' '9')]
  | .H => .alts [.seq (.lit '2') (.range '0' '3'), .seq (.range '0' '1') (.chr isDigit), .chr isDigit]
  | .M => .alts [.seq (.range '0' '5') (.chr isDigit), .chr isDigit]
  | .S => .alts [.seq (.lit '6') (.range '0' '1'), .seq (.range '0' '5') (.chr isDigit), .chr isDigit]

/-- The groups of directives. -/
def Directive.group : Directive → Nat
  | .Y => 1 | .m => 2 | .d => 3 | .H => 4 | .M => 5 | .S => 6

/-- The regular expression of a pattern; a space stands for any white space. -/
def fmtRe : List FmtItem → Re
  | [] => .eps
  | .field x :: f => .seq (.cap x.group x.re) (fmtRe f)
  | .space :: f => .seq (Re.plus true isSpace) (fmtRe f)
  | .lit c :: f => .seq (.lit c) (fmtRe f)

/-- `int(group)`, or the default of `_strptime`. -/
def fieldOr (c : Caps) (x : Directive) (default : Nat) : Nat :=
  match c.get x.group with
  | some w => natOfDigits (w.filter isDigit)
  | none => default

/-- `datetime.datetime.strptime(s, fmt)`, `none` is ValueError. -/
def strptime (fmt : List FmtItem) (s : Str) : Option DateTime :=
  match (fmtRe fmt).match' s with
  | none => none
  | some (c, rest) =>
    if rest ≠ [] then none else
      let t : DateTime := ⟨fieldOr c .Y 1900, fieldOr c .m 1, fieldOr c .d 1, fieldOr c .H 0, fieldOr c .M 0, fieldOr c .S 0⟩
      if t.valid then some t else none

/-- convert.py:139-148 `time_formats`; the flag tells the type "time". -/
def timeFormats : List (Bool × List FmtItem) :=
  [(false, [.field .Y, .lit '-', .field .m, .lit '-', .field .d, .space, .field .H, .lit ':', .field .M, .lit ':', .field .S]),
   (false, [.field .Y, .lit '-', .field .m, .lit '-', .field .d, .space, .field .H, .lit ':', .field .M]),
   (false, [.field .Y, .field .m, .field .d, .field .H, .field .M]),
   (false, [.field .Y, .lit '-', .field .m, .lit '-', .field .d]),
   (false, [.field .Y, .field .m, .field .d]),
   (true, [.field .H, .lit ':', .field .M, .lit ':', .field .S]),
   (true, [.field .H, .lit ':', .field .M]),
   (true, [.field .H, .field .M])]

/-- convert.py:170-176: a time of day is the last such time before now; then the timestamp. Simplified: `datetime.now()` and `date.today()` are of the same
moment, and years are in the range of timestamps. -/
def timeOf (z : Zone) (now : Int) (isTime : Bool) (t : DateTime) : Int :=
  if isTime then
    let n := localtime z now
    let t : DateTime := { t with year := n.year, month := n.month, day := n.day }
    if t.seconds > n.seconds then mktime z (t.seconds - 86400) else mktime z t.seconds
  else mktime z t.seconds

/-- The outside of `parse_time` in a time zone at a moment. -/
def localTimes (z : Zone) (now : Int) : TimeEnv where
  float := floatInt
  now := now
  formats := timeFormats.map (fun (k, f) s => (strptime f s).map (timeOf z now k))

end FF
