import Verif.Model.Re
import Verif.Model.PyInt
/-! Model of /repo/libff/convert.py. -/
namespace FF

/-- convert.py:79-89 `format_duration`. -/
def formatDuration (seconds : Nat) : Str :=
  let hours := seconds / 3600
  let minutes := seconds % 3600 / 60
  let secs := seconds % 60
  if hours ≠ 0 then natStr hours ++ ['h'] ++ natStr2 minutes ++ ['m'] ++ natStr2 secs ++ ['s']
  else natStr minutes ++ ['m'] ++ natStr2 secs ++ ['s']

/-- convert.py:112-125: seconds per unit; no branch matches any other (or no) unit. -/
def unitFactor : Char → Nat
  | 's' => 1
  | 'm' => 60
  | 'h' => 3600
  | 'd' => 86400
  | 'w' => 604800
  | 'M' => 2592000
  | 'y' => 31536000
  | _ => 0

/-- `[smhdwMy]`, convert.py:92. -/
def isUnit (c : Char) : Bool := c ∈ ['s', 'm', 'h', 'd', 'w', 'M', 'y']

/-- convert.py:104-125: `for match in regex_duration.finditer(string)`, `regex_duration` being `(\d+)([smhdwMy])?`. `pos` is the position
of `s` in the string, `e` the variable `end`; the result is `duration` and `end`, `none` the ValueError. Fuel: the length of the string. -/
def durScan : Nat → (pos e duration : Nat) → Str → Option (Nat × Nat)
  | 0, _, e, d, _ => some (d, e)
  | f + 1, pos, e, d, s =>
    match s with
    | [] => some (d, e)
    | c :: cs =>
      if isDigit c then
        if pos ≠ e then none else
        let count := s.takeWhile isDigit
        let rest := s.dropWhile isDigit
        let end1 := pos + count.length
        match rest with
        | u :: rest' =>
          if isUnit u then durScan f (end1 + 1) (end1 + 1) (d + natOfDigits count * unitFactor u) rest'
          else durScan f end1 (end1 + 1) d rest
        | [] => some (d, end1 + 1)
      else durScan f (pos + 1) e d cs

/-- convert.py:94-130 `parse_duration`; `int(string)` is in minutes. `none` is ValueError. -/
def parseDuration (s : Str) : Option Int :=
  match pyInt s with
  | some n => some (n * 60)
  | none =>
    match durScan (s.length + 1) 0 0 0 s with
    | none => none
    | some (d, e) => if e ≠ s.length then none else some (d : Int)

/-- What `parse_time` takes from the outside: `float()` truncated (`none` is ValueError), the clock, and `datetime.strptime` with each of the
`time_formats` (convert.py:139-148), already adjusted for today and converted to a timestamp (convert.py:170-176). -/
structure TimeEnv where
  float : Str → Option Int
  now : Int
  formats : List (Str → Option Int)

/-- First pattern that matches, convert.py:164-176. -/
def firstFormat : List (Str → Option Int) → Str → Option Int
  | [], _ => none
  | f :: fs, s => match f s with
    | some t => some t
    | none => firstFormat fs s

/-- convert.py:150-181 `parse_time`. Simplified: the clock counts whole seconds, so `int(time.time() - duration)` is exact. -/
def parseTime (env : TimeEnv) (s : Str) : Option Int :=
  match env.float s with
  | some n => some n
  | none =>
    match (if 4 ≤ s.length then firstFormat env.formats s else none) with
    | some t => some t
    | none => (parseDuration s).map (fun d : Int => env.now - d)

/-- convert.py:25 `UNITS` without the empty one. -/
def sizeUnits : Str := ['K', 'M', 'G', 'T', 'P', 'E', 'Z', 'Y']

/-- `string.upper()`, ASCII only. -/
def upperChar (c : Char) : Char := c.toUpper

/-- A literal under re.IGNORECASE (ASCII). -/
def Re.litI (c : Char) : Re := .chr (fun x => upperChar x = upperChar c)

/-- convert.py:48-52 the regular expression of sizes; `\d` is ASCII. -/
def sizeRe : Re :=
  .alt (.seq (.cap 1 (.plus true isDigit)) (.seq (.opt (.litI 'b')) .eol))
    (.seq (.cap 2 (.seq (.plus true isDigit) (.opt (.seq (.lit '.') (.plus true isDigit)))))
      (.seq (.opt (.cap 3 (.alts (sizeUnits.map Re.litI ++ sizeUnits.map (fun u => .seq (.litI u) (.litI 'B')) ++
        sizeUnits.map (fun u => .seq (.litI u) (.seq (.litI 'i') (.litI 'B'))))))) .eol))

/-- Round to nearest, ties to even: `num / den` to an integer. -/
def roundHalfEven (num den : Nat) : Nat :=
  let q := num / den
  let r := num % den
  if 2 * r < den then q else if den < 2 * r then q + 1 else if q % 2 = 0 then q else q + 1

/-- IEEE double nearest to `num / den`, as a fraction (python's `float`; library semantics). Overflow and denormals are not modelled. -/
def roundDouble (x : Nat × Nat) : Nat × Nat :=
  let (num, den) := x
  if num = 0 then (0, 1)
  else if den ≤ num then
    let l := Nat.log2 (num / den)
    if l ≤ 52 then (roundHalfEven (num * 2 ^ (52 - l)) den, 2 ^ (52 - l))
    else (roundHalfEven num (den * 2 ^ (l - 52)) * 2 ^ (l - 52), 1)
  else
    let j := Nat.log2 ((den + num - 1) / num - 1) + 1
    (roundHalfEven (num * 2 ^ (52 + j)) den, 2 ^ (52 + j))

/-- The fraction denoted by digits with an optional decimal point. -/
def decimal (s : Str) : Nat × Nat :=
  let w := s.takeWhile isDigit
  match s.dropWhile isDigit with
  | '.' :: f => (natOfDigits (w ++ f), 10 ^ f.length)
  | _ => (natOfDigits w, 1)

/-- convert.py:74 `int(float(number) * base ** exp)`; `base ** exp` is converted to a double before the product is rounded. -/
def floatMul (number : Str) (k : Nat) : Nat :=
  let f := roundDouble (decimal number)
  let b := roundDouble (k, 1)
  let p := roundDouble (f.1 * b.1, f.2 * b.2)
  p.1 / p.2

/-- `UNITS.index(prefix)`, convert.py:72. -/
def unitExp (c : Char) : Nat := sizeUnits.idxOf c + 1

/-- convert.py:54-76 `parse_size`; `none` is ValueError. -/
def parseSize (s : Str) : Option Nat :=
  let str := s.map upperChar
  match sizeRe.match' str with
  | none => none
  | some (c, _) =>
    match c.get 1, c.get 3 with
    | some n, _ => some (natOfDigits n)
    | none, none => none
    | none, some unit =>
      let base := if unit.drop 1 = ['B'] then 1000 else 1024
      some (floatMul ((c.get 2).getD []) (base ^ unitExp (unit.headD ' ')))

/-! ### Human-readable sizes -/

/-- CPython's `round(x, 1)`: correctly rounded to tenths, ties to even, then the nearest double. -/
def round1 (x : Nat × Nat) : Nat × Nat := roundDouble (roundHalfEven (10 * x.1) x.2, 10)

/-- `f"{x:.1f}"`: correctly rounded to tenths, ties to even. -/
def fixed1 (x : Nat × Nat) : Str :=
  let t := roundHalfEven (10 * x.1) x.2
  natStr (t / 10) ++ '.' :: natStr (t % 10)

/-- convert.py:33-37: the loop over UNITS; `unit` is the value of the variable after the loop. Division is that of doubles. -/
def sizeLoop (base : Nat) : List Str → Str → Nat × Nat → Str × (Nat × Nat)
  | [], unit, x => (unit, x)
  | u :: us, _, x => if x.1 < base * x.2 then (u, x) else sizeLoop base us u (round1 (roundDouble (x.1, x.2 * base)))

/-- convert.py:27-45 `format_size` of a natural number. -/
def formatSize (base n : Nat) : Str :=
  if n < base then natStr n else
    let r := sizeLoop base ([] :: sizeUnits.map (fun c => [c])) [] (n, 1)
    let unit := if base = 1000 then r.1 ++ ['B'] else r.1
    if r.2.1 < 10 * r.2.2 then fixed1 r.2 ++ unit else natStr (r.2.1 / r.2.2) ++ unit

end FF
