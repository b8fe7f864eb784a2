import Verif.Model.PyStr
/-! Model of /repo/libff/path.py. -/
namespace FF

/-- path.py:33-37, the `while idx < dot` loop; `n` is `dot - idx`.
`true` iff some `path[idx:idx+1] != "."` before `dot`. -/
def splitextLoop (path : Str) : Nat → Nat → Bool
  | _, 0 => false
  | idx, n + 1 => if (path.drop idx).take 1 ≠ ['.'] then true else splitextLoop path (idx + 1) n

/-- path.py:27-39 `splitext`. -/
def splitext (path : Str) : Str × Str :=
  let sep := rfind path '/'
  let dot := rfind path '.'
  if dot > sep then
    if splitextLoop path (sep + 1).toNat (dot - (sep + 1)).toNat then
      (sliceTo path dot, sliceFrom path dot)
    else (path, [])
  else (path, [])

/-- path.py:41-50 `split`. -/
def pathSplit (path : Str) : Str × Str :=
  let sep := rfind path '/'
  if sep < 0 then ([], path)
  else if sep = 0 then (['/'], path.drop 1)
  else (sliceTo path sep, sliceFrom path (sep + 1))

/-- path.py:52-64 `join`. -/
def pathJoin (part1 part2 : Str) : Str :=
  if part1 ≠ [] then
    if part2 ≠ [] then
      if part1 = ['/'] then part1 ++ part2 else part1 ++ '/' :: part2
    else part1
  else part2

/-- CPython `os.path.basename` (posixpath.py): the part after the last slash. -/
def basename (path : Str) : Str := sliceFrom path (rfind path '/' + 1)

end FF
