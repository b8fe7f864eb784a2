import Verif.Model.Reading
import Verif.Model.Cache
/-! Model of /repo/plugins/hash.py: the sums of files. -/
namespace FF

/-- An object of `hashlib.new(name)`: its states, `update` and `hexdigest`, which is `none` if it needs an argument (TypeError). -/
structure HashAlg where
  State : Type
  start : State
  update : State → Bytes → State
  hexdigest : State → Option Str

/-- A file that is opened: its content, and the number of `read` calls after which reading fails, if it does. -/
structure HashFile where
  content : Bytes
  failsAfter : Option Nat

/-- hash.py:38-39: `while buf := fobj.read(8192): h.update(buf)`. The first argument bounds the number of calls of `read`, the content is consumed by them; `calls` counts
them. -/
def hashLoop (A : HashAlg) (failsAfter : Option Nat) : Nat → Nat → Bytes → A.State → Except PyExc A.State
  | 0, _, _, h => .ok h
  | n + 1, calls, content, h =>
    if failsAfter = some calls then .error .osError
    else match content.take 8192 with
      | [] => .ok h
      | buf => hashLoop A failsAfter n (calls + 1) (content.drop 8192) (A.update h buf)

/-- hash.py:34-42 `cache`; `opened` is `none` if the file cannot be opened. -/
def hashCache (A : HashAlg) (opened : Option HashFile) : Except PyExc Str :=
  tryExcept (match opened with
    | none => .error .osError
    | some f => match hashLoop A f.failsAfter (f.content.length + 1) 0 f.content A.start with
      | .error e => .error e
      | .ok h => match A.hexdigest h with
        | none => .error .typeError
        | some s => .ok s) [.osError, .eofError] (.error .noData)

end FF
