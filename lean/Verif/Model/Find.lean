import Verif.Model.Field
/-! Model of /repo/libff/find.py and of `AttributeDict` (/repo/libff/field.py). -/
namespace FF

/-- CPython shlex.py: the states of `read_token` in POSIX mode with `whitespace_split`: `' '`, `'a'`, in quotes, after a backslash outside and inside quotes. -/
inductive ShlexState
  | space
  | word
  | quote (q : Char)
  | escape
  | quoteEscape
deriving DecidableEq, Repr

/-- CPython shlex.py: `whitespace`. -/
def shlexSpace (c : Char) : Bool := c = ' ' || c = '\t' || c = '\r' || c = '\n'

/-- CPython shlex.py `read_token`, called until the end of the text, with `posix=True`, `whitespace_split=True` and `commenters=""` as in `shlex.split`.
`tok` is the token so far, `quoted` whether there were quotes in it; `none` is the ValueError of an unfinished quotation or escape. -/
def shlexLoop : ShlexState → Str → Bool → Str → Option (List Str)
  | .space, tok, quoted, [] => some (if tok ≠ [] ∨ quoted then [tok] else [])
  | .space, tok, quoted, c :: s =>
    if shlexSpace c then
      if tok ≠ [] ∨ quoted then (shlexLoop .space [] false s).map (tok :: ·) else shlexLoop .space tok quoted s
    else if c = '\\' then shlexLoop .escape tok quoted s
    else if c = '\'' ∨ c = '"' then shlexLoop (.quote c) tok quoted s
    else shlexLoop .word [c] quoted s
  | .quote _, _, _, [] => none
  | .quote q, tok, _, c :: s =>
    if c = q then shlexLoop .word tok true s
    else if c = '\\' ∧ q = '"' then shlexLoop .quoteEscape tok true s
    else shlexLoop (.quote q) (tok ++ [c]) true s
  | .escape, _, _, [] => none
  | .escape, tok, quoted, c :: s => shlexLoop .word (tok ++ [c]) quoted s
  | .quoteEscape, _, _, [] => none
  | .quoteEscape, tok, quoted, c :: s =>
    shlexLoop (.quote '"') ((if c ≠ '\\' ∧ c ≠ '"' then tok ++ ['\\'] else tok) ++ [c]) quoted s
  | .word, tok, quoted, [] => some (if tok ≠ [] ∨ quoted then [tok] else [])
  | .word, tok, quoted, c :: s =>
    if shlexSpace c then
      if tok ≠ [] ∨ quoted then (shlexLoop .space [] false s).map (tok :: ·) else shlexLoop .space tok quoted s
    else if c = '\'' ∨ c = '"' then shlexLoop (.quote c) tok quoted s
    else if c = '\\' then shlexLoop .escape tok quoted s
    else shlexLoop .word (tok ++ [c]) quoted s

/-- CPython `shlex.split(s)`. -/
def shlexSplit (s : Str) : Option (List Str) := shlexLoop .space [] false s

/-- CPython shlex.py: characters that need no quotes: ASCII letters, digits, and some punctuation. -/
def shlexSafe (c : Char) : Bool := ('a' ≤ c && c ≤ 'z') || ('A' ≤ c && c ≤ 'Z') || ('0' ≤ c && c ≤ '9') || c ∈ "_@%+=:,./-".toList

/-- CPython `shlex.quote(s)`. -/
def shlexQuote (s : Str) : Str :=
  if s = [] then ['\'', '\''] else if s.all shlexSafe then s
  else '\'' :: s.flatMap (fun c => if c = '\'' then "'\"'\"'".toList else [c]) ++ ['\'']

/-- The `query` argument of `Find`. -/
inductive Query
  | nothing
  | text (s : Str)
  | words (ws : List Str)

/-- find.py:69-74: the tests; `none` is a ValueError. -/
def Query.tests : Query → Option (List Str)
  | .nothing => some []
  | .text s => shlexSplit s
  | .words ws => some ws

/-- field.py:38: the dictionary of names; a later field replaces an earlier one with the same name. -/
def attrNames (fields : List Str) : List (Str × Str) :=
  fields.foldl (fun d f => dictSet d (f.map (fun c => if c = '.' then '_' else c)) f) []

/-- What Python attribute access on a record gives: an attribute of the class `dict` or of the object, a value, or a KeyError. -/
inductive Access (α : Type)
  | builtin
  | value (v : α)
  | keyError
deriving DecidableEq, Repr

/-- field.py:40-44 `AttributeDict.__getattr__`, which Python calls for names that are no attributes of the object or its class (`builtin`). -/
def recordAccess {α : Type} (builtin : Str → Bool) (fields : List Str) (record : List (Str × α)) (name : Str) : Access α :=
  if builtin name then .builtin
  else match (attrNames fields).lookup name with
    | none => .keyError
    | some field => match record.lookup field with
      | none => .keyError
      | some v => .value v

end FF
