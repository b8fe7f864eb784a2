import Verif.Model.Field
/-! Model of /repo/libff/console.py: what is printed for an entry. -/
namespace FF

/-- console.py:29 `String`: a text with escape sequences and its length without. -/
structure RStr where
  value : Str
  length : Nat
  deriving DecidableEq, Repr

/-- A text without escape sequences. -/
def RStr.plain (s : Str) : RStr := ⟨s, s.length⟩

/-- The methods of console.py:180-204 and 302-318 that the two classes define differently; `none` is KeyError. -/
structure Palette where
  file : (ext name : Str) → Option RStr
  directory : Str → Option RStr
  executable : Str → Option RStr
  symlink : Str → Option RStr
  orphan : Str → Option RStr

/-- console.py:180-204. -/
def plainPalette : Palette where
  file _ name := some (.plain name)
  directory name := some (.plain name)
  executable name := some (.plain name)
  symlink name := some (.plain name)
  orphan name := some (.plain name)

/-- The rest a console needs to know: whether the entry is a symbolic link (entry.py:408-411), broken (entry.py:137), executable (entry.py:423-429) and where
it points to (entry.py:135); `--follow-symlinks`, the separator of console.py:117 and `args.newline`. -/
structure ConsoleEnv where
  render : RenderEnv
  isSymlink : EntInfo → Bool
  broken : EntInfo → Bool
  isExecutable : EntInfo → Bool
  link : EntInfo → Str
  followSymlinks : Bool
  separator : Str
  newline : Str

/-- `s.replace(old, new)` for a two-character `old` and a one-character `new`. -/
def replace2 (a b new : Char) : Str → Str
  | [] => []
  | [x] => [x]
  | x :: y :: rest => if x = a ∧ y = b then new :: replace2 a b new rest else x :: replace2 a b new (y :: rest)

/-- console.py:117: the field separator. -/
def fieldSeparator (arg : Str) : Str := replace2 '\\' 'n' '\n' (replace2 '\\' 't' '\t' arg)

/-- console.py:165-178 `render_name`. -/
def ConsoleEnv.renderName (C : ConsoleEnv) (P : Palette) (i : EntInfo) : Option RStr :=
  if C.isSymlink i && !C.followSymlinks then
    if C.broken i then P.orphan i.entry.name else P.symlink i.entry.name
  else if C.isExecutable i then P.executable i.entry.name
  else P.file i.entry.ext i.entry.name

/-- console.py:146-163 `render_path`. -/
def ConsoleEnv.renderPath (C : ConsoleEnv) (P : Palette) (i : EntInfo) (withLink : Bool) : Option RStr :=
  if i.isDir then P.directory i.entry.path else
    match C.renderName P i with
    | none => none
    | some name =>
      match (if i.entry.dir ≠ [] then (P.directory (i.entry.dir ++ ['/'])).map (fun d => RStr.mk (d.value ++ name.value) (d.length + name.length)) else some name) with
      | none => none
      | some path => if C.isSymlink i && withLink then
          some ⟨path.value ++ " -> ".toList ++ C.link i, path.length + 4 + (C.link i).length⟩
        else some path

/-- console.py:124-144 `render_field`; `none` is KeyError. -/
def ConsoleEnv.renderField (C : ConsoleEnv) (P : Palette) (i : EntInfo) (f : Field) : Option RStr :=
  if f.attr = ("file".toList, "dir".toList) then P.directory i.entry.dir else
  if f.attr = ("file".toList, "name".toList) then C.renderName P i else
  if f.attr = ("file".toList, "path".toList) then C.renderPath P i (f.modifier = some 'h') else
    match C.render.search.attr i f.attr with
    | none => none
    | some v => some (.plain (f.type.output C.render.out f.modifier v))

/-- console.py:206-214 `pad_string`. -/
def padString (s : RStr) (width : Int) : Str :=
  let fill := width.natAbs - s.length
  if width < 0 then s.value ++ List.replicate fill ' ' else List.replicate fill ' ' ++ s.value

/-- console.py:216-224 `format_field`. -/
def ConsoleEnv.formatField (C : ConsoleEnv) (P : Palette) (i : EntInfo) (f : Field) : Option Str :=
  match C.renderField P i f with
  | none => none
  | some s => match f.width with
    | none => some s.value
    | some w => some (padString s ((pyInt w).getD 0))

/-- console.py:231-237: the column of a field, `none` if the line is given up. -/
def ConsoleEnv.column (C : ConsoleEnv) (P : Palette) (i : EntInfo) (f : Field) : Option Str :=
  match C.formatField P i f with
  | some s => some s
  | none => if C.render.all || f.modifier = some 'n' then some [] else none

/-- console.py:226-239 `Console.process`: the line printed, `none` if there is none. -/
def ConsoleEnv.line (C : ConsoleEnv) (P : Palette) (fields : List Field) (i : EntInfo) : Option Str :=
  (mapOption (C.column P i) fields).map (joinStr C.separator)

/-- console.py:241-253: the output for a list of entries, before encoding. -/
def ConsoleEnv.output (C : ConsoleEnv) (P : Palette) (fields : List Field) (entries : List EntInfo) : Str :=
  (entries.filterMap (C.line P fields)).flatMap (fun l => l ++ C.newline)

/-! ### Colours -/

/-- console.py:268-269 `esc`. -/
def escSeq (seq : Str) : Str := if seq = [] then [] else ['\x1b', '['] ++ seq ++ ['m']

/-- `part.split("=", 1)`, `none` is ValueError. -/
def splitEq : Str → Option (Str × Str)
  | [] => none
  | x :: xs => if x = '=' then some ([], xs) else (splitEq xs).map (fun p => (x :: p.1, p.2))

/-- console.py:279-290: the rules and the extensions. `isalpha` is restricted to ASCII; `os.path.splitext` is the function ff has copied in path.py. -/
def lsColors (colors : Str) : List (Str × Str) × List (Str × Str) :=
  (splitOn ':' colors).foldl (fun st part => match splitEq part with
    | none => st
    | some (key, value) =>
      if key.length = 2 ∧ key.all Char.isAlpha then (dictSet st.1 key value, st.2)
      else
        let ext := (splitext key).2.drop 1
        if ext ≠ [] then (st.1, dictSet st.2 ext (escSeq value)) else st) ([], [])

/-- `d.get(key)`. -/
def dictGet {κ ν : Type} [DecidableEq κ] (d : List (κ × ν)) (key : κ) : Option ν := (d.find? (fun r => r.1 = key)).map Prod.snd

/-- console.py:320-327 `colorize` after 292-300; `none` is KeyError. -/
def colorize (rules : List (Str × Str)) (reset : Str) (rule : Str) (text : Str) : Option RStr :=
  match dictGet rules rule with
  | none => some (.plain text)
  | some value => some ⟨escSeq value ++ text ++ reset, text.length⟩

/-- console.py:261-327 `ColorConsole` for the value of LS_COLORS. Without it `self.colors` is empty (271-275) and every `colorize` a KeyError. -/
def colorPalette (colors : Str) : Palette :=
  if colors = [] then
    { file := fun _ name => some (.plain name), directory := fun _ => none, executable := fun _ => none, symlink := fun _ => none, orphan := fun _ => none }
  else
    let rules := (lsColors colors).1
    let extensions := (lsColors colors).2
    let reset := escSeq ((dictGet rules "rs".toList).getD ['0'])
    { file := fun ext name => match dictGet extensions ext with
        | some esc => some ⟨esc ++ name ++ reset, name.length⟩
        | none => some (.plain name)
      directory := colorize rules reset "di".toList
      executable := colorize rules reset "ex".toList
      symlink := colorize rules reset "ln".toList
      orphan := colorize rules reset "or".toList }

/-! ### Encoding -/

/-- A Python `str` with surrogates: code points. -/
abbrev UStr := List Nat

/-- A code point that is no character: `os.fsdecode` makes them from undecodable bytes. -/
def isSurrogate (c : Nat) : Bool := 0xD800 ≤ c && c ≤ 0xDFFF

/-- The hexadecimal digits of the "backslashreplace" error handler. -/
def hex4 (c : Nat) : UStr := [c / 4096 % 16, c / 256 % 16, c / 16 % 16, c % 16].map (fun d => (baseDigit d).toNat)

/-- The "backslashreplace" error handler for a surrogate: `\udcff`. -/
def backslashChar (c : Nat) : UStr := if isSurrogate c then 92 :: 117 :: hex4 c else [c]

/-- `line.encode("utf-8", "backslashreplace").decode("utf-8")`. -/
def backslashReplace (s : UStr) : UStr := s.flatMap backslashChar

/-- console.py:241-248 `_write_line` with an UTF-8 stdout: the characters that are written. -/
def writeLine (newline : UStr) (line : UStr) : UStr := if line.any isSurrogate then backslashReplace line ++ newline else line ++ newline

/-! ### JSON -/

/-- The four digits of a `\uXXXX` escape. -/
def jsonHex (c : Nat) : Str := [c / 4096 % 16, c / 256 % 16, c / 16 % 16, c % 16].map baseDigit

/-- json/encoder.py `py_encode_basestring_ascii` (library): a character of a string. -/
def jsonChar (c : Char) : Str :=
  if c = '"' then ['\\', '"'] else if c = '\\' then ['\\', '\\'] else if c = '\n' then ['\\', 'n'] else if c = '\r' then ['\\', 'r'] else
  if c = '\t' then ['\\', 't'] else if c = '\x0c' then ['\\', 'f'] else if c = '\x08' then ['\\', 'b'] else
  if 32 ≤ c.toNat ∧ c.toNat < 127 then [c] else
  if c.toNat < 0x10000 then ['\\', 'u'] ++ jsonHex c.toNat else
    ['\\', 'u'] ++ jsonHex (0xD800 + (c.toNat - 0x10000) / 0x400) ++ (['\\', 'u'] ++ jsonHex (0xDC00 + (c.toNat - 0x10000) % 0x400))

/-- A JSON string. -/
def jsonStr (s : Str) : Str := '"' :: s.flatMap jsonChar ++ ['"']

/-- A JSON value (json/encoder.py); `None` is `null`. -/
def jsonVal : Option Val → Str
  | none => "null".toList
  | some (.str s) => jsonStr s
  | some (.strs l) => '[' :: joinStr ", ".toList (l.map jsonStr) ++ [']']
  | some (.int n) => intStr n
  | some (.bool b) => boolStr b

/-- `json.dump(record, sys.stdout)`. -/
def jsonRecord (r : List (Str × Option Val)) : Str :=
  '{' :: joinStr ", ".toList (r.map (fun p => jsonStr p.1 ++ ": ".toList ++ jsonVal p.2)) ++ ['}']

/-- console.py:73-83: the output of `JsonlConsole`. -/
def jsonlOutput (records : List (List (Str × Option Val))) : Str := records.flatMap (fun r => jsonRecord r ++ ['\n'])

/-- console.py:96-102 `JsonConsole._print_record`; the state is `print_comma`. -/
def jsonPrint : Bool → List (List (Str × Option Val)) → Str
  | _, [] => []
  | comma, r :: rs => (if comma then [','] else []) ++ jsonRecord r ++ jsonPrint true rs

/-- console.py:86-105: the output of `JsonConsole`. -/
def jsonOutput (records : List (List (Str × Option Val))) : Str := '[' :: jsonPrint false records ++ [']', '\n']

end FF
