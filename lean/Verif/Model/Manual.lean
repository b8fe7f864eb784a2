import Verif.Model.Help
import Verif.Model.Time
/-! Model of the full manual, /repo/libff/help.py:56-153 and 270-279: how `manpage.template` becomes a page. -/
namespace FF

/-- `s.rstrip()` -/
def rstripK (K : CharKinds) (s : Str) : Str := (s.reverse.dropWhile K.space).reverse

/-- `s.lstrip()` -/
def lstripK (K : CharKinds) (s : Str) : Str := s.dropWhile K.space

/-- `"  " in s` -/
def hasDouble : Str → Bool
  | a :: b :: s => (a = ' ' && b = ' ') || hasDouble (b :: s)
  | _ => false

/-- `s.split("  ", 1)` -/
def splitDouble : Str → Str × Str
  | a :: b :: s => if a = ' ' ∧ b = ' ' then ([], s) else (a :: (splitDouble (b :: s)).1, (splitDouble (b :: s)).2)
  | s => (s, [])

/-- help.py:65: the indentation of a line -/
def indentOf (K : CharKinds) (line : Str) : Nat := line.length - (lstripK K line).length

/-- help.py:67 -/
def newParagraph (K : CharKinds) (cur : Nat) (line : Str) : Bool :=
  indentOf K line < cur || (cur = 0 && 0 < indentOf K line) || hasDouble (lstripK K line)

/-- help.py:62-88: `cur` is `current_level` -/
def wrapFrom (K : CharKinds) : Nat → Str → List Str → List Str
  | _, text, [] => if text = [] then [] else [text]
  | cur, text, l :: ls =>
    let line := rstripK K l
    let next := if line = [] then cur else indentOf K line
    if newParagraph K cur line then (if text = [] then [] else [text]) ++ [] :: wrapFrom K next line ls
    else wrapFrom K next (if text = [] then line else text ++ ' ' :: lstripK K line) ls

/-- help.py:56-88 `wrap` -/
def wrapLines (K : CharKinds) (lines : List Str) : List Str := wrapFrom K 0 [] lines

/-- help.py:135: `^[A-Z ]+$`; the line does not end with white space -/
def isHeader (line : Str) : Bool := !line.isEmpty && line.all fun c => c.isUpper || c = ' '

/-- help.py:130: an include marker -/
def isMarker (K : CharKinds) (line : Str) : Bool := startsWith (lstripK K line) "::".toList

/-- help.py:127-153: what is added for a paragraph; `inc` is `include`, `none` an exception -/
def parseParagraph (K : CharKinds) (inc : Str → Option (List Str)) (p : Str) : Option (List Str) :=
  let line := rstripK K p
  if isMarker K line then inc ((lstripK K line).drop 2)
  else if isHeader line then some [roffSection line]
  else if startsWith (lstripK K line) ['$'] then some [bdFont ++ line ++ rsFont]
  else if hasDouble (lstripK K line) then
    some [roffDefinition (splitDouble (lstripK K line)).1, roffProcess K (splitDouble (lstripK K line)).2, ".PP".toList]
  else some [roffProcess K line]

/-- help.py:122-153 `parse_lines`; `inc` gives the lines that are included, `none` is the ValueError. The first argument is the depth of included lines. -/
def parseLines (K : CharKinds) (inc : Str → Option (List Str)) : Nat → List Str → Option (List Str)
  | 0, _ => none
  | n + 1, lines => (mapOption (parseParagraph K fun name => (inc name).bind (parseLines K inc n)) (wrapLines K lines)).map List.flatten

/-- argparse.py:284-294 `print_manpage_help`, as lines. Simplified: the names and texts of options contain no line breaks. -/
def manpageHelp (items : List HelpItem) : List Str :=
  items.flatMap fun
    | .group name => [[], "    ".toList ++ name ++ [':']]
    | .option strings action metavar help => ["    ".toList ++ formatOption strings action (optionMetavar strings action metavar) ++ "  ".toList ++ help]

/-- The letter of a directive. -/
def Directive.letter : Directive → Char
  | .Y => 'Y' | .m => 'm' | .d => 'd' | .H => 'H' | .M => 'M' | .S => 'S'

/-- help.py:107-108: `re.sub(r"%([YmdHMS])", lambda m: m.group(1)*2, fmt)` -/
def shownPattern (fmt : List FmtItem) : Str :=
  fmt.flatMap fun
    | .field x => [x.letter, x.letter]
    | .space => [' ']
    | .lit c => [c]

/-- help.py:105-110 -/
def timePatterns : List Str := timeFormats.flatMap fun f => ["    ``".toList ++ shownPattern f.2 ++ "``".toList, []]

/-- exceptions.py:50-86: the status and the description of each error -/
def exitCodes : List (Nat × Str) :=
  ([(1, "The --fail option was specified and there were no search results.\n    "), (2, "There was an error in the arguments provided by the user.\n    "),
    (3, "One or more --exec or --exec-batch subprocesses had errors.\n    "), (4, "One or more ff processes had unrecoverable errors.\n    "),
    (10, "A plugin had an unrecoverable error.\n    "), (11, "An attribute was specified that is invalid or does not exist.\n    "),
    (12, "There was an error in a test definition.\n    ")] : List (Nat × String)).map fun p => (p.1, p.2.toList)

/-- help.py:112-119 -/
def exitLines : List Str := exitCodes.map fun p => "    ".toList ++ (Nat.repr p.1).toList ++ "  ".toList ++ p.2

/-- help.py:90-120 `include`: the lines; `none` is the ValueError -/
def manualInclude (usage : Str) (items : List HelpItem) (name : Str) : Option (List Str) :=
  if name = "help".toList then some (manpageHelp items)
  else if name = "usage".toList then some [usage]
  else if name = "time_patterns".toList then some timePatterns
  else if name = "exit_codes".toList then some exitLines
  else none

/-- help.py:270-279 `FullManPage.render`; `template` are the lines of `manpage.template` -/
def manualPage (E : HelpEnv) (usage : Str) (items : List HelpItem) (template : List Str) : Option (List Str) :=
  (parseLines E.kinds (manualInclude usage items) 2 template).map fun lines =>
    helpStart E "ff".toList "1".toList "ff - Find files in the filesystem".toList none ++ lines

/-- argparse.py:229 `usage` -/
def ffUsage : Str := "ff [<options>] [<test/directory> ... | -D <directory> ...]".toList

end FF
