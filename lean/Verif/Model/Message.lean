import Verif.Model.Arguments
/-!
Model of the texts ff prints for people to read: /repo/libff/logger.py, the help of /repo/libff/argparse.py, and the module `textwrap` of CPython (3.8 and later),
which both of them use.
-/
namespace FF

/-- What CPython knows about a character: whether `\w` and `\d` match it and whether it is removed by `str.strip()`. -/
structure CharKinds where
  word : Char → Bool
  digit : Char → Bool
  space : Char → Bool

/-- `str.expandtabs(8)`; `col` is the column (only its remainder matters, so it is 0 after a tab). -/
def expandTabs : Nat → Str → Str
  | _, [] => []
  | col, c :: cs =>
    if c = '\t' then List.replicate (8 - col % 8) ' ' ++ expandTabs 0 cs
    else if c = '\n' ∨ c = '\r' then c :: expandTabs 0 cs
    else c :: expandTabs (col + 1) cs

/-- textwrap.py `_munge_whitespace`. -/
def mungeWhitespace (text : Str) : Str := (expandTabs 0 text).map fun c => if isSpace c then ' ' else c

/-- `[\w!"'&.,?]` -/
def CharKinds.wordPunct (K : CharKinds) (c : Char) : Bool := K.word c || "!\"'&.,?".toList.contains c

/-- `[^\d\W]` -/
def CharKinds.letter (K : CharKinds) (c : Char) : Bool := K.word c && !K.digit c

/-- `-{2,}(?=\w)`: the number of hyphens. -/
def CharKinds.emDash (K : CharKinds) (rest : Str) : Option Nat :=
  match rest.dropWhile (· = '-') with
  | c :: _ => if 2 ≤ (rest.takeWhile (· = '-')).length ∧ K.word c = true then some (rest.takeWhile (· = '-')).length else none
  | [] => none

/-- `(?<=[\w!"'&.,?])`; `before` is the text before this position, backwards. -/
def CharKinds.afterWord (K : CharKinds) : Str → Bool
  | c :: _ => K.wordPunct c
  | [] => false

/-- `(?: (?<=lt{2}-) | (?<=lt-lt-))`; `before` is the text before the hyphen, backwards. -/
def CharKinds.hyphenAfter (K : CharKinds) : Str → Bool
  | a :: b :: rest => K.letter a && (K.letter b || (b = '-' && match rest with | c :: _ => K.letter c | [] => false))
  | _ => false

/-- `(?= lt -? lt)` -/
def CharKinds.hyphenBefore (K : CharKinds) : Str → Bool
  | a :: b :: rest => K.letter a && (K.letter b || (b = '-' && match rest with | c :: _ => K.letter c | [] => false))
  | _ => false

/-- Whether a word ends here, and how many characters (a hyphen) belong to it still. -/
def CharKinds.wordEnd (K : CharKinds) (before : Str) : Str → Option Nat
  | [] => some 0
  | c :: rest =>
    if c = '-' ∧ (K.hyphenAfter before && K.hyphenBefore rest) = true then some 1
    else if isSpace c then some 0
    else if (K.afterWord before && (K.emDash (c :: rest)).isSome) = true then some 0
    else none

/-- The rest of the word after its first character, and the text after it: `+?` is not greedy. -/
def CharKinds.takeWord (K : CharKinds) (before : Str) : Str → Str × Str
  | [] => ([], [])
  | c :: rest =>
    match K.wordEnd before (c :: rest) with
    | some n => ((c :: rest).take n, (c :: rest).drop n)
    | none => (c :: (K.takeWord (c :: before) rest).1, (K.takeWord (c :: before) rest).2)

/-- One match of textwrap.py `wordsep_re`; there is one at each position. The second part is the text after it. -/
def CharKinds.wordsep (K : CharKinds) (before : Str) : Str → Str × Str
  | [] => ([], [])
  | c :: rest =>
    if isSpace c then ((c :: rest).takeWhile isSpace, (c :: rest).dropWhile isSpace)
    else match (if K.afterWord before then K.emDash (c :: rest) else none) with
      | some n => ((c :: rest).take n, (c :: rest).drop n)
      | none => (c :: (K.takeWord (c :: before) rest).1, (K.takeWord (c :: before) rest).2)

/-- `wordsep_re.split(text)` without the empty strings. -/
def CharKinds.splitFrom (K : CharKinds) : Nat → Str → Str → List Str
  | 0, _, _ => []
  | _ + 1, _, [] => []
  | n + 1, before, c :: rest =>
    (K.wordsep before (c :: rest)).1 :: K.splitFrom n ((K.wordsep before (c :: rest)).1.reverse ++ before) (K.wordsep before (c :: rest)).2

/-- textwrap.py `_split`. -/
def CharKinds.splitChunks (K : CharKinds) (text : Str) : List Str := K.splitFrom text.length [] text

/-- `chunk.strip() == ''` -/
def CharKinds.blank (K : CharKinds) (chunk : Str) : Bool := chunk.all K.space

/-- The inner loop of `_wrap_chunks`: the chunks that fit into the line, and the others. -/
def takeFit (width : Int) : Nat → List Str → List Str × List Str
  | _, [] => ([], [])
  | cur, c :: cs =>
    if (cur : Int) + c.length ≤ width then (c :: (takeFit width (cur + c.length) cs).1, (takeFit width (cur + c.length) cs).2)
    else ([], c :: cs)

/-- `chunk.rfind('-')` -/
def rfindHyphen (s : Str) : Option Nat :=
  let tail := s.reverse.takeWhile (· ≠ '-')
  if tail.length < s.length then some (s.length - 1 - tail.length) else none

/-- textwrap.py `_handle_long_word`: where a chunk is broken. -/
def breakAt (chunk : Str) (space : Nat) : Nat :=
  if chunk.length > space then
    match rfindHyphen (chunk.take space) with
    | some h => if 0 < h ∧ (chunk.take h).any (· ≠ '-') = true then h + 1 else space
    | none => space
  else space

/-- textwrap.py `_handle_long_word`, called if the next chunk does not fit into any line. -/
def longWord (width : Int) (line chunks : List Str) : List Str × List Str :=
  match chunks with
  | [] => (line, [])
  | c :: cs =>
    if width < c.length then
      let e := breakAt c (if width < 1 then 1 else (width - line.flatten.length).toNat)
      (line ++ [c.take e], c.drop e :: cs)
    else (line, c :: cs)

/-- A line does not end in a chunk that is blank. -/
def CharKinds.dropLast (K : CharKinds) (line : List Str) : List Str :=
  match line.getLast? with
  | some c => if K.blank c then line.dropLast else line
  | none => line

/-- Only the first line may begin with a chunk that is blank. -/
def CharKinds.dropFirst (K : CharKinds) (started : Bool) : List Str → List Str
  | [] => []
  | c :: cs => if K.blank c && started then cs else c :: cs

/-- One line: what is on it, and what remains. -/
def CharKinds.oneLine (K : CharKinds) (width : Int) (started : Bool) (chunks : List Str) : List Str × List Str :=
  let fit := takeFit width 0 (K.dropFirst started chunks)
  let long := longWord width fit.1 fit.2
  (K.dropLast long.1, long.2)

/-- textwrap.py `_wrap_chunks`; `started` tells whether there are lines already. The first argument bounds the number of passes, `none` if there are more. -/
def CharKinds.wrapChunks (K : CharKinds) (width : Int) (first other : Str) : Nat → Bool → List Str → Option (List Str)
  | _, _, [] => some []
  | 0, _, _ :: _ => none
  | n + 1, started, c :: cs =>
    let indent := if started then other else first
    let one := K.oneLine (width - indent.length) started (c :: cs)
    match one.1 with
    | [] => K.wrapChunks width first other n started one.2
    | line => (K.wrapChunks width first other n true one.2).map fun lines => (indent ++ line.flatten) :: lines

/-- textwrap.py `wrap`: the lines, `none` if it raises ValueError (or does not return). -/
def CharKinds.wrap (K : CharKinds) (width : Int) (first other text : Str) : Option (List Str) :=
  if width ≤ 0 then none
  else
    let chunks := K.splitChunks (mungeWhitespace text)
    K.wrapChunks width first other (chunks.flatten.length + chunks.length) false chunks

/-- `" " * n` -/
def blanks (n : Nat) : Str := List.replicate n ' '

/-- `__init__.py`:55 `OUTPUT_WIDTH` with `shutil.get_terminal_size((100, 100))[0]`: the variable COLUMNS if it is a positive number, the width of the terminal if it
is positive, or 100. -/
def outputWidth (columns terminal : Option Nat) : Int :=
  let usable := fun (n : Option Nat) => n.filter (0 < ·)
  (((usable columns).orElse fun _ => usable terminal).getD 100 : Nat) - 2

/-- A message: logger.py:53-73. -/
structure Message where
  category : Str
  text : Str
  tag : Option Str
deriving DecidableEq, Repr

/-- logger.py:48-51: the lines of a message. -/
def CharKinds.messageLines (K : CharKinds) (width : Int) (m : Message) : Option (List Str) :=
  K.wrap width [] (blanks (m.category.length + 2)) (m.category ++ ": ".toList ++ m.text)

/-- logger.py:41-46: the messages that are printed, in this order, by one process; `tags` is `Logger.tags_emitted`. -/
def printMessages : List Str → List Message → List Message
  | _, [] => []
  | tags, m :: ms =>
    match m.tag with
    | none => m :: printMessages tags ms
    | some t => if tags.contains t then printMessages tags ms else m :: printMessages (t :: tags) ms

/-- An element of `ArgumentParser.help_output`. -/
inductive HelpItem where
  | group (name : Str)
  | option (strings : List Str) (action : Action) (metavar : Option Str) (help : Str)

/-- argparse.py:174-180 `Option.get_name`; `none` is the ArgumentError. -/
def optionName (strings : List Str) : Option Str :=
  (strings.find? fun s => !startsWith s ['-'] || startsWith s "--".toList).map fun s =>
    (s.dropWhile (· = '-')).map fun c => if c = '-' then '_' else c

/-- argparse.py:164-170: the name of the argument of the option. -/
def optionMetavar (strings : List Str) (action : Action) (metavar : Option Str) : Option Str :=
  match action with
  | .store | .storeOptional _ | .append | .arguments =>
    match metavar with
    | some m => some m
    | none => (optionName strings).map fun n => '<' :: n ++ ['>']
  | _ => none

/-- argparse.py:274-285 `format_option`. -/
def formatOption (strings : List Str) (action : Action) (metavar : Option Str) : Str :=
  match metavar with
  | some m =>
    match action with
    | .arguments => m
    | .storeOptional _ => (", ".toList.intercalate strings) ++ " [".toList ++ m ++ "]".toList
    | _ => (", ".toList.intercalate strings) ++ " ".toList ++ m
  | none => ", ".toList.intercalate strings

/-- argparse.py:257-272: what `print_help` prints for one element; `none` is the ValueError of `textwrap.fill`. -/
def CharKinds.helpItem (K : CharKinds) (width : Int) : HelpItem → Option Str
  | .group name => some ("\n".toList ++ name ++ ":\n".toList)
  | .option strings action metavar help =>
    (K.wrap width (blanks 27) (blanks 27) help).map fun lines =>
      let text := ['\n'].intercalate lines
      let name := formatOption strings action (optionMetavar strings action metavar)
      if name.length > 25 then "  ".toList ++ name ++ "\n".toList ++ text ++ "\n".toList
      else "  ".toList ++ name ++ blanks (25 - name.length) ++ text.dropWhile K.space ++ "\n".toList

/-- argparse.py:250-272 `print_help`. -/
def CharKinds.printHelp (K : CharKinds) (width : Int) (usage : Str) (items : List HelpItem) : Option Str :=
  (items.mapM (K.helpItem width)).map fun blocks => "usage: ".toList ++ usage ++ "\n".toList ++ blocks.flatten

/-- arguments.py:44-171: the names of the arguments of the options. -/
def ffMetavar (o : ArgOpt) : Option Str :=
  (List.lookup (o.strings.headD []) ([("tests", "<test/directory>"), ("--debug", "<categories>"), ("--cache", "<path>"), ("-j", "<num>"), ("-D", "<path>"),
    ("-h", "<plugin>"), ("-e", "<test>"), ("--ignore-files", "<filename-list>"), ("-d", "<range>"), ("-c", "<mode>"), ("-x", "<cmd>"), ("-X", "<cmd>"),
    ("--halt", "<when>"), ("-C", "<when>"), ("-S", "<attribute-list>"), ("--count", "<attribute-list>"), ("-l", "<slice>"), ("-o", "<attribute-list>"),
    ("--sep", "<string>")].map fun p => (p.1.toList, p.2.toList)))

/-- arguments.py:50, 72, 87, 115: the groups, by the first option of each. -/
def ffGroup (o : ArgOpt) : List HelpItem :=
  match List.lookup (o.strings.headD []) ([("tests", "Global options"), ("-h", "Commands"), ("-e", "Search options"), ("--fail", "Output options")].map
    fun p => (p.1.toList, p.2.toList)) with
  | some name => [.group name]
  | none => []

/-- arguments.py:44-171: `help_output` of the parser of ff; `text` is the help text of an option. -/
def ffHelp (env : ArgEnv) (text : ArgOpt → Str) : List HelpItem :=
  (ffOptions env).flatMap fun o => ffGroup o ++ [.option o.strings o.action (ffMetavar o) (text o)]

end FF
