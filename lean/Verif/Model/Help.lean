import Verif.Model.Message
import Verif.Model.Parser
import Verif.Model.Field
/-! Model of /repo/libff/help.py: the reference pages of --help-attributes, --help-plugins, --help-types and --help <plugin>, in the language of roff(7).
The date and the version in the title are parameters. The full manual (`FullManPage`) is not modelled. -/
namespace FF

/-- help.py:32 -/
def bdFont : Str := "\\fB".toList
/-- help.py:33 -/
def itFont : Str := "\\fI".toList
/-- help.py:34 -/
def rsFont : Str := "\\fR".toList
/-- help.py:35 -/
def brLine : Str := ".br".toList

/-! ### `process` -/

/-- `string.split("\n\n")` -/
def splitNN : Str → List Str
  | [] => [[]]
  | [c] => [[c]]
  | c :: d :: s =>
    if c = '\n' ∧ d = '\n' then [] :: splitNN s
    else match splitNN (d :: s) with
      | [] => [[c]]
      | w :: ws => (c :: w) :: ws

/-- `s.split()`; the second argument is the word that has begun. -/
def pyWords (space : Char → Bool) : Str → Str → List Str
  | w, [] => if w = [] then [] else [w]
  | w, c :: s => if space c then (if w = [] then pyWords space [] s else w :: pyWords space [] s) else pyWords space (w ++ [c]) s

/-- help.py:158-159 -/
def collapse (K : CharKinds) (string : Str) : Str := joinStr ['\n', '\n'] ((splitNN string).map fun s => joinStr [' '] (pyWords K.space [] s))

/-- help.py:178, 162-164: `'(?!s\s)([^']+)'` -/
def quoteMatch (K : CharKinds) : Str → Option (Str × Str)
  | [] => none
  | q :: t =>
    if q ≠ '\'' ∨ (t.head? = some 's' ∧ ∃ c ∈ (t.drop 1).head?, K.space c = true) ∨ t.takeWhile (· ≠ '\'') = [] ∨ t.dropWhile (· ≠ '\'') = [] then none
    else some (['\''] ++ (itFont ++ t.takeWhile (· ≠ '\'') ++ rsFont) ++ ['\''], (t.dropWhile (· ≠ '\'')).tail)

/-- help.py:179, 165-167: two backticks, text without backticks, two backticks -/
def ticksMatch (s : Str) : Option (Str × Str) :=
  if s.take 2 ≠ ['`', '`'] ∨ (s.drop 2).takeWhile (· ≠ '`') = [] ∨ ((s.drop 2).dropWhile (· ≠ '`')).take 2 ≠ ['`', '`'] then none
  else some (itFont ++ (s.drop 2).takeWhile (· ≠ '`') ++ rsFont, ((s.drop 2).dropWhile (· ≠ '`')).drop 2)

/-- help.py:180, 168-170: a backtick, text without backticks, a backtick -/
def tickMatch (s : Str) : Option (Str × Str) :=
  if s.take 1 ≠ ['`'] ∨ (s.drop 1).takeWhile (· ≠ '`') = [] ∨ ((s.drop 1).dropWhile (· ≠ '`')).take 1 ≠ ['`'] then none
  else some (bdFont ++ (s.drop 1).takeWhile (· ≠ '`') ++ rsFont, ((s.drop 1).dropWhile (· ≠ '`')).drop 1)

/-- `[a-z_-]` -/
def isPageChar (c : Char) : Bool := c.isLower || c = '_' || c = '-'

/-- help.py:181, 171-173: `([a-z_-]+)(\(\d\))` -/
def pageMatch (K : CharKinds) (s : Str) : Option (Str × Str) :=
  match s.dropWhile isPageChar with
  | p :: d :: q :: rest =>
    if s.takeWhile isPageChar = [] ∨ p ≠ '(' ∨ q ≠ ')' ∨ K.digit d = false then none
    else some ((bdFont ++ s.takeWhile isPageChar ++ rsFont) ++ [p, d, q], rest)
  | _ => none

/-- `[a-zA-Z-]` -/
def isOptionChar (c : Char) : Bool := c.isAlpha || c = '-'

/-- help.py:182, 174-176: `(?<![a-zA-Z])(\-[a-zA-Z]|\-\-[a-zA-Z-]+)`; `prev` is the character before -/
def optionMatch (prev : Option Char) : Str → Option (Str × Str)
  | d :: c :: t =>
    if d ≠ '-' ∨ (prev.any Char.isAlpha) = true then none
    else if c.isAlpha then some (bdFont ++ [d, c] ++ rsFont, t)
    else if c = '-' ∧ t.takeWhile isOptionChar ≠ [] then some (bdFont ++ (d :: c :: t.takeWhile isOptionChar) ++ rsFont, t.dropWhile isOptionChar)
    else none
  | _ => none

/-- help.py:161-182: the replacement and the rest if the regular expression matches here; its alternatives are tried in order. -/
def helpMatch (K : CharKinds) (prev : Option Char) (s : Str) : Option (Str × Str) :=
  (quoteMatch K s).orElse fun _ => (ticksMatch s).orElse fun _ => (tickMatch s).orElse fun _ => (pageMatch K s).orElse fun _ => optionMatch prev s

/-- help.py:178-182 `re.sub`; the first argument bounds the number of steps. -/
def helpSub (K : CharKinds) : Nat → Option Char → Str → Str
  | _, _, [] => []
  | 0, _, s => s
  | n + 1, prev, c :: s =>
    match helpMatch K prev (c :: s) with
    | some (r, rest) => r ++ helpSub K n ((c :: s).take ((c :: s).length - rest.length)).getLast? rest
    | none => c :: helpSub K n (some c) s

/-- help.py:185: `string.replace("-", "\\-")` -/
def escapeDashes : Str → Str
  | [] => []
  | c :: s => if c = '-' then '\\' :: '-' :: escapeDashes s else c :: escapeDashes s

/-- help.py:155-185 `process` -/
def roffProcess (K : CharKinds) (string : Str) : Str :=
  escapeDashes (helpSub K (collapse K string).length none (collapse K string))

/-! ### Lines -/

/-- help.py:199-202 `add_section` -/
def roffSection (name : Str) : Str := ".SH ".toList ++ upper name

/-- help.py:209-212 `add_definition` -/
def roffDefinition (name : Str) : Str := ".IP \"".toList ++ bdFont ++ name ++ rsFont ++ "\" 4".toList

/-- help.py:192-197 `add_header` -/
def roffHeader (name sect date version title : Str) : List Str :=
  [".TH ".toList ++ name ++ [' '] ++ sect ++ " \"".toList ++ date ++ "\" \"Version ".toList ++ version ++ "\" \"".toList ++ title ++ ['"'], ".nh".toList]

/-- A type as far as the pages show it; `count` is the name of `Count`. -/
structure HelpType where
  name : Str
  operators : List Str
  count : Str
  doc : Option Str

/-- A plugin as far as the pages show it. -/
structure HelpPlugin where
  name : Str
  /-- `__doc__`, `none` if the class has none -/
  doc : Option Str
  attributes : List (Str × HelpType × Str)
  source : Str
  path : Str
  useCache : Bool
  author : Str
  email : Str
  url : Str

/-- The date and the version in the title. -/
structure HelpEnv where
  kinds : CharKinds
  date : Str
  version : Str

/-- help.py:214-221 `start` -/
def helpStart (E : HelpEnv) (name sect title : Str) (description : Option Str) : List Str :=
  roffHeader name sect E.date E.version title ++
    match description with
    | none => []
    | some d => if d = [] then [] else [roffSection "Description".toList, roffProcess E.kinds d, roffProcess E.kinds []]

/-- help.py:227-233: the name and the line about the type of an attribute -/
def attributeTitle (plugin attr : Str) : Str := if plugin = "file".toList then "[file.]".toList ++ attr else plugin ++ ['.'] ++ attr

/-- help.py:233 -/
def typeText (t : HelpType) : Str := "Type: ".toList ++ t.name ++ "  ( ".toList ++ joinStr [' '] t.operators ++ " )".toList

/-- help.py:223-238 `render_attributes` -/
def renderAttributes (E : HelpEnv) (p : HelpPlugin) : List Str :=
  (p.attributes.flatMap fun a => [roffDefinition (attributeTitle p.name a.1), roffProcess E.kinds (typeText a.2.1), roffProcess E.kinds brLine, roffProcess E.kinds a.2.2,
    roffProcess E.kinds []]) ++ [roffProcess E.kinds []]

/-- help.py:240-252 `render_plugin_detail` -/
def renderDetail (E : HelpEnv) (p : HelpPlugin) (full : Bool) : List Str :=
  (["Name: ".toList ++ p.name, "Source: ".toList ++ p.source, "Path: ".toList ++ p.path, "Uses cache: ".toList ++ (if p.useCache then "Yes".toList else "No".toList)] ++
    (if full then ["Author: ".toList ++ p.author, "Email: ".toList ++ p.email, "Url: ".toList ++ p.url] else [])).flatMap
    fun l => [roffProcess E.kinds l, roffProcess E.kinds brLine]

/-- help.py:282-294 -/
def attributesDescription : Str :=
  ("\n        This is a list of all the attributes that are available. Attributes are provided by\n        plugins. For more details on a specific plugin use 'ff --help <plugin>'. Please note that\n" ++
   "        if you got this help text by using 'man 7 ff', the information you get is limited to the\n        builtin plugins. Use 'ff --help-attributes' to get the full attribute list from all plugins\n" ++
   "        that are available right now.\n    ").toList

/-- help.py:300-316 `AttributesManPage`; `none` is the AttributeError of `self.add(None)` -/
def attributesPage (E : HelpEnv) (plugins : List HelpPlugin) : Option (List Str) :=
  (mapOption (fun p : HelpPlugin => p.doc.map fun d => [roffSection (p.name ++ " Plugin".toList), roffProcess E.kinds [], roffProcess E.kinds d, roffProcess E.kinds []] ++
    renderAttributes E p) plugins).map fun parts =>
  helpStart E "ff".toList "7".toList "ff Plugin Attributes Reference".toList (some attributesDescription) ++ parts.flatten ++
    [roffSection "See Also".toList, roffProcess E.kinds "ff(1)".toList]

/-- help.py:319-347 `PluginManPage` -/
def pluginPage (E : HelpEnv) (p : HelpPlugin) : List Str :=
  helpStart E ("ff-".toList ++ p.name) "1".toList (p.name ++ " Plugin Reference".toList) p.doc ++ [roffSection "Attributes".toList, roffProcess E.kinds []] ++
    renderAttributes E p ++ [roffSection "Details".toList] ++ renderDetail E p true ++ [roffSection "See Also".toList, roffProcess E.kinds "ff(1), ff(7)".toList]

/-- help.py:350-361 -/
def typesDescription : Str :=
  ("\n        This is a list of all the types that are available. Furthermore, there is information about\n        which test operators are supported by each type and if and how attributes of certain types\n" ++
   "        will be counted ('ff --count').\n    ").toList

/-- help.py:363-387 `TypesManPage`; `none` as in `attributesPage` -/
def typesPage (E : HelpEnv) (types : List HelpType) : Option (List Str) :=
  (mapOption (fun t : HelpType => t.doc.map fun d => [roffSection (t.name ++ " Type".toList), roffProcess E.kinds ("Name:  ".toList ++ t.name), roffProcess E.kinds brLine,
    roffProcess E.kinds ("Operators:  ".toList ++ joinStr [' '] t.operators), roffProcess E.kinds brLine, roffProcess E.kinds ("Count: ".toList ++ t.count),
    roffProcess E.kinds [], roffProcess E.kinds d, roffProcess E.kinds []]) types).map fun parts =>
  helpStart E "ff-types".toList "7".toList "ff Types Reference".toList (some typesDescription) ++ parts.flatten ++
    [roffSection "See Also".toList, roffProcess E.kinds "ff(1), ff(7)".toList]

/-- help.py:390-400 -/
def pluginsDescription : Str :=
  ("\n        This is a list of all the plugins that are currently available. For more details on a\n        specific plugin use 'ff --help <plugin>'.\n    ").toList

/-- help.py:402-421 `PluginsManPage`; `none` as in `attributesPage` -/
def pluginsPage (E : HelpEnv) (plugins : List HelpPlugin) : Option (List Str) :=
  (mapOption (fun p : HelpPlugin => p.doc.map fun d => [roffSection (p.name ++ " Plugin".toList)] ++ renderDetail E p false ++ [roffProcess E.kinds [], roffProcess E.kinds d]) plugins).map
  fun parts => helpStart E "ff-plugins".toList "7".toList "ff Plugins Reference".toList (some pluginsDescription) ++ parts.flatten ++
    [roffSection "See Also".toList, roffProcess E.kinds "ff(1), ff(7)".toList]

/-- help.py:254-267: what is passed to man(1) -/
def pageText (lines : List Str) : Str := joinStr ['\n'] lines

end FF
