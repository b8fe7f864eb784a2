import Verif.Model.StatAttr
import Verif.Model.Plugins
import Verif.Model.Grep
import Verif.Model.Git
import Verif.Model.Introspect
import Verif.Model.Media
/-! What plugins return, and how it is checked in debug mode (/repo/libff/registry.py:238-273, /repo/libff/type.py:115-122, 237-241). -/
namespace FF

/-- Objects of Python, as far as they can be told from each other by the checks. -/
inductive PyAtom
  | str (s : Str)
  | int (n : Int)
  | bool (b : Bool)
  | none
  | other
  deriving DecidableEq

inductive PyVal
  | atom (a : PyAtom)
  | list (l : List PyAtom)
  | set (l : List PyAtom)
  deriving DecidableEq

/-- `isinstance(v, str)` -/
def PyAtom.isStr : PyAtom → Bool
  | .str _ => true
  | _ => false

/-- type.py:115-122 with the types of `sort_none` (type.py:136, 196, 249, 285, 439), and type.py:237-241. `bool` is a subclass of `int`. -/
def Ty.checkType : Ty → PyVal → Bool
  | .string, .atom a | .path, .atom a | .fileType, .atom a => a.isStr
  | .listOfStrings, .list l | .listOfStrings, .set l => l.all PyAtom.isStr
  | .boolean, .atom (.bool _) => true
  | .number, .atom (.int _) | .mode, .atom (.int _) | .size, .atom (.int _) | .time, .atom (.int _) | .duration, .atom (.int _) => true
  | .number, .atom (.bool _) | .mode, .atom (.bool _) | .size, .atom (.bool _) | .time, .atom (.bool _) | .duration, .atom (.bool _) => true
  | _, _ => false

/-- `dict(pairs)` -/
def pyDict {β : Type} (l : List (Str × β)) : List (Str × β) := l.foldl (fun d r => dictSet d r.1 r.2) []

/-- registry.py:266-268: the check of one pair. -/
def PluginDef.accepts (p : PluginDef) (r : Str × PyVal) : Bool :=
  match p.attrs.lookup r.1 with
  | none => false
  | some ty => ty.checkType r.2

/-- registry.py:262-273: what becomes of the pairs that `process` yields; `none` is BadPluginError (or BadAttributeError, which registry.py:234-236 makes the same). -/
def checkData (debug : Bool) (p : PluginDef) (pairs : List (Str × PyVal)) : Option (List (Str × PyVal)) :=
  let data := pyDict pairs
  if debug && !data.all p.accepts then none
  else some data

/-- plugins/fs.py:76-79 -/
def fsPlugin : PluginDef where
  name := "fs".toList
  speed := 0
  attrs := [("type", Ty.string), ("remote", .boolean)].map (fun a => (a.1.toList, a.2))

/-- plugins/git.py:61-71 -/
def gitPlugin : PluginDef where
  name := "git".toList
  speed := 2
  attrs := [("tracked", Ty.boolean), ("dirty", .boolean), ("repo_dir", .string), ("repo", .boolean)].map (fun a => (a.1.toList, a.2))

/-- plugins/hash.py:26-30, 49-53: one plugin for each algorithm. -/
def hashPlugin (name : Str) : PluginDef where
  name := name
  speed := 2
  attrs := [(name, .string)]

/-- plugins/introspect.py:27-37 -/
def elfPlugin : PluginDef where
  name := "elf".toList
  speed := 1
  attrs := [("sonames".toList, .listOfStrings)]

/-- plugins/introspect.py:82-89 -/
def shebangPlugin : PluginDef where
  name := "shebang".toList
  speed := 1
  attrs := [("shebang".toList, .string)]

/-- plugins/introspect.py:114-121 -/
def pyPlugin : PluginDef where
  name := "py".toList
  speed := 1
  attrs := [("imports".toList, .listOfStrings)]

/-- plugins/pacman.py:27-36 -/
def pacmanPlugin : PluginDef where
  name := "pacman".toList
  speed := 1
  attrs := [("installed", Ty.boolean), ("pkgname", .string)].map (fun a => (a.1.toList, a.2))

/-- plugins/xattr.py:27-33 -/
def xattrPlugin : PluginDef where
  name := "xattr".toList
  speed := 1
  attrs := [("xattrs".toList, .listOfStrings)]

def PyVal.str (s : Str) : PyVal := .atom (.str s)
def PyVal.bool (b : Bool) : PyVal := .atom (.bool b)

/-- plugins/fs.py:107-110 -/
def fsPairs (r : Str × Bool) : List (Str × PyVal) := [("type".toList, .str r.1), ("remote".toList, .bool r.2)]

/-- plugins/git.py:105-117 -/
def gitPairs (d : GitData) : List (Str × PyVal) :=
  [("repo_dir".toList, .str d.repoDir), ("repo".toList, .bool d.repo), ("tracked".toList, .bool d.tracked), ("dirty".toList, .bool d.dirty)]

/-- plugins/hash.py:40, 44-45 -/
def hashPairs (name hexdigest : Str) : List (Str × PyVal) := [(name, .str hexdigest)]

/-- plugins/introspect.py:74-78 -/
def elfPairs (names : List Str) : List (Str × PyVal) := [("sonames".toList, .list (names.map .str))]

/-- plugins/introspect.py:108-111 -/
def shebangPairs (s : Option Str) : List (Str × PyVal) := match s with
  | none => []
  | some s => [("shebang".toList, .str s)]

/-- plugins/introspect.py:152-156 -/
def pyPairs (imports : List Str) : List (Str × PyVal) := [("imports".toList, .list (imports.map .str))]

/-- plugins/pacman.py:50-57: `pkgname` is yielded for each package with the file. -/
def pacmanPairs (files : List (Str × Str)) (path : Str) : List (Str × PyVal) :=
  if path ∈ files.map Prod.snd then
    ("installed".toList, .bool true) :: ((pkgNames files).filter (fun n => (n, path) ∈ files)).map (fun n => ("pkgname".toList, .str n))
  else [("installed".toList, .bool false)]

/-- plugins/tar.py:51-59: a set, in some order. -/
def tarPairs (members : List Str) : List (Str × PyVal) := [("members".toList, .set (members.map .str))]

/-- plugins/xattr.py:38-51 -/
def xattrPairs (attrs : Option (List XAttr)) : List (Str × PyVal) := [("xattrs".toList, .list ((xattrValue attrs).elems.map .str))]

/-- builtin/grep.py:38-51 -/
def grepPairs (content : Option Str) : List (Str × PyVal) :=
  let d := grepProcess content
  [("text".toList, .bool d.text)] ++ (match d.linecount, d.lines with
    | some n, some l => [("linecount".toList, .atom (.int n)), ("lines".toList, .list (l.map .str))]
    | _, _ => [])

/-- builtin/mime.py:62-69; `none` is the IndexError. The three texts are those of libmagic. -/
def mimePairs (mime encoding name : Str) : Option (List (Str × PyVal)) :=
  (mimeParts mime).map fun p =>
    [("mime".toList, .str mime), ("type".toList, .str p.1), ("subtype".toList, .str p.2), ("encoding".toList, .str encoding), ("name".toList, .str name)]

/-- builtin/ignore.py:84-87 -/
def ignorePairs (r : Bool × Str) : List (Str × PyVal) := [("ignored".toList, .bool r.1), ("path".toList, .str r.2)]

/-! The medium plugin once more, without assumptions about what pymediainfo returns: `track.attr` may be a text, a number or None. -/

/-- A track of pymediainfo: the value of each attribute, None if there is none. -/
structure RawTrack where
  kind : Str
  get : Str → PyAtom

/-- `bool(value)` -/
def PyAtom.truth : PyAtom → Bool
  | .str s => s ≠ []
  | .int n => n ≠ 0
  | .bool b => b
  | .none => false
  | .other => true

/-- media.py:66-73: the first track of a kind, and all general tracks. -/
def firstTrack (kind : Str) (tracks : List RawTrack) : Option RawTrack := tracks.find? (fun t => t.kind = kind)

/-- media.py:94-95 -/
def mediumTags : List (Str × Str) :=
  [("artist", "performer"), ("album", "album"), ("title", "title"), ("genre", "genre"), ("date", "recorded_date")].map (fun a => (a.1.toList, a.2.toList))

/-- media.py:92-98 -/
def mediumTagPairs (tracks : List RawTrack) : List (Str × PyVal) :=
  (tracks.filter (fun t => t.kind = kindGeneral)).flatMap fun t =>
    (mediumTags.filter (fun a => (t.get a.2).truth)).map (fun a => (a.1, .atom (t.get a.2)))

/-- media.py:103-105, 110-112 -/
def mediumSizePairs (t : RawTrack) : List (Str × PyVal) :=
  if t.get "height".toList ≠ .none ∧ t.get "width".toList ≠ .none then [("width".toList, .atom (t.get "width".toList)), ("height".toList, .atom (t.get "height".toList))] else []

/-- media.py:108-109; the outer `none` is AttributeError. -/
def mediumFormatPairs (lower : Str → Str) (t : RawTrack) : Option (List (Str × PyVal)) :=
  match t.get "format".toList with
  | .none => some []
  | .str s => some [("format".toList, .str (lower s))]
  | _ => none

/-- media.py:115-123 for one track: `int(duration / 1000)`; `none` is ValueError or TypeError. `float` is the number a text stands for, divided by 1000 and cut off. -/
def mediumDurationPairs (float : Str → Option Int) (t : RawTrack) : Option (List (Str × PyVal)) :=
  match t.get "duration".toList with
  | .none => some []
  | .str s => (float s).map fun n => [("duration".toList, .atom (.int n))]
  | .int n => some [("duration".toList, .atom (.int (n.tdiv 1000)))]
  | .bool _ => some [("duration".toList, .atom (.int 0))]
  | .other => none

/-- media.py:100-112: what video and image say about the size and the format. -/
def mediumVisual (lower : Str → Str) (video image : Option RawTrack) : Option (List (Str × PyVal)) :=
  match video with
  | some v => some (mediumSizePairs v)
  | none => match image with
    | some t => (mediumFormatPairs lower t).map (· ++ mediumSizePairs t)
    | none => some []

/-- media.py:115-117 -/
def mediumDurationOf (float : Str → Option Int) (track : Option RawTrack) : Option (List (Str × PyVal)) :=
  match track with
  | some t => mediumDurationPairs float t
  | none => some []

/-- media.py:82-126 `cache` and `process`; `none` is an exception other than NoData. -/
def mediumPairs (lower : Str → Str) (float : Str → Option Int) (tracks : List RawTrack) : Option (List (Str × PyVal)) := do
  let visual ← mediumVisual lower (firstTrack kindVideo tracks) (firstTrack kindImage tracks)
  let d1 ← mediumDurationOf float (firstTrack kindVideo tracks)
  let d2 ← mediumDurationOf float (firstTrack kindAudio tracks)
  pure (mediumTagPairs tracks ++ visual ++ d1 ++ d2)

end FF
