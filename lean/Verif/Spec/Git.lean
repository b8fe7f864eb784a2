import Verif.Spec.Entry
/-! Git repositories, and what git(1) prints. -/
namespace FF.Spec

/-- The absolute path of a file given by the names on the way from the root. -/
def absPath (names : List Str) : Str := '/' :: pathOf names

/-- The directory, among a directory and those it is in, that is nearest and has a property. -/
def Nearest (has : List Str → Prop) (dir : List Str) : Option (List Str) → Prop
  | some p => p <+: dir ∧ has p ∧ ∀ q, q <+: dir → has q → q <+: p
  | none => ∀ q, q <+: dir → ¬ has q

/-- Octal digits of a byte. -/
def octal (b : UInt8) : Str := [Char.ofNat (48 + b.toNat / 64), Char.ofNat (48 + b.toNat / 8 % 8), Char.ofNat (48 + b.toNat % 8)]

/-- Characters git prints as they are: printable ASCII characters other than quotes and backslashes (`core.quotePath` is on by default). -/
def PlainChar (c : Char) : Prop := ' ' ≤ c ∧ c ≤ '~' ∧ c ≠ '"' ∧ c ≠ '\\'

instance (c : Char) : Decidable (PlainChar c) := by unfold PlainChar; infer_instance

/-- git(1): the escape of a character in quotes. -/
def gitEscape (c : Char) : Str :=
  if PlainChar c then [c]
  else if c = '"' then ['\\', '"'] else if c = '\\' then ['\\', '\\'] else if c = '\n' then ['\\', 'n'] else if c = '\t' then ['\\', 't']
  else if c = '\r' then ['\\', 'r'] else if c = '\x0b' then ['\\', 'v'] else if c = '\x0c' then ['\\', 'f'] else if c = '\x08' then ['\\', 'b']
  else if c = '\x07' then ['\\', 'a']
  else (String.utf8EncodeChar c).flatMap (fun b => '\\' :: octal b)

/-- A name in quotes. -/
def gitQuoted (name : Str) : Str := '"' :: name.flatMap gitEscape ++ ['"']

/-- git-ls-files(1): one name per line; names with special characters are quoted. -/
def gitLsFiles (files : List (List Str)) : Str :=
  files.flatMap (fun f => (if ∀ c ∈ pathOf f, PlainChar c then pathOf f else gitQuoted (pathOf f)) ++ ['\n'])

/-- git-status(1): names are also quoted if there is a space in them. -/
def gitStatusName (f : List Str) : Str := if (∀ c ∈ pathOf f, PlainChar c) ∧ ' ' ∉ pathOf f then pathOf f else gitQuoted (pathOf f)

/-- What git-status(1) tells about: tracked files whose content, type or presence changed, renamed files, and untracked files. -/
inductive GitChange
  | changed (x y : Char) (file : List Str)
  | renamed (x y : Char) (old new : List Str)
  | untracked (file : List Str)

/-- git-status(1), the format `--porcelain`. -/
def GitChange.line : GitChange → Str
  | .changed x y f => x :: y :: ' ' :: gitStatusName f
  | .renamed x y a b => x :: y :: ' ' :: gitStatusName a ++ " -> ".toList ++ gitStatusName b
  | .untracked f => '?' :: '?' :: ' ' :: gitStatusName f

/-- git-status(1): the whole output. -/
def gitPorcelain (changes : List GitChange) : Str := changes.flatMap (fun c => c.line ++ ['\n'])

/-- git-status(1): the two letters of a changed file. -/
def StatusLetters (x y : Char) : Prop := x ∈ " MTADRCU".toList ∧ y ∈ " MTADRCU".toList ∧ ¬ (x = ' ' ∧ y = ' ')

/-- Names relative to the base directory of a repository. -/
def RepoFile (f : List Str) : Prop := f ≠ [] ∧ ∀ x ∈ f, IsFileName x

/-- Names without special characters. -/
def PlainFile (f : List Str) : Prop := ∀ c ∈ pathOf f, PlainChar c

/-- Names without special characters and without spaces. -/
def SimpleFile (f : List Str) : Prop := PlainFile f ∧ ' ' ∉ pathOf f

/-- The file is the given one or, for a directory, inside of it. -/
def Concerns (rel : List Str) (isDir : Bool) (f : List Str) : Prop := if isDir then rel <+: f ∧ rel ≠ f else rel = f

/-- Lines that git-status(1) prints. -/
def GitChange.Proper : GitChange → Prop
  | .changed x y f => StatusLetters x y ∧ RepoFile f
  | .renamed x y a b => StatusLetters x y ∧ RepoFile a ∧ RepoFile b
  | .untracked f => RepoFile f

/-- The tracked file in its present place that a line is about. -/
def GitChange.file : GitChange → Option (List Str)
  | .changed _ _ f => some f
  | .renamed _ _ _ b => some b
  | .untracked _ => none

/-- git(1) prints what it knows about every repository: the tracked files and the changes. -/
structure GitPrints (lsFiles status : Str → Str) (tracked : List Str → List (List Str)) (changes : List Str → List GitChange) : Prop where
  ls : ∀ p, lsFiles (absPath p) = gitLsFiles (tracked p)
  st : ∀ p, status (absPath p) = gitPorcelain (changes p)
  files : ∀ p, ∀ f ∈ tracked p, RepoFile f
  proper : ∀ p, ∀ c ∈ changes p, c.Proper

end FF.Spec
