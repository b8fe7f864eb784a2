import Verif.Model.Introspect
/-!
Which files the plugins open, and what becomes of the errors that occur while they read them. The libraries that do the reading are parameters: the value they
return or the exception they raise.
-/
namespace FF

/-- Python's exceptions, as far as they matter here. -/
inductive PyExc where
  | osError | eofError | unicodeDecodeError | valueError | syntaxError | runtimeError | typeError
  /-- `elftools.common.exceptions.ELFError` -/
  | elfError
  /-- `tarfile.TarError` and its subclasses `ReadError`, `CompressionError`, ... -/
  | tarError
  /-- `libff.NoData` -/
  | noData
  deriving DecidableEq, Repr

/-- `isinstance(exc, cls)`: UnicodeDecodeError is a subclass of ValueError. -/
def PyExc.isA (exc cls : PyExc) : Bool := exc = cls || (exc = .unicodeDecodeError && cls = .valueError)

/-- `try: x except classes: handler`. -/
def tryExcept {α : Type _} (x : Except PyExc α) (classes : List PyExc) (handler : Except PyExc α) : Except PyExc α :=
  match x with
  | .ok a => .ok a
  | .error e => if classes.any e.isA then handler else .error e

/-- What registry.py:222-236 `get_data` makes of the outcome: the values, none if there is no data, or BadPluginError (`none`), which ends the search. -/
def getData {α : Type _} (x : Except PyExc (List α)) : Option (List α) :=
  match x with
  | .ok a => some a
  | .error .noData => some []
  | .error _ => none

/-- The types of entry.py:146-167. -/
inductive EntryKind where
  | directory | file | symlink | socket | fifo | char | block | other
  deriving DecidableEq, Repr

/-- A file as the plugins see it before they open it. `guess` is the first part of the type `mimetypes.guess_type` guesses from the name. -/
structure ReadEntry where
  kind : EntryKind
  name : Str
  guess : Option Str
deriving DecidableEq, Repr

/-- The plugins that read files. -/
inductive Reader where
  | elf | shebang | py | hash (name : Str) | tar | medium | mime | grep | ignore
  deriving DecidableEq, Repr

/-- plugins/tar.py:41-46 -/
def tarExtensions : List Str :=
  [".tar", ".tar.gz", ".taz", ".tgz", ".tpz", ".tar.bz2", ".tb2", ".tbz", ".tbz2", ".tz2", ".tar.lz", ".tar.lzma", ".tlz", ".tar.xz", ".txz"].map String.toList

/-- `s.endswith(p)` -/
def endsWith (s p : Str) : Bool := p.isSuffixOf s

/-- ignore.py:26 -/
def ignoreNames : List Str := [".gitignore", ".ignore", ".fdignore", ".ffignore"].map String.toList

/-- Whether the plugin opens the file: introspect.py:64-71 (Elf), 106-107 (Shebang), 146-150 (Py, which looks for the `#!` line of every file that is not called
`.py`), hash.py:31-32, tar.py:48-49, media.py:78-82, mime.py:51-52, grep.py:35-36, and walk.py:162-169 with builtin/ignore.py:60-66 (files that are called like
an ignore file). -/
def opensFile (e : ReadEntry) : Reader → Bool
  | .elf => e.kind = .file
  | .shebang => e.kind = .file
  | .py => true
  | .hash _ => e.kind = .file
  | .tar => tarExtensions.any (endsWith e.name)
  | .medium => e.guess = some "image".toList || e.guess = some "audio".toList || e.guess = some "video".toList
  | .mime => e.kind = .file
  | .grep => e.kind = .file
  | .ignore => ignoreNames.contains e.name

/-- introspect.py:46-62, 73-77: the plugin elf; `read` is what pyelftools does. -/
def elfData (read : Except PyExc (List Str)) : Except PyExc (List Str) := tryExcept read [.osError, .elfError] (.error .noData)

/-- introspect.py:91-104: the plugin shebang; `read` is the `#!` line. -/
def shebangData (read : Except PyExc (List Str)) : Except PyExc (List Str) := tryExcept read [.osError, .unicodeDecodeError] (.ok [])

/-- introspect.py:152-156: the plugin py; `read` is reading and parsing. -/
def pyData (read : Except PyExc (List Str)) : Except PyExc (List Str) := tryExcept read [.osError, .syntaxError, .unicodeDecodeError] (.error .noData)

/-- hash.py:34-42: the plugins of hash.py; `read` is the hash sum. `hexdigest()` of the algorithms shake_128 and shake_256 needs an argument. -/
def hashData (name : Str) (read : Except PyExc (List Str)) : Except PyExc (List Str) :=
  tryExcept (match read with
    | .ok v => if startsWith name "shake_".toList then .error .typeError else .ok v
    | .error e => .error e) [.osError, .eofError] (.error .noData)

/-- tar.py:51-56: the plugin tar; `read` is what tarfile does. -/
def tarData (read : Except PyExc (List Str)) : Except PyExc (List Str) := tryExcept read [.osError, .eofError] (.error .noData)

/-- media.py:62-76: the plugin medium; `read` is what pymediainfo does. -/
def mediumRead (read : Except PyExc (List Str)) : Except PyExc (List Str) := tryExcept read [.osError, .runtimeError] (.error .noData)

/-- mime.py:54-60: the plugin mime; `read` is what libmagic does. -/
def mimeRead (read : Except PyExc (List Str)) : Except PyExc (List Str) := tryExcept read [.osError, .valueError] (.error .noData)

/-- grep.py:38-51: the plugin grep; `opened` is whether the file can be opened, `read` reading its lines. -/
def grepRead (opened : Except PyExc Unit) (read : Except PyExc (List Str)) : Except PyExc (List Str) :=
  tryExcept (match opened with
    | .error e => .error e
    | .ok _ => tryExcept read [.unicodeDecodeError] (.ok [])) [.osError] (.error .noData)

/-- builtin/ignore.py:56-66: an ignore file of the plugin ignore; `read` is reading the patterns. A file that cannot be read is skipped. -/
def ignoreRead (read : Except PyExc (List Str)) : Except PyExc (List Str) := tryExcept read [.osError] (.ok [])

/-- The outcome of reading a file by a plugin. -/
def readerData (r : Reader) (read : Except PyExc (List Str)) : Except PyExc (List Str) :=
  match r with
  | .elf => elfData read
  | .shebang => shebangData read
  | .py => pyData read
  | .hash name => hashData name read
  | .tar => tarData read
  | .medium => mediumRead read
  | .mime => mimeRead read
  | .grep => grepRead (.ok ()) read
  | .ignore => ignoreRead read

/-- plugins/fs.py:89-117: the plugin fs; `statfs` is the result of the system call. -/
def fsData (statfs : Except PyExc (List Str)) : Except PyExc (List Str) := statfs

/-- plugins/xattr.py:37-51: the plugin xattr. -/
def xattrData (read : Except PyExc (List Str)) : Except PyExc (List Str) := tryExcept read [.osError] (.ok [])

end FF
