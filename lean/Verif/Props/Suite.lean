import Verif.Model.Failure
import Verif.Model.StatAttr
import Verif.Model.PathGlob
import Verif.Model.Api
import Verif.Model.Time
import Verif.Props.Sort
import Verif.Props.Registry
/-! The test suite of the project (/repo/tests), run with the model. These are tests, not proofs: they check the model. What the suite expects is what the model
gives, for all tests that are about modelled code (not: the texts of error messages and test-02, which needs pictures). -/
namespace FF.Suite

/-- A file in the directory of a test. -/
structure File where
  path : String
  mode : Nat
  nlink : Nat
  size : Nat
  mtime : Int
  link : Option String

/-- The name of a file if it is in the directory `dir`. -/
def nameIn (dir : Str) (path : Str) : Option Str :=
  if dir = [] then (if '/' ∈ path then none else some path)
  else if startsWith path (dir ++ ['/']) ∧ '/' ∉ path.drop (dir.length + 1) then some (path.drop (dir.length + 1)) else none

/-- The tree below a directory. -/
def nodes (files : List File) : Nat → Str → List FNode
  | 0, _ => []
  | fuel + 1, dir => files.filterMap fun f => (nameIn dir f.path.toList).map fun n =>
      .mk n (S_ISDIR f.mode) (if S_ISDIR f.mode then nodes files fuel f.path.toList else [])

def File.status (f : File) : Status := ⟨f.mode, 1, 1, f.nlink, 0, 0, f.size, 0, f.mtime, 0⟩

def look (files : List File) (i : EntInfo) : Option File := files.find? fun f => f.path.toList = i.relpath

def stat (files : List File) (i : EntInfo) : Status := ((look files i).map File.status).getD ⟨0, 0, 0, 0, 0, 0, 0, 0, 0, 0⟩

/-- The attributes that are not fields of the status, as far as the suite uses them. -/
def rest (files : List File) (i : EntInfo) (name : Str) : Option Val :=
  if name = "link".toList then (look files i).bind fun f => f.link.map fun l => .str l.toList
  else if name = "empty".toList then some (.bool ((stat files i).empty (some ((nodes files 1 i.relpath).map FNode.name))))
  else none

/-- Regular expressions with no other operator than the dot. -/
def dots : Str → Str → Bool
  | [], _ => true
  | _ :: _, [] => false
  | p :: ps, c :: cs => (p = '.' || p = c) && dots ps cs

def dotSearch (p : Str) : Str → Bool
  | [] => dots p []
  | c :: cs => dots p (c :: cs) || dotSearch p cs

/-- The plugins that are always there. -/
def plugins : List PluginDef := [filePlugin, grepPlugin, ignorePlugin, mediumPlugin, mimePlugin]

/-- The environment of a test. -/
structure Place where
  files : List File
  /-- the ignore files -/
  ignores : List (String × List String) := []
  now : Int := 0
  /-- the directory that is given on the command line, or "." -/
  root : String := "."
  /-- the exit codes of commands -/
  code : List Str → Int := fun _ => 0

def Place.read (P : Place) : ReadFile := fun p => (P.ignores.find? fun f => "/w/".toList ++ f.1.toList = p).map fun f => f.2.map String.toList

def Place.world (P : Place) : World where
  main := { arg := { debug := true, maxCpu := 4, cache := "/c".toList, noColor := false },
            isdir := fun p => P.files.any (fun f => f.path.toList = rstripChar '/' p && S_ISDIR f.mode) || p = P.root.toList, cwd := "/w".toList, reg := plugins }
  base := { cc := asciiClass, reg := plugins,
            tests := { low := List.map Char.toLower, debug := true, times := localTimes (fun _ => 0) P.now, compile := fun p => some (dotSearch p), glob := testGlob },
            case := .smart, stat := statAttr (stat P.files) (rest P.files),
            data := fun i p n => if p = "ignore".toList ∧ n = "ignored".toList then
                (isIgnored P.read i.ignorePaths i.entry.abspath i.entry.name i.isDir).map fun r => .bool r.1 else none,
            refEntry := fun path => if P.files.any fun f => f.path.toList = path then some ⟨⟨[], []⟩, path, false, []⟩ else none }
  zone := fun _ => 0
  digits := asciiDigits
  isSymlink i := S_ISLNK (stat P.files i).mode
  broken _ := false
  isExecutable i := (stat P.files i).exec
  link i := ((look P.files i).bind fun f => f.link.map String.toList).getD []
  isatty := false
  lsColors := []
  tree _ _ := nodes P.files 10 []
  pathExists _ := false
  slow := false

/-- A search with one worker: directories are searched in the order in which they are found. -/
def walk (cfg : WalkCfg) : Nat → List DirT → List EntInfo
  | 0, _ => []
  | _ + 1, [] => []
  | fuel + 1, d :: ds =>
    let r := (scanDirectory cfg.isIgnoreFile d).foldl (fun (r : List DirT × List EntInfo) e => testEntry cfg e r.1 r.2) ([], [])
    r.2 ++ walk cfg fuel (ds ++ r.1)

/-- What a command shows: `echo` prints its arguments, /repo/tests/test-01/test.sh and the other programs of the suite show their file. -/
def spoken : List Str → Str
  | [] => []
  | p :: ws => if p = "test".toList then [] else joinWith ' ' ws

/-- What a run shows: the lines and the exit status; `none` is an exception. -/
abbrev Shown := Option (List Str × Nat)

def haltOf (v : Str) : Halt := if v = "never".toList then .never else if v = "soon".toList then .soon else if v = "now".toList then .now else .other

/-- The lines of an output. -/
def textLines (s : Str) : List Str := (splitOn '\n' s).filter (· ≠ [])

def Place.run (P : Place) (argv : List String) : Shown :=
  let W := P.world
  let argv := argv.map String.toList
  match W.startStatus (fun _ => true) none argv with
  | some n => some ([], n)
  | none => match W.main.run argv, parseArgs (ffOptions W.main.arg) W.main.arg.maxCpu argv with
    | .search p _, .ok ns =>
      let found := walk (W.cfg ns p) 100 (W.startDirs ns p)
      let fail := (ns "fail".toList).truthy
      let ctx := (Task.ops .never p.mode (.results found.length) ++ finalizeOps p.mode found.length).foldl Ctx.apply Ctx.init
      let commands := fun (cs : List (List Str)) =>
        let r := jobLoop (haltOf (ns "halt".toList).toText) ctx (cs.map fun c => ⟨some (P.code c), false⟩)
        some (((cs.take r.2.length).map spoken).filter (· ≠ []), exitStatus fail r.1)
      match p.mode with
      | .console => some (textLines (W.printed ns p found), exitStatus fail ctx)
      | .collectiveConsole => (W.collective ns p found).map fun s => (textLines s, exitStatus fail ctx)
      | .exec => commands (found.filterMap (W.command ns p))
      | .collectiveExec => ((W.render ns).finalizeEntries W.digits p.sort p.reverse found).bind fun es =>
        let es := entriesRange p.limit es
        match p.execBatch with
        | none => commands (es.filterMap (W.command ns p))
        | some b =>
          let r := batchLoop (fun _ es => .exited (P.code ((W.render ns).batchRender b es))) 10 [] es []
          some (r.1.map fun c => spoken ((W.render ns).batchRender b c.1), batchStatus fail ctx r)
    | _, _ => none

/-- A test of the suite: the command line, whether the order of the lines matters, the expected lines, and the exit status if it is printed. For an error the suite
compares the message, here it is the exit status. -/
structure Case where
  argv : List String
  ordered : Bool
  lines : List String
  status : Option Nat

/-- runtests.py:50-53: the order of lines is ignored unless the test says otherwise. -/
def same (ordered : Bool) (a b : List Str) : Bool := if ordered then a = b else a.all (fun x => x ∈ b) && b.all (fun x => x ∈ a)

def Place.passes (P : Place) (c : Case) : Bool :=
  match P.run ("--no-parent-ignore" :: c.argv) with
  | none => false
  | some (ls, n) => same c.ordered ls (c.lines.map String.toList) && (match c.status with
    | none => true
    | some m => m = n)

/-- runtests.py:60-65 `GlobTest._test`. -/
def glob (pattern path : String) (expected isDir : Bool) : Bool :=
  let g := translate pattern.toList true
  g.match' path.toList (basename path.toList) isDir = some (if g.incl then expected else !expected)

/-- runtests.py:145-163 `APITest._test`: a test of `Find`; the expected rows. -/
structure FindCase where
  query : Query := .nothing
  hide : Bool := false
  output : List String := ["path"]
  sort : List String := []
  case : String := "smart"
  ordered : Bool := false
  rows : List (List (Option Val))

def FindCase.args (c : FindCase) : FindArgs :=
  { query := c.query, directories := [".".toList], exclude := [], output := c.output.map String.toList, sort := c.sort.map String.toList, reverse := false, hide := c.hide,
    ignore := false, ignoreFiles := [], oneFileSystem := false, case := c.case.toList, si := false, followSymlinks := false, absolutePath := false, jobs := 2 }

def Place.finds (P : Place) (c : FindCase) : Bool :=
  let W := P.world
  match W.main.find c.args, c.query.tests with
  | .search p, some tests =>
    let ns := c.args.ns tests
    match W.findRecords ns p (walk (W.cfg ns p) 100 (W.startDirs ns p)) with
    | none => false
    | some rs =>
      let rows := rs.map fun r => r.map Prod.snd
      if c.ordered then rows = c.rows else rows.all (fun x => x ∈ c.rows) && c.rows.all (fun x => x ∈ rows)
  | _, _ => false


/-- /repo/tests/test-01/workdir -/
def test01 : Place where
  files := [
    ⟨"BAR", 0o120777, 1, 3, 0, some "foo"⟩, ⟨"baz", 0o100644, 1, 10, 0, none⟩, ⟨".hidden", 0o100644, 1, 0, 0, none⟩, ⟨"dir", 0o40755, 4, 4096, 0, none⟩,
    ⟨"dir/dir", 0o40755, 2, 4096, 0, none⟩, ⟨"dir/dir/empty", 0o100644, 1, 0, 0, none⟩, ⟨"dir/empty_dir", 0o40755, 2, 4096, 0, none⟩,
    ⟨"foo", 0o100644, 1, 4, 0, none⟩]
  code c := if c = ["../test.sh".toList, "baz".toList] then 1 else 0

/-- /repo/tests/test-01/tests -/
def test01Cases : List Case := [
  ⟨["-H"], false, ["foo", "BAR", "baz", "dir", "dir/dir", "dir/dir/empty", "dir/empty_dir"], none⟩,
  ⟨["type=d"], false, ["dir", "dir/dir", "dir/empty_dir"], none⟩,
  ⟨["-H", "type=f"], false, ["foo", "baz", "dir/dir/empty"], none⟩,
  ⟨["type=f"], false, ["foo", "baz", "dir/dir/empty", ".hidden"], none⟩,
  ⟨["type=l"], false, ["BAR"], none⟩,
  ⟨["-o", "link,name"], false, ["foo BAR"], none⟩,
  ⟨["--all", "-o", "link,path"], false, ["foo BAR", " baz", " dir", " dir/dir", " dir/dir/empty", " dir/empty_dir", " foo", " .hidden"], none⟩,
  ⟨["-x", "echo", "{link}"], false, ["foo"], none⟩,
  ⟨["-j1", "-S", "-x", "echo", "{link}"], false, ["foo"], none⟩,
  ⟨["-x", "echo", "{name}-{link}"], false, ["BAR-foo"], none⟩,
  ⟨["--all", "-x", "echo", "{name}-{link}"], false, ["foo-", "BAR-foo", "baz-", "dir-", "dir-", "empty-", "empty_dir-", ".hidden-"], none⟩,
  ⟨["-X", "echo", "{link}"], false, ["foo"], none⟩,
  ⟨["name%ba?"], false, ["BAR", "baz"], none⟩,
  ⟨["-H", "empty=yes"], false, ["dir/empty_dir", "dir/dir/empty"], none⟩,
  ⟨["-H", "empty=yes", "OR", "type=l"], false, ["dir/empty_dir", "dir/dir/empty", "BAR"], none⟩,
  ⟨["empty=no"], false, ["foo", "BAR", "baz", "dir", "dir/dir"], none⟩,
  ⟨["-H", "depth=0"], false, ["foo", "BAR", "baz", "dir"], none⟩,
  ⟨["depth+=1"], false, ["dir/dir", "dir/dir/empty", "dir/empty_dir"], none⟩,
  ⟨["-H", "-d0"], false, ["foo", "BAR", "baz", "dir"], none⟩,
  ⟨["-d1-"], false, ["dir/dir", "dir/dir/empty", "dir/empty_dir"], none⟩,
  ⟨["-H", "-d0-1"], false, ["foo", "BAR", "baz", "dir", "dir/dir", "dir/empty_dir"], none⟩,
  ⟨["-H", "-d0,2"], false, ["foo", "BAR", "baz", "dir", "dir/dir/empty"], none⟩,
  ⟨["-H", "size=0"], false, ["BAR", "dir/dir/empty", "dir", "dir/dir", "dir/empty_dir"], none⟩,
  ⟨["size+0"], false, ["foo", "baz"], none⟩,
  ⟨["size+=10"], false, ["baz"], none⟩,
  ⟨["-H", "-o", "perm:o,size:o,name", "not", "type=d", "depth=0"], false, ["777 0 BAR", "644 4 foo", "644 12 baz"], none⟩,
  ⟨["-H", "-e", "dir"], false, [], some 12⟩,
  ⟨["-H", "-e", "name=dir"], false, ["foo", "BAR", "baz"], none⟩,
  ⟨["-H", "-S"], true, ["BAR", "baz", "dir", "dir/dir", "dir/dir/empty", "dir/empty_dir", "foo"], none⟩,
  ⟨["-S"], true, ["BAR", "baz", "dir", "dir/dir", "dir/dir/empty", "dir/empty_dir", "foo", ".hidden"], none⟩,
  ⟨["-H", "-S", "-R"], true, ["foo", "dir/empty_dir", "dir/dir/empty", "dir/dir", "dir", "baz", "BAR"], none⟩,
  ⟨["-H", "-S", "size", "type=f"], true, ["dir/dir/empty", "foo", "baz"], none⟩,
  ⟨["-H", "-S", "-1"], true, ["BAR"], none⟩,
  ⟨["-H", "-S", "-R", "-l", ":5"], true, ["foo", "dir/empty_dir", "dir/dir/empty", "dir/dir", "dir"], none⟩,
  ⟨["-H", "-S", "-R", "-l", "5:"], true, ["baz", "BAR"], none⟩,
  ⟨["-H", "-S", "-R", "-l", "-5:"], true, ["dir/dir/empty", "dir/dir", "dir", "baz", "BAR"], none⟩,
  ⟨["-H", "-S", "-R", "-l", "-2:-1"], true, ["baz"], none⟩,
  ⟨["-H", "-S", "-R", "-l", "2:1"], true, [], none⟩,
  ⟨["-H", "-S", "-R", "-l", "2,0"], true, ["foo", "dir/empty_dir"], none⟩,
  ⟨["-H", "-S", "-R", "-l", "2,1"], true, ["dir/dir/empty", "dir/dir"], none⟩,
  ⟨["-H", "-S", "-R", "-l", "2,2"], true, ["dir", "baz"], none⟩,
  ⟨["-H", "-S", "-R", "-l", "2,3"], true, ["BAR"], none⟩,
  ⟨["-H", "-o", "mode:h,links,size:5h,path:h"], false, ["lrwxrwxrwx 1     0 BAR -> foo", "-rw-r--r-- 1     4 foo", "-rw-r--r-- 1    10 baz", "drwxr-xr-x 4     0 dir", "-rw-r--r-- 1     0 dir/dir/empty", "drwxr-xr-x 2     0 dir/empty_dir", "drwxr-xr-x 2     0 dir/dir"], none⟩,
  ⟨["-H", "-o", "size,links,path", "--sep", ":"], false, ["0:1:BAR", "4:1:foo", "10:1:baz", "0:4:dir", "0:1:dir/dir/empty", "0:2:dir/empty_dir", "0:2:dir/dir"], none⟩,
  ⟨["type=f", "(", "name=baz", "or", "name=foo", ")"], false, ["foo", "baz"], none⟩,
  ⟨["(", "name=BAR", "or", "name=foo", ")", "(", "type=l", "or", "type=f", ")"], false, ["foo", "BAR"], none⟩,
  ⟨["(", "name=baz", "or", "name=foo", ")", "type=f", "or", "type=l"], false, ["foo", "BAR", "baz"], none⟩,
  ⟨["(", "path:/dir/", "type=f", ")", "or", "(", "name=dir", "type=d", ")"], false, ["dir", "dir/dir", "dir/dir/empty"], none⟩,
  ⟨["-H", "{{", "type=f", "and", "not", "type=l", "}}"], false, ["foo", "baz", "dir/dir/empty"], none⟩,
  ⟨["-H", "type=f", "and", "not", "{{", "name=baz", "or", "name=empty", "}}"], false, ["foo"], none⟩,
  ⟨["-H", "type=f", "and", "{{", "not", "name=baz", "and", "not", "name=empty", "}}"], false, ["foo"], none⟩,
  ⟨["name=baz", "or"], false, [], some 2⟩,
  ⟨["or", "name=baz"], false, [], some 2⟩,
  ⟨["name=baz", "or", "or", "name=foo"], false, [], some 2⟩,
  ⟨["name%ba?"], false, ["BAR", "baz"], none⟩,
  ⟨["name:ba?"], false, [], none⟩,
  ⟨["path:dir/empty"], false, ["dir/dir/empty", "dir/empty_dir"], none⟩,
  ⟨["name~ba."], false, ["BAR", "baz"], none⟩,
  ⟨["-H", "--json", "-o", "name,size", "type=f", "-S", "name"], false, ["[{\"name\": \"baz\", \"size\": 10},{\"name\": \"empty\", \"size\": 0},{\"name\": \"foo\", \"size\": 4}]"], none⟩,
  ⟨["-H", "--jsonl", "-o", "name,size", "type=f", "-S", "name"], false, ["{\"name\": \"baz\", \"size\": 10}", "{\"name\": \"empty\", \"size\": 0}", "{\"name\": \"foo\", \"size\": 4}"], none⟩,
  ⟨["-H", "--ndjson", "-o", "name,size", "type=f", "-S", "name"], false, ["{\"name\": \"baz\", \"size\": 10}", "{\"name\": \"empty\", \"size\": 0}", "{\"name\": \"foo\", \"size\": 4}"], none⟩,
  ⟨["-H", "--count", "size", "type=f"], false, ["size=14", "_total=3"], none⟩,
  ⟨["-H", "--count", "type"], false, ["type[directory]=3", "type[file]=3", "type[symlink]=1", "_total=7"], none⟩,
  ⟨["-H", "--count", "file.size,type", "--json"], false, ["{\"_total\": 7, \"file.size\": 14, \"type\": {\"directory\": 3, \"file\": 3, \"symlink\": 1}}"], none⟩,
  ⟨["-H", "-j1", "-S", "--halt", "never", "-x", "../test.sh"], false, ["BAR", "baz", "dir", "dir/dir", "dir/dir/empty", "dir/empty_dir", "foo"], some 3⟩,
  ⟨["-H", "-j1", "-S", "--halt", "soon", "-x", "../test.sh"], false, ["BAR", "baz"], some 3⟩,
  ⟨["-H", "-j1", "-S", "--halt", "now", "-x", "../test.sh"], false, ["BAR", "baz"], some 3⟩,
  ⟨["-H", "-S", "duration"], false, ["foo", "BAR", "baz", "dir", "dir/dir", "dir/dir/empty", "dir/empty_dir"], none⟩,
  ⟨["--count", "-D", ".", "-D", "./dir"], false, [], some 2⟩,
  ⟨["--count", "--limit", ":10"], false, [], some 2⟩,
  ⟨["-H", "-S", "-x", "echo"], false, ["foo", "BAR", "baz", "dir", "dir/dir", "dir/dir/empty", "dir/empty_dir"], some 0⟩,
  ⟨["name=foo", "--fail"], false, ["foo"], some 0⟩,
  ⟨["name=quux", "--fail"], false, [], some 1⟩,
  ⟨["name=foo", "--fail", "-x", "ls"], false, ["foo"], some 0⟩,
  ⟨["name=quux", "--fail", "-x", "ls"], false, [], some 1⟩,
  ⟨["name=foo", "--fail", "-X", "ls"], false, ["foo"], some 0⟩,
  ⟨["name=quux", "--fail", "-X", "ls"], false, [], some 1⟩,
  ⟨["name=foo", "--fail", "-S"], false, ["foo"], some 0⟩,
  ⟨["name=quux", "--fail", "-S"], false, [], some 1⟩,
  ⟨["name=foo", "--fail", "-S", "-x", "ls"], false, ["foo"], some 0⟩,
  ⟨["name=quux", "--fail", "-S", "-x", "ls"], false, [], some 1⟩,
  ⟨["name=foo", "--fail", "-S", "-X", "ls"], false, ["foo"], some 0⟩,
  ⟨["name=quux", "--fail", "-S", "-X", "ls"], false, [], some 1⟩]

set_option maxRecDepth 100000 in
theorem test01_suite : test01Cases.all test01.passes = true := by decide +kernel

/-- A root directory, for one test of /repo/tests/test-01/tests -/
def rootDir : Place where
  files := [
    ⟨"etc", 0o40755, 2, 0, 0, none⟩, ⟨"usr", 0o40755, 2, 0, 0, none⟩, ⟨"bin", 0o40755, 2, 0, 0, none⟩, ⟨"usr/etc", 0o40755, 2, 0, 0, none⟩]
  root := "/"

/-- /repo/tests/test-01/tests, the test in the root directory -/
def rootDirCases : List Case := [
  ⟨["-e", "depth+0", "name=usr", "or", "name=etc", "/"], false, ["/usr", "/etc"], none⟩]

set_option maxRecDepth 100000 in
theorem rootDir_suite : rootDirCases.all rootDir.passes = true := by decide +kernel

/-- The same directory, seen from the one above it -/
def upDir : Place where
  files := [
    ⟨"BAR", 0o120777, 1, 3, 0, some "foo"⟩, ⟨"baz", 0o100644, 1, 10, 0, none⟩, ⟨".hidden", 0o100644, 1, 0, 0, none⟩, ⟨"dir", 0o40755, 4, 4096, 0, none⟩,
    ⟨"dir/dir", 0o40755, 2, 4096, 0, none⟩, ⟨"dir/dir/empty", 0o100644, 1, 0, 0, none⟩, ⟨"dir/empty_dir", 0o40755, 2, 4096, 0, none⟩,
    ⟨"foo", 0o100644, 1, 4, 0, none⟩]
  root := "workdir/"

/-- /repo/tests/test-01/tests, the tests with a directory -/
def upDirCases : List Case := [
  ⟨["-H", "workdir/", "type=f", "and", "{{", "not", "name=baz", "and", "not", "name=empty", "}}"], false, ["workdir/foo"], none⟩,
  ⟨["type=f", "workdir/", "and", "{{", "not", "name=baz", "and", "not", "name=empty", "}}"], false, [], some 12⟩,
  ⟨["type=f", "and", "{{", "not", "name=baz", "workdir/", "and", "not", "name=empty", "}}"], false, [], some 12⟩,
  ⟨["-H", "type=f", "and", "{{", "not", "name=baz", "and", "not", "name=empty", "}}", "workdir/"], false, ["workdir/foo"], none⟩]

set_option maxRecDepth 100000 in
theorem upDir_suite : upDirCases.all upDir.passes = true := by decide +kernel

/-- /repo/tests/test-03/workdir -/
def test03 : Place where
  files := [
    ⟨"UpperCase", 0o100644, 1, 0, 0, none⟩, ⟨"lowercase", 0o100644, 1, 0, 0, none⟩]

/-- /repo/tests/test-03/tests -/
def test03Cases : List Case := [
  ⟨["--case", "ignore", "name:case"], false, ["lowercase", "UpperCase"], none⟩,
  ⟨["--case", "smart", "name:case"], false, ["lowercase", "UpperCase"], none⟩,
  ⟨["--case", "sensitive", "name:case"], false, ["lowercase"], none⟩,
  ⟨["--case", "ignore", "name:Case"], false, ["lowercase", "UpperCase"], none⟩,
  ⟨["--case", "smart", "name:Case"], false, ["UpperCase"], none⟩,
  ⟨["--case", "sensitive", "name:Case"], false, ["UpperCase"], none⟩,
  ⟨["name:lower"], false, ["lowercase"], none⟩,
  ⟨["--case", "ignore", "name:lower"], false, ["lowercase"], none⟩,
  ⟨["--case", "smart", "name:lower"], false, ["lowercase"], none⟩,
  ⟨["--case", "sensitive", "name:lower"], false, ["lowercase"], none⟩,
  ⟨["--case", "ignore", "name:upper"], false, ["UpperCase"], none⟩,
  ⟨["--case", "smart", "name:upper"], false, ["UpperCase"], none⟩,
  ⟨["--case", "sensitive", "name:upper"], false, [], none⟩,
  ⟨["--case", "ignore", "name:Upper"], false, ["UpperCase"], none⟩,
  ⟨["--case", "smart", "name:Upper"], false, ["UpperCase"], none⟩,
  ⟨["--case", "sensitive", "name:Upper"], false, ["UpperCase"], none⟩,
  ⟨["--case", "sensitive", "name%Up*"], false, ["UpperCase"], none⟩,
  ⟨["--case", "sensitive", "name%up*"], false, [], none⟩]

set_option maxRecDepth 100000 in
theorem test03_suite : test03Cases.all test03.passes = true := by decide +kernel

/-- /repo/tests/test-04/workdir -/
def test04 : Place where
  files := [
    ⟨"bar", 0o100644, 1, 4, 0, none⟩, ⟨"foo", 0o100755, 1, 4, 0, none⟩, ⟨"foobar", 0o100644, 1, 7, 0, none⟩]

/-- /repo/tests/test-04/tests -/
def test04Cases : List Case := [
  ⟨["size=4"], false, ["foo", "bar"], none⟩,
  ⟨["size={}foo"], false, ["foo", "bar"], none⟩,
  ⟨["name~{}foo"], false, ["foo", "foobar"], none⟩,
  ⟨["name:{}foo"], false, ["foo", "foobar"], none⟩,
  ⟨["path~{}bar"], false, ["bar", "foobar"], none⟩,
  ⟨["perm={}bar"], false, ["bar", "foobar"], none⟩,
  ⟨["size+={links}foo"], false, ["foo", "bar", "foobar"], none⟩,
  ⟨["file.size-={file.name}foo"], false, [], some 2⟩]

set_option maxRecDepth 100000 in
theorem test04_suite : test04Cases.all test04.passes = true := by decide +kernel

/-- /repo/tests/test-05/workdir -/
def test05 : Place where
  files := [
    ⟨"dir", 0o40755, 2, 4096, 0, none⟩, ⟨"dir/foo", 0o100644, 1, 4, 0, none⟩, ⟨"dir/bar", 0o100644, 1, 4, 0, none⟩, ⟨"dir/baz", 0o100644, 1, 7, 0, none⟩]
  code c := if c.head? = some "test".toList then 1 else 0

/-- /repo/tests/test-05/tests -/
def test05Cases : List Case := [
  ⟨["type=f", "-x", "echo"], false, ["dir/foo", "dir/bar", "dir/baz"], none⟩,
  ⟨["type=f", "-S", "-X", "echo"], false, ["dir/bar dir/baz dir/foo"], none⟩,
  ⟨["type=f", "-x", "echo", "{}"], false, ["dir/foo", "dir/bar", "dir/baz"], none⟩,
  ⟨["type=f", "-x", "echo", "{/}"], false, ["foo", "bar", "baz"], none⟩,
  ⟨["type=f", "-x", "echo", "{//}"], false, ["dir", "dir", "dir"], none⟩,
  ⟨["type=f", "-x", "echo", "{size}", "{/}"], false, ["4 foo", "4 bar", "7 baz"], none⟩,
  ⟨["type=f", "-x", "echo", "{{size}}", "{/}"], false, ["{size} foo", "{size} bar", "{size} baz"], none⟩,
  ⟨["type=f", "-x", "echo", "{{", "}}", "{/}"], false, ["{ } foo", "{ } bar", "{ } baz"], none⟩,
  ⟨["type=f", "-x", "test", "-e", "{name}"], false, [], some 3⟩,
  ⟨["type=f", "-x", "echo", "a", "b", "c"], false, ["a b c dir/bar", "a b c dir/baz", "a b c dir/foo"], none⟩,
  ⟨["type=f", "-x", "echo", "a", "b", "{}", "c"], false, ["a b dir/bar c", "a b dir/baz c", "a b dir/foo c"], none⟩,
  ⟨["type=f", "-x", "echo", "a", "b", "{//}", "{/}", "c"], false, ["a b dir bar c", "a b dir baz c", "a b dir foo c"], none⟩,
  ⟨["type=f", "-S", "-X", "echo", "a", "b", "c"], false, ["a b c dir/bar dir/baz dir/foo"], none⟩,
  ⟨["type=f", "-S", "-X", "echo", "a", "b", "{}", "c"], false, ["a b dir/bar dir/baz dir/foo c"], none⟩,
  ⟨["type=f", "-S", "-X", "echo", "a", "b", "{//}", "{/}", "c"], false, ["a b dir dir dir bar baz foo c"], none⟩,
  ⟨["type=f", "-x", "echo", "{}", "{}.txt"], false, ["dir/foo dir/foo.txt", "dir/bar dir/bar.txt", "dir/baz dir/baz.txt"], none⟩,
  ⟨["type=f", "-x", "echo", "{/}", "{/}-{size}.txt"], false, ["foo foo-4.txt", "bar bar-4.txt", "baz baz-7.txt"], none⟩,
  ⟨["type=f", "-S", "-X", "echo", "{/}", "{/}-{size}.txt"], false, ["bar baz foo bar-4.txt baz-7.txt foo-4.txt"], none⟩]

set_option maxRecDepth 100000 in
theorem test05_suite : test05Cases.all test05.passes = true := by decide +kernel

/-- /repo/tests/test-06/workdir -/
def test06 : Place where
  files := [
    ⟨"foo", 0o100644, 1, 0, 946684800, none⟩, ⟨"bar", 0o100644, 1, 0, 946688400, none⟩]

/-- /repo/tests/test-06/tests, absolute times -/
def test06Cases : List Case := [
  ⟨["time-=2000-01-01 00:00:00"], false, ["foo"], none⟩,
  ⟨["time+=2000-01-01 00:00:00"], false, ["foo", "bar"], none⟩,
  ⟨["time+2000-01-01 00:00:00"], false, ["bar"], none⟩,
  ⟨["time-=2000-01-01"], false, ["foo"], none⟩,
  ⟨["time+2000-01-01"], false, ["bar"], none⟩]

set_option maxRecDepth 100000 in
theorem test06_suite : test06Cases.all test06.passes = true := by decide +kernel

/-- /repo/tests/test-06/workdir after the second half of the commands -/
def test06Later : Place where
  files := [
    ⟨"foo", 0o100644, 1, 0, 1699989200, none⟩, ⟨"bar", 0o100644, 1, 0, 1699992800, none⟩]
  now := 1700000000

/-- /repo/tests/test-06/tests, relative times -/
def test06LaterCases : List Case := [
  ⟨["time-=2h30m"], false, ["foo"], none⟩,
  ⟨["time+=2h30m"], false, ["bar"], none⟩]

set_option maxRecDepth 100000 in
theorem test06Later_suite : test06LaterCases.all test06Later.passes = true := by decide +kernel

/-- /repo/tests/test-07/workdir -/
def test07 : Place where
  files := [
    ⟨".ignore", 0o100644, 1, 63, 0, none⟩, ⟨".ignore-test", 0o100644, 1, 4, 0, none⟩, ⟨"bar", 0o100644, 1, 0, 0, none⟩, ⟨"baz", 0o100644, 1, 0, 0, none⟩,
    ⟨"dir", 0o40755, 5, 0, 0, none⟩, ⟨"foo", 0o100644, 1, 0, 0, none⟩, ⟨"dir/.ignore", 0o100644, 1, 92, 0, none⟩, ⟨"dir/a", 0o40755, 2, 0, 0, none⟩,
    ⟨"dir/b", 0o40755, 2, 0, 0, none⟩, ⟨"dir/c", 0o40755, 2, 0, 0, none⟩, ⟨"dir/d.txt", 0o100644, 1, 0, 0, none⟩, ⟨"dir/a/a.txt", 0o100644, 1, 0, 0, none⟩,
    ⟨"dir/b/b.txt", 0o100644, 1, 0, 0, none⟩, ⟨"dir/c/c.txt", 0o100644, 1, 0, 0, none⟩]
  ignores := [
    (".ignore", ["foo", "!foo", "", "bar", "!bar", "bar", "", "dir/**/*.txt", "!dir/?.txt", "", "/dir/b/", "", "baz/"]), (".ignore-test", ["dir"]),
    ("dir/.ignore", ["# A pattern can re-include a file that was excluded from a higher-level", "# pattern.", "!c/c.txt"])]

/-- /repo/tests/test-07/tests -/
def test07Cases : List Case := [
  ⟨["-HI"], false, ["foo", "baz", "dir", "dir/a", "dir/c", "dir/c/c.txt", "dir/d.txt"], none⟩,
  ⟨["-HI", "--ignore-files", ".ignore-test"], false, ["foo", "bar", "baz"], none⟩]

set_option maxRecDepth 100000 in
theorem test07_suite : test07Cases.all test07.passes = true := by decide +kernel

/-- /repo/tests/test-08/workdir -/
def test08 : Place where
  files := [
    ⟨"dir", 0o100644, 1, 0, 0, none⟩, ⟨"ls", 0o100644, 1, 0, 0, none⟩]

/-- /repo/tests/test-08/tests -/
def test08Cases : List Case := [
  ⟨["-x", "{/}"], false, ["ls", "dir", "ls", "dir"], none⟩,
  ⟨["-X", "{/}"], false, [], some 2⟩]

set_option maxRecDepth 100000 in
theorem test08_suite : test08Cases.all test08.passes = true := by decide +kernel

/-- /repo/tests/test-09/workdir -/
def test09 : Place where
  files := [
    ⟨"3. Episode Three.mp3", 0o100644, 1, 0, 0, none⟩, ⟨"1. Episode One.mp3", 0o100644, 1, 0, 0, none⟩, ⟨"10. Episode Ten.mp3", 0o100644, 1, 0, 0, none⟩,
    ⟨"2. Episode Two.mp3", 0o100644, 1, 0, 0, none⟩, ⟨"foo-1.0.10.tar", 0o100644, 1, 0, 0, none⟩, ⟨"bar-1.0.10.tar", 0o100644, 1, 0, 0, none⟩,
    ⟨"foo-1.0.0.tar.gz", 0o100644, 1, 0, 0, none⟩, ⟨"bar-1.0.0.tar.gz", 0o100644, 1, 0, 0, none⟩, ⟨"foo-1.0.tar.gz", 0o100644, 1, 0, 0, none⟩,
    ⟨"bar-1.0.tar.gz", 0o100644, 1, 0, 0, none⟩, ⟨"foo-1.1.0.tar.gz", 0o100644, 1, 0, 0, none⟩, ⟨"bar-1.1.0.tar.gz", 0o100644, 1, 0, 0, none⟩,
    ⟨"foo-1.0.20.tar.gz", 0o100644, 1, 0, 0, none⟩, ⟨"bar-1.0.20.tar.gz", 0o100644, 1, 0, 0, none⟩, ⟨"foo-1.tar.gz", 0o100644, 1, 0, 0, none⟩,
    ⟨"bar-1.tar.gz", 0o100644, 1, 0, 0, none⟩, ⟨"foo-1.0.1.tar.gz", 0o100644, 1, 0, 0, none⟩, ⟨"bar-1.0.1.tar.gz", 0o100644, 1, 0, 0, none⟩,
    ⟨"foo-1.0.2.tar.gz", 0o100644, 1, 0, 0, none⟩, ⟨"bar-1.0.2.tar.gz", 0o100644, 1, 0, 0, none⟩]

/-- /repo/tests/test-09/tests -/
def test09Cases : List Case := [
  ⟨["-S", "name"], true, ["1. Episode One.mp3", "10. Episode Ten.mp3", "2. Episode Two.mp3", "3. Episode Three.mp3", "bar-1.0.0.tar.gz", "bar-1.0.1.tar.gz", "bar-1.0.10.tar", "bar-1.0.2.tar.gz", "bar-1.0.20.tar.gz", "bar-1.0.tar.gz", "bar-1.1.0.tar.gz", "bar-1.tar.gz", "foo-1.0.0.tar.gz", "foo-1.0.1.tar.gz", "foo-1.0.10.tar", "foo-1.0.2.tar.gz", "foo-1.0.20.tar.gz", "foo-1.0.tar.gz", "foo-1.1.0.tar.gz", "foo-1.tar.gz"], none⟩,
  ⟨["-S", "name:v"], true, ["1. Episode One.mp3", "2. Episode Two.mp3", "3. Episode Three.mp3", "10. Episode Ten.mp3", "bar-1.tar.gz", "bar-1.0.tar.gz", "bar-1.0.0.tar.gz", "bar-1.0.1.tar.gz", "bar-1.0.2.tar.gz", "bar-1.0.10.tar", "bar-1.0.20.tar.gz", "bar-1.1.0.tar.gz", "foo-1.tar.gz", "foo-1.0.tar.gz", "foo-1.0.0.tar.gz", "foo-1.0.1.tar.gz", "foo-1.0.2.tar.gz", "foo-1.0.10.tar", "foo-1.0.20.tar.gz", "foo-1.1.0.tar.gz"], none⟩]

set_option maxRecDepth 100000 in
theorem test09_suite : test09Cases.all test09.passes = true := by decide +kernel

set_option maxRecDepth 100000 in
/-- runtests.py:67-131 `GlobTest` -/
theorem glob_suite : [
  glob "*.py" "a.py" true false, glob "*.py" "a/b.py" true false, glob "!*.py" "a/b.py" false false, glob "a/" "a" true true, glob "a/" "a" false false,
  glob "frotz/" "doc/frotz" true true, glob "frotz/" "a/doc/frotz" true true, glob "/frotz/" "frotz" true true, glob "/frotz/" "doc/frotz" false true,
  glob "doc/frotz/" "doc/frotz" true true, glob "doc/frotz/" "a/doc/frotz" false true, glob "/doc/frotz/" "doc/frotz" true true,
  glob "/doc/frotz/" "a/doc/frotz" false true, glob "!/doc/frotz/" "doc/frotz" false true, glob "*" "a" true false, glob "*" "a/b" true false,
  glob "a/*" "a/b" true false, glob "*/b" "a/b" true false, glob "a/*/c" "a/b/c" true false, glob "a/*/c" "a/c" false false, glob "?" "a" true false,
  glob "a/?" "a/b" true false, glob "?/b" "a/b" true false, glob "a?b" "a/b" false false, glob "a?c" "abc" true false, glob "a?c" "ac" false false,
  glob "[a-b]" "a" true false, glob "[a-b]" "b" true false, glob "[a-b]" "c" false false, glob "[!a-b]" "a" false false, glob "[!a-b]" "b" false false,
  glob "[!a-b]" "c" true false, glob "**/foo" "foo" true false, glob "**/foo" "bar/foo" true false, glob "**/foo" "foo/bar" false false,
  glob "**/foo/bar" "foo/bar" true false, glob "**/foo/bar" "baz/foo/bar" true false, glob "**/foo/bar" "foo/baz/bar" false false,
  glob "foo/*" "foo/bar" true false, glob "foo/*" "foo/bar/baz" false false, glob "foo/**" "foo" true false, glob "foo/**" "foo/bar" true false,
  glob "foo/**" "foo/bar/baz" true false, glob "/foo/**" "foo/bar/baz" true false, glob "/foo/**" "bar/foo" false false,
  glob "/foo/**" "bar/foo/baz" false false, glob "a/**/b" "a/b" true false, glob "a/**/b" "a/x/b" true false, glob "a/**/b" "a/x/y/b" true false].all id = true := by decide +kernel

/-- runtests.py:163-283 `APITest` -/
def apiCases : List FindCase := [
  { hide := true, rows := [[some (.str "foo".toList)], [some (.str "BAR".toList)], [some (.str "baz".toList)], [some (.str "dir".toList)], [some (.str "dir/dir".toList)], [some (.str "dir/dir/empty".toList)], [some (.str "dir/empty_dir".toList)]] },
  { rows := [[some (.str "foo".toList)], [some (.str "BAR".toList)], [some (.str "baz".toList)], [some (.str "dir".toList)], [some (.str "dir/dir".toList)], [some (.str "dir/dir/empty".toList)], [some (.str "dir/empty_dir".toList)], [some (.str ".hidden".toList)]] },
  { query := .text "type=d".toList, hide := true, rows := [[some (.str "dir".toList)], [some (.str "dir/dir".toList)], [some (.str "dir/empty_dir".toList)]] },
  { query := .text "type=f".toList, hide := true, rows := [[some (.str "foo".toList)], [some (.str "baz".toList)], [some (.str "dir/dir/empty".toList)]] },
  { query := .text "type=f".toList, rows := [[some (.str "foo".toList)], [some (.str "baz".toList)], [some (.str "dir/dir/empty".toList)], [some (.str ".hidden".toList)]] },
  { query := .text "type=l".toList, rows := [[some (.str "BAR".toList)]] },
  { query := .text "type=l".toList, output := ["link", "name"], rows := [[some (.str "foo".toList), some (.str "BAR".toList)]] },
  { output := ["link", "path"], rows := [[some (.str "foo".toList), some (.str "BAR".toList)], [none, some (.str "baz".toList)], [none, some (.str "dir".toList)], [none, some (.str "dir/dir".toList)], [none, some (.str "dir/dir/empty".toList)], [none, some (.str "dir/empty_dir".toList)], [none, some (.str "foo".toList)], [none, some (.str ".hidden".toList)]] },
  { query := .text "name%ba?".toList, rows := [[some (.str "BAR".toList)], [some (.str "baz".toList)]] },
  { query := .text "empty=yes".toList, hide := true, rows := [[some (.str "dir/empty_dir".toList)], [some (.str "dir/dir/empty".toList)]] },
  { query := .text "empty=yes OR type=l".toList, hide := true, rows := [[some (.str "dir/empty_dir".toList)], [some (.str "dir/dir/empty".toList)], [some (.str "BAR".toList)]] },
  { query := .text "empty=no".toList, rows := [[some (.str "foo".toList)], [some (.str "BAR".toList)], [some (.str "baz".toList)], [some (.str "dir".toList)], [some (.str "dir/dir".toList)]] },
  { query := .text "depth=0".toList, hide := true, rows := [[some (.str "foo".toList)], [some (.str "BAR".toList)], [some (.str "baz".toList)], [some (.str "dir".toList)]] },
  { query := .text "size=0".toList, hide := true, rows := [[some (.str "BAR".toList)], [some (.str "dir".toList)], [some (.str "dir/dir".toList)], [some (.str "dir/empty_dir".toList)], [some (.str "dir/dir/empty".toList)]] },
  { query := .text "size+0".toList, hide := true, rows := [[some (.str "foo".toList)], [some (.str "baz".toList)]] },
  { query := .text "size+=10".toList, hide := true, rows := [[some (.str "baz".toList)]] },
  { query := .text "not type=d depth=0".toList, hide := true, output := ["perm", "size", "name"], rows := [[some (.int 511), some (.int 0), some (.str "BAR".toList)], [some (.int 420), some (.int 4), some (.str "foo".toList)], [some (.int 420), some (.int 10), some (.str "baz".toList)]] },
  { hide := true, sort := ["path"], ordered := true, rows := [[some (.str "BAR".toList)], [some (.str "baz".toList)], [some (.str "dir".toList)], [some (.str "dir/dir".toList)], [some (.str "dir/dir/empty".toList)], [some (.str "dir/empty_dir".toList)], [some (.str "foo".toList)]] },
  { sort := ["path"], ordered := true, rows := [[some (.str "BAR".toList)], [some (.str "baz".toList)], [some (.str "dir".toList)], [some (.str "dir/dir".toList)], [some (.str "dir/dir/empty".toList)], [some (.str "dir/empty_dir".toList)], [some (.str "foo".toList)], [some (.str ".hidden".toList)]] },
  { query := .text "type=f".toList, hide := true, sort := ["size"], ordered := true, rows := [[some (.str "dir/dir/empty".toList)], [some (.str "foo".toList)], [some (.str "baz".toList)]] },
  { query := .text "type=f {{ name=baz or name=foo }}".toList, hide := true, rows := [[some (.str "foo".toList)], [some (.str "baz".toList)]] },
  { query := .words ["type=f".toList, "{{".toList, "name=baz".toList, "or".toList, "name=foo".toList, "}}".toList], hide := true, rows := [[some (.str "foo".toList)], [some (.str "baz".toList)]] },
  { query := .words ["name%ba?".toList], rows := [[some (.str "BAR".toList)], [some (.str "baz".toList)]] },
  { query := .words ["name%BA?".toList], rows := [[some (.str "BAR".toList)]] },
  { query := .words ["name%BA?".toList], case := "ignore", rows := [[some (.str "BAR".toList)], [some (.str "baz".toList)]] },
  { query := .words ["name%BA?".toList], case := "sensitive", rows := [[some (.str "BAR".toList)]] },
  { query := .words ["name%BA?".toList], case := "sensitive", rows := [[some (.str "BAR".toList)]] },
  { query := .words ["name%bA?".toList], case := "sensitive", rows := [] }]

set_option maxRecDepth 100000 in
theorem api_suite : apiCases.all test01.finds = true := by decide +kernel

set_option maxRecDepth 100000 in
/-- runtests.py:285-286 `test_case_error`: a ValueError -/
theorem case_error : (match test01.world.main.find { rows := [], case := "foo" : FindCase }.args with
    | .valueError => true
    | _ => false) = true := by decide +kernel

set_option maxRecDepth 100000 in
/-- runtests.py:288-289 `test_strict`: an ExpressionError -/
theorem strict : parserFail (test01.world.env ({ rows := [] : FindCase }.args.ns [])) .usage ["ba?".toList] = some .expression := by decide +kernel

/-- The records of `Find()`, without values. -/
def Place.keys (P : Place) : List (List Str) :=
  match P.world.main.find { rows := [], output := ["file"] : FindCase }.args with
  | .search p =>
    let ns := { rows := [], output := ["file"] : FindCase }.args.ns []
    match P.world.findRecords ns p (walk (P.world.cfg ns p) 100 (P.world.startDirs ns p)) with
    | none => []
    | some rs => rs.map fun r => r.map Prod.fst
  | _ => []

set_option maxRecDepth 100000 in
/-- runtests.py:291-297 `test_keys`: eight records with all attributes of files -/
theorem keys_suite : test01.keys = List.replicate 8 (fileAttributes plugins) := by decide +kernel

end FF.Suite
