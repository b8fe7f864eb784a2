import Verif.Model.ArgParse
/-! Model of /repo/libff/arguments.py: the options of ff and the post-processing of the arguments. -/
namespace FF

/-- Environment of `create_parser`: `__debug__`, `MAX_CPU`, `Defaults.cache`, `"NO_COLOR" in os.environ`. -/
structure ArgEnv where
  debug : Bool
  maxCpu : Int
  cache : Str
  noColor : Bool

private def mkOpt (strings : List String) (action : Action) (dest : String) (type : OptType := .str) (default : NVal := .unset)
    (choices : Option (List String) := none) : ArgOpt :=
  { strings := strings.map String.toList, action := action, dest := dest.toList, type := type, default := default,
    choices := choices.map (·.map String.toList) }

/-- A list of strings. -/
private def strsVal (l : List String) : NVal := .strs (l.map String.toList)

/-- arguments.py:44-171 `create_parser`. -/
def ffOptions (env : ArgEnv) : List ArgOpt :=
  [mkOpt ["tests"] .arguments "tests" (default := .strs [])] ++
  (if env.debug then [
    mkOpt ["--profile"] .storeTrue "profile" (default := .bool false),
    mkOpt ["--debug"] .store "debug" .list (default := strsVal ["none"])] else []) ++ [
  mkOpt ["--cache"] .store "cache" (default := .str env.cache),
  mkOpt ["--no-cache"] (.storeConst .unset) "cache",
  mkOpt ["--clean-cache"] (.storeConst (.str "clean".toList)) "action",
  mkOpt ["-j", "--jobs"] .store "jobs" .jobs (default := .int env.maxCpu),
  mkOpt ["-D", "--directory"] .append "directories" (default := .strs []),
  mkOpt ["-h", "--help"] (.storeOptional "all".toList) "help",
  mkOpt ["--version"] (.storeConst (.str "version".toList)) "action",
  mkOpt ["--help-full"] (.storeConst (.str "full".toList)) "action",
  mkOpt ["--help-attributes"] (.storeConst (.str "attributes".toList)) "action",
  mkOpt ["--help-plugins"] (.storeConst (.str "plugins".toList)) "action",
  mkOpt ["--help-types"] (.storeConst (.str "types".toList)) "action",
  mkOpt ["-e", "--exclude"] .append "exclude" (default := .strs []),
  mkOpt ["-H", "--hide"] .storeTrue "hide" (default := .bool false),
  mkOpt ["-I", "--ignore"] .storeTrue "ignore" (default := .bool false),
  mkOpt ["--no-parent-ignore"] .storeTrue "no_parent_ignore" (default := .bool false),
  mkOpt ["--ignore-files"] .store "ignore_files" .set (default := strsVal [".gitignore", ".ignore", ".fdignore", ".ffignore"]),
  mkOpt ["-d", "--depth"] .store "depth" .ranges,
  mkOpt ["-c", "--case"] .store "case" (default := .str "smart".toList) (choices := some ["smart", "ignore", "sensitive"]),
  mkOpt ["-L", "--follow"] .storeTrue "follow_symlinks" (default := .bool false),
  mkOpt ["--one-file-system", "--mount", "--xdev"] .storeTrue "one_file_system" (default := .bool false),
  mkOpt ["--fail"] .storeTrue "fail" (default := .bool false),
  mkOpt ["-x", "--exec"] .storeRemainder "exec",
  mkOpt ["-X", "--exec-batch"] .storeRemainder "exec_batch",
  mkOpt ["--halt", "--halt-on-error"] .store "halt" (default := .str "never".toList) (choices := some ["never", "soon", "now"]),
  mkOpt ["-C", "--color"] .store "color" (default := .str (if env.noColor then "never" else "auto").toList)
    (choices := some ["auto", "never", "always"]),
  mkOpt ["-a", "--absolute-path"] .storeTrue "absolute_path" (default := .bool false),
  mkOpt ["-0", "--print0"] (.storeConst (.str ['\x00'])) "newline" (default := .str ['\n']),
  mkOpt ["-v", "--verbose"] (.storeConst (strsVal ["mode:h", "links", "user:h", "group:h", "size:5h", "time:h", "path:h"])) "output"
    (default := strsVal ["path"]),
  mkOpt ["-S", "--sort"] (.storeOptional "file.path".toList) "sort" .list,
  mkOpt ["-R", "--reverse"] .storeTrue "reverse" (default := .bool false),
  mkOpt ["--count"] (.storeOptional "".toList) "count" .list,
  mkOpt ["-l", "--limit"] .store "limit" .slice,
  mkOpt ["-1"] (.storeConst (.slice 0 (some 1))) "limit",
  mkOpt ["-o", "--output"] .store "output" .list,
  mkOpt ["--sep"] .store "separator" (default := .str [' ']),
  mkOpt ["--all"] .storeTrue "all" (default := .bool false),
  mkOpt ["--json"] (.storeConst (.str "json".toList)) "json",
  mkOpt ["--jsonl", "--ndjson"] (.storeConst (.str "jsonl".toList)) "json",
  mkOpt ["--si"] .storeTrue "si" (default := .bool false)]

/-! ### Paths (CPython's posixpath) -/

/-- The loop of posixpath `normpath` over the components; the second list is the stack `new_comps` in reverse. -/
def normLoop (absolute : Bool) : List Str → List Str → List Str
  | [], st => st.reverse
  | c :: cs, st =>
    if c = [] ∨ c = ['.'] then normLoop absolute cs st
    else if c ≠ ['.', '.'] ∨ (absolute = false ∧ st = []) ∨ st.head? = some ['.', '.'] then normLoop absolute cs (c :: st)
    else normLoop absolute cs st.tail

/-- The number of leading slashes kept by `normpath`. -/
def initialSlashes (path : Str) : Nat :=
  if startsWith path ['/', '/'] && !startsWith path ['/', '/', '/'] then 2 else if startsWith path ['/'] then 1 else 0

/-- `os.path.normpath`. -/
def normpath (path : Str) : Str :=
  let p := List.replicate (initialSlashes path) '/' ++ joinWith '/' (normLoop (initialSlashes path ≠ 0) (splitOn '/' path) [])
  if p = [] then ['.'] else p

/-- `os.path.join(cwd, path)` for two arguments. -/
def osJoin (a b : Str) : Str :=
  if startsWith b ['/'] then b else if a = [] ∨ a.getLast? = some '/' then a ++ b else a ++ '/' :: b

/-- `os.path.abspath`; `cwd` is `os.getcwd()`. -/
def absNorm (cwd path : Str) : Str := normpath (if startsWith path ['/'] then path else osJoin cwd path)

/-- Longest common prefix. -/
def commonPrefix : List Str → List Str → List Str
  | a :: as, b :: bs => if a = b then a :: commonPrefix as bs else []
  | _, _ => []

/-- `[c for c in path.split("/") if c and c != "."]` -/
def pathComps (path : Str) : List Str := (splitOn '/' path).filter (fun c => c ≠ [] && c ≠ ['.'])

/-- `os.path.commonpath([a, b])` for absolute paths: the components of the smaller one that agree with those of the larger one. -/
def commonpath (a b : Str) : Str := '/' :: joinWith '/' (commonPrefix (pathComps a) (pathComps b))

/-! ### Post-processing -/

/-- arguments.py:250 `os.sep in test and os.path.isdir(test)`. -/
def isDirArg (isdir : Str → Bool) (test : Str) : Bool := '/' ∈ test && isdir test

/-- arguments.py:249-255 for `list(self.args.tests)`: `(tests, directories)` after the loop. -/
def leadingDirs (isdir : Str → Bool) : List Str → List Str → List Str → List Str × List Str
  | [], tests, dirs => (tests, dirs)
  | t :: ts, tests, dirs =>
    if isDirArg isdir t then leadingDirs isdir ts (tests.erase t) (dirs ++ [normpath t]) else (tests, dirs)

/-- arguments.py:249-255 for `reversed(self.args.tests)`: an iterator with an index (here the number of items still to come) into the list that the
loop shrinks; it is exhausted once the index is out of range. -/
def trailingDirs (isdir : Str → Bool) : Nat → List Str → List Str → List Str × List Str
  | 0, tests, dirs => (tests, dirs)
  | i + 1, tests, dirs => match tests[i]? with
    | none => (tests, dirs)
    | some t => if isDirArg isdir t then trailingDirs isdir i (tests.erase t) (dirs ++ [normpath t]) else (tests, dirs)

/-- arguments.py:244-259, the directories and tests. Both iterators are created before the loop. -/
def findDirs (isdir : Str → Bool) (tests dirs : List Str) : List Str × List Str :=
  let (tests', dirs') :=
    if dirs = [] then
      let n := tests.length
      let (t, d) := leadingDirs isdir tests tests dirs
      trailingDirs isdir n t d
    else (tests, dirs)
  (tests', if dirs' = [] then [['.']] else dirs')

/-- arguments.py:262-272: some directory is refused as a sub-directory of another one. The order of the loop is irrelevant. -/
def overlapping (cwd : Str) (dirs : List Str) : Bool :=
  dirs.any (fun d => dirs.any (fun s => s ≠ d && commonpath (absNorm cwd d) (absNorm cwd s) = absNorm cwd s))

/-- arguments.py:241-272 `process_directories`; `none` is the UsageError. -/
def processDirectories (isdir : Str → Bool) (cwd : Str) (tests dirs : List Str) : Option (List Str × List Str) :=
  let r := findDirs isdir tests dirs
  if overlapping cwd r.2 then none else some r

/-- `str(n)` for integers. -/
def intStr (n : Int) : Str := if n < 0 then '-' :: natStr (-n).toNat else natStr n.toNat

/-- `max(l)` of a non-empty list. -/
def maxList : List Int → Int
  | [] => 0
  | [a] => a
  | a :: as => max a (maxList as)

/-- arguments.py:279-281: the upper limit. -/
def depthExclude (depth : List (Int × Option Int)) : List Str :=
  if depth.any (fun r => r.2 = none) then []
  else ["depth+".toList ++ intStr (maxList (depth.filterMap Prod.snd))]

/-- arguments.py:289-294: the tests for one range. -/
def rangeTests (r : Int × Option Int) : List Str :=
  if some r.1 = r.2 then ["depth=".toList ++ intStr r.1]
  else ("depth+=".toList ++ intStr r.1) :: (match r.2 with
    | some stop => ["depth-=".toList ++ intStr stop]
    | none => [])

/-- arguments.py:288-297: the tests for all ranges. -/
def rangesTests : List (Int × Option Int) → List Str
  | [] => []
  | [r] => rangeTests r
  | r :: rs => rangeTests r ++ "OR".toList :: rangesTests rs

/-- arguments.py:285-306. -/
def depthTests (depth : List (Int × Option Int)) (tests : List Str) : List Str :=
  "{{".toList :: rangesTests depth ++ ["}}".toList] ++ (if tests = [] then [] else "{{".toList :: tests ++ ["}}".toList])

/-- What arguments.py:308-331 `process_arguments` looks at and changes. -/
structure FArgs where
  tests : List Str
  exclude : List Str
  json : Option Str
  color : Str
  absolutePath : Bool
  ignore : Bool
  oneFileSystem : Bool
  hide : Bool
  depth : List (Int × Option Int)
  count : Option (List Str)

/-- arguments.py:308-331 `process_arguments`. -/
def processArguments (a : FArgs) : FArgs :=
  let a := if a.json.isSome then { a with color := "never".toList, absolutePath := true } else a
  let a := if a.ignore then { a with exclude := a.exclude ++ ["ignored=yes".toList] } else a
  let a := if a.oneFileSystem then { a with exclude := a.exclude ++ ["samedev=no".toList] } else a
  let a := if a.hide then { a with exclude := a.exclude ++ ["hide=yes".toList] } else a
  let a := if a.depth ≠ [] then { a with exclude := a.exclude ++ depthExclude a.depth, tests := depthTests a.depth a.tests } else a
  if a.count = some [[]] then
    { a with count := some (if a.json.isSome then ["file.size".toList, "file.type".toList] else ["file.size:h".toList, "file.type".toList]) }
  else a

end FF
