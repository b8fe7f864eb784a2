import Verif.Model.Main
import Verif.Model.Search
import Verif.Model.Immediate
import Verif.Model.Glob
/-! A whole run of ff (/repo/libff/main.py): the components put together, from the command line to what is printed. -/
namespace FF

/-- The world of a run. -/
structure World where
  main : MainEnv
  /-- values of attributes and the like; the plugins are those of `main`, `--case` is taken from the command line -/
  base : SearchEnv
  zone : Zone
  digits : DigitEnv
  isSymlink : EntInfo → Bool
  broken : EntInfo → Bool
  isExecutable : EntInfo → Bool
  link : EntInfo → Str
  isatty : Bool
  /-- `LS_COLORS` -/
  lsColors : Str
  /-- what is below the directory with a path, without or with `--follow` -/
  tree : Bool → Str → List FNode
  /-- `os.path.exists` -/
  pathExists : Str → Bool
  /-- registry.py `optimize_for_slow_plugins` -/
  slow : Bool

/-- parser.py:302-307; other values of `--case` have the same effect as "sensitive". -/
def caseOf : NVal → CaseMode
  | .str s => if s = "smart".toList then .smart else if s = "ignore".toList then .ignore else .sensitive
  | _ => .sensitive

/-- The number of jobs. -/
def NVal.toJobs : NVal → Nat
  | .int n => n.toNat
  | _ => 0

/-- A string. -/
def NVal.toText (v : NVal) : Str := v.toOptStr.getD []

/-- The environment of the tests. -/
def World.env (W : World) (ns : NS) : SearchEnv := { W.base with reg := W.main.reg, case := caseOf (ns "case".toList) }

/-- walk.py:162 `entry.name in self.args.ignore_files`. -/
def isIgnoreName (ns : NS) (name : Str) : Bool := name ∈ (ns "ignore_files".toList).toWords

/-- main.py:158-167: the ignore files from outside of a start directory. -/
def World.outerIgnores (W : World) (ns : NS) (root : Str) : List Str :=
  if (ns "no_parent_ignore".toList).truthy then []
  else if (ns "ignore".toList).truthy then startIgnores W.main.cwd W.pathExists (ns "ignore_files".toList).toWords root else []

/-- main.py:155-156, 176 and entry.py:77-79: the `StartDirectory` for an argument. -/
def World.start (W : World) (absolute : Bool) (dir : Str) : Start :=
  ⟨startRoot absolute W.main.cwd dir, absNorm W.main.cwd (startRoot absolute W.main.cwd dir)⟩

/-- main.py:154-176: the directories to begin with. -/
def World.startDirs (W : World) (ns : NS) (p : Plan) : List DirT :=
  p.dirs.map (fun d => ⟨W.start p.absolute d, [], W.outerIgnores ns (W.start p.absolute d).root,
    W.tree (ns "follow_symlinks".toList).truthy (W.start p.absolute d).root⟩)

/-- main.py:133-142. -/
def World.cfg (W : World) (ns : NS) (p : Plan) : WalkCfg :=
  (W.env ns).cfg (isIgnoreName ns) (ns "jobs".toList).toJobs W.slow p.tests p.exclude

/-- What output needs to know. -/
def World.render (W : World) (ns : NS) : RenderEnv :=
  { search := W.env ns, out := { si := (ns "si".toList).truthy, zone := W.zone }, all := (ns "all".toList).truthy }

/-- console.py:114-122. -/
def World.console (W : World) (ns : NS) : ConsoleEnv :=
  { render := W.render ns, isSymlink := W.isSymlink, broken := W.broken, isExecutable := W.isExecutable, link := W.link,
    followSymlinks := (ns "follow_symlinks".toList).truthy, separator := fieldSeparator (ns "separator".toList).toText,
    newline := (ns "newline".toList).toText }

/-- processing.py:169-173. -/
def World.palette (W : World) (p : Plan) : Palette :=
  if (if p.color = "auto".toList then W.isatty else p.color = "always".toList) then colorPalette W.lsColors else plainPalette

/-- processing.py:160-187: the output of the console for these entries, in this order. -/
def World.printed (W : World) (ns : NS) (p : Plan) (entries : List EntInfo) : Str :=
  if p.count.isSome then []
  else if p.json = some "json".toList then jsonOutput (entries.map ((W.render ns).toDict p.output))
  else if p.json = some "jsonl".toList then jsonlOutput (entries.map ((W.render ns).toDict p.output))
  else (W.console ns).output (W.palette p) p.output entries

/-- processing.py:264-265, 319-336: what is printed for `--count`; `none` is an exception. -/
def World.counted (W : World) (ns : NS) (p : Plan) (entries : List EntInfo) : Option Str :=
  match p.count with
  | none => some []
  | some fields =>
    let d := prepareCount (W.render ns).out (collectCount (W.env ns) fields ⟨none, []⟩ entries)
    if p.json.isSome then some (jsonCount d) else (printCount W.digits d).map (fun ls => ls.flatMap (· ++ ['\n']))

/-- processing.py:252-265, 344-348 `CollectiveConsoleProcessing` after the search, for the collected entries; `none` is an exception. -/
def World.collective (W : World) (ns : NS) (p : Plan) (entries : List EntInfo) : Option Str :=
  match (W.render ns).finalizeEntries W.digits p.sort p.reverse entries with
  | none => none
  | some es => (W.counted ns p entries).map (W.printed ns p (entriesRange p.limit es) ++ ·)

/-- processing.py:201-205: the command for an entry. -/
def World.command (W : World) (ns : NS) (p : Plan) (i : EntInfo) : Option (List Str) := (W.render ns).execRender (p.exec.getD []) i

/-- How the workers process what they find. -/
def World.imode (W : World) (ns : NS) (p : Plan) : IMode := ⟨p.mode = .exec, fun i => (W.command ns p i).isSome⟩

end FF
