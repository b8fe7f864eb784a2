import Verif.Model.Whole
import Verif.Spec.Walk
import Verif.Spec.Expr
import Verif.Spec.Arguments
import Verif.Spec.Processing
/-! What a user asks for with a command line. -/
namespace FF.Spec

/-- The test with this text is true for the entry. -/
def holds (S : SearchEnv) (i : EntInfo) (word : Str) : Bool :=
  match S.parseTest word with
  | .ok t => S.outcome i t = some true
  | .error _ => false

/-- The expression is true for the entry; there may be none. -/
def Meets (S : SearchEnv) (tests : List Str) (i : EntInfo) : Prop :=
  tests = [] ∨ ∃ f, Derives .disj tests f ∧ f.eval (holds S i) = true

/-- What `-e`, `-I`, `-H` and `--one-file-system` are about: such an entry is neither reported nor entered. `name` is the name of the entry. -/
def Avoided (S : SearchEnv) (s : Settings) (i : EntInfo) (name : Str) : Prop :=
  (∃ t ∈ s.fargs.exclude, holds S i t = true) ∨ (s.fargs.ignore = true ∧ holds S i "ignored=yes".toList = true) ∨
  (s.fargs.hide = true ∧ ∃ r, name = '.' :: r) ∨ (s.fargs.oneFileSystem = true ∧ S.stat i "samedev".toList = some (.bool false))

/-- What a value of `--case` means. -/
def caseMeant (v : NVal) : CaseMode := if v = .str "smart".toList then .smart else if v = .str "ignore".toList then .ignore else .sensitive

/-- Where tests are evaluated: with all plugins and as `--case` says. -/
def asked (W : World) (ns : NS) : SearchEnv := { W.base with reg := W.main.reg, case := caseMeant (ns "case".toList) }

/-- Where the search in a directory begins: its name, or its absolute path, and its absolute path. -/
def beginning (W : World) (absolute : Bool) (d : Str) : Start :=
  ⟨if absolute then '/' :: joinWith '/' (target W.main.cwd d) else d, '/' :: joinWith '/' (target W.main.cwd d)⟩

/-- The ignore files outside of a search directory that count, see C18; none without `-I` or with `--no-parent-ignore`. -/
def outside (W : World) (ns : NS) (root : Str) : List Str :=
  if (ns "ignore".toList).truthy = true ∧ (ns "no_parent_ignore".toList).truthy = false
  then startIgnores W.main.cwd W.pathExists (ns "ignore_files".toList).toWords root else []

/-- The entry is asked for: it is somewhere below one of the directories, at one of the depths, meets the tests, and nothing on the way is avoided. -/
def Wanted (W : World) (ns : NS) (tests dirs : List Str) (i : EntInfo) : Prop :=
  let s := settingsOf ns
  ∃ d ∈ dirs, let start := beginning W (s.fargs.absolutePath || s.fargs.json.isSome) d
    let kids := W.tree (ns "follow_symlinks".toList).truthy start.root
    let at' := entryAt (fun n => n ∈ (ns "ignore_files".toList).toWords) start (outside W ns start.root) kids
    ∃ p, Chain kids p ∧ i = at' p ∧ Meets (asked W ns) tests i ∧
      (s.fargs.depth = [] ∨ ∃ r ∈ s.fargs.depth, InRange ((p.length : Int) - 1) r) ∧
      ∀ q n, q ++ [n] <+: p → ¬ Avoided (asked W ns) s (at' (q ++ [n])) n.name

/-- The value of `--sep` with its escapes for tab and newline replaced. -/
def unescaped : Str → Str
  | '\\' :: 't' :: s => '\t' :: unescaped s
  | '\\' :: 'n' :: s => '\n' :: unescaped s
  | c :: s => c :: unescaped s
  | [] => []

/-- Attributes are printed as the command line says: `--si`, `--all`. -/
def RenderAs (W : World) (ns : NS) (R : RenderEnv) : Prop :=
  R.search = asked W ns ∧ (R.out.si = true ↔ (ns "si".toList).truthy = true) ∧ R.out.zone = W.zone ∧ (R.all = true ↔ (ns "all".toList).truthy = true)

/-- Lines are printed as the command line says: `--sep`, `-0`, `-L`. -/
def PrintAs (W : World) (ns : NS) (C : ConsoleEnv) : Prop :=
  RenderAs W ns C.render ∧ C.isSymlink = W.isSymlink ∧ C.broken = W.broken ∧ C.isExecutable = W.isExecutable ∧ C.link = W.link ∧
  (C.followSymlinks = true ↔ (ns "follow_symlinks".toList).truthy = true) ∧ C.separator = unescaped ((ns "separator".toList).toOptStr.getD []) ∧
  C.newline = (ns "newline".toList).toOptStr.getD []

/-- The results that `--limit` allows: a first position and maybe a position to stop before. -/
def limited {α : Type} (limit : Option (Int × Option Int)) (results : List α) : List α :=
  match limit with
  | none => results
  | some (start, stop) => atPositions (fun k => position results.length start ≤ k ∧ ∀ j, stop = some j → k < position results.length j) 0 results

end FF.Spec
