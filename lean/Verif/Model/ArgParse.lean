import Verif.Model.Re
import Verif.Model.PyInt
import Verif.Model.PySort
/-! Model of /repo/libff/argparse.py: argument types, options, the namespace and the command line parser. -/
namespace FF

/-- What ends argument parsing early: `usage` is an `ArgumentError`, reported with EX_USAGE (argparse.py:412-413), `crash` is an
exception nothing catches (ValueError of a type function). -/
inductive ArgErr | usage | crash
  deriving DecidableEq, Repr

/-- The values in a `Namespace`; `unset` is None. Sets (`type_set`) are lists of strings. -/
inductive NVal
  | unset
  | bool (b : Bool)
  | str (s : Str)
  | strs (l : List Str)
  | int (n : Int)
  | ranges (l : List (Int × Option Int))
  | slice (start : Int) (stop : Option Int)
  deriving DecidableEq

/-- Python truth value. -/
def NVal.truthy : NVal → Bool
  | .unset => false
  | .bool b => b
  | .str s => s ≠ []
  | .strs l => l ≠ []
  | .int n => n ≠ 0
  | .ranges l => l ≠ []
  | .slice _ _ => true

/-! ### Argument types -/

/-- argparse.py:36-48 `type_number`, `type_positive_number`. -/
def typePositive (s : Str) : Except ArgErr Int :=
  match pyInt s with
  | none => .error .crash
  | some n => if n < 0 then .error .crash else .ok n

/-- argparse.py:51-57 `type_jobs`; `maxCpu` is `MAX_CPU`. -/
def typeJobs (maxCpu : Int) (s : Str) : Except ArgErr Int :=
  match typePositive s with
  | .error e => .error e
  | .ok n => let n := if n = 0 then maxCpu else n
    .ok (max (min n maxCpu) 1)

/-- argparse.py:60-69 `type_list` and `type_set`. -/
def typeList (s : Str) : List Str := (splitOn ',' s).map strip

/-- argparse.py:72 `regex_range`: groups 1 single, 2 start, 3 stop; `\d` is an ASCII digit. -/
def rangeRe : Re :=
  .seq (.alt (.cap 1 (.plus true isDigit)) (.seq (.cap 2 (.star true isDigit)) (.seq (.lit '-') (.cap 3 (.star true isDigit))))) .eol

/-- `int(s)`. -/
def argInt (s : Str) : Except ArgErr Int :=
  match pyInt s with
  | none => .error .crash
  | some n => .ok n

/-- argparse.py:79-102, the body of the loop of `type_ranges`. -/
def parseRange (s : Str) : Except ArgErr (Int × Option Int) :=
  match rangeRe.match' s with
  | none => .error .crash
  | some (c, _) => match c.get 1 with
    | some single => match argInt single with
      | .error e => .error e
      | .ok n => .ok (n, some n)
    | none =>
      match (if (c.get 2).getD [] ≠ [] then argInt ((c.get 2).getD []) else .ok 0) with
      | .error e => .error e
      | .ok start =>
        if (c.get 3).getD [] ≠ [] then
          match argInt ((c.get 3).getD []) with
          | .error e => .error e
          | .ok stop => if stop < start then .ok (stop, some start) else .ok (start, some stop)
        else .ok (start, none)

/-- `[f(x) for x in l]` where `f` may raise. -/
def mapExcept {α β ε : Type} (f : α → Except ε β) : List α → Except ε (List β)
  | [] => .ok []
  | x :: xs => match f x with
    | .error e => .error e
    | .ok y => match mapExcept f xs with
      | .error e => .error e
      | .ok ys => .ok (y :: ys)

/-- argparse.py:74-104 `type_ranges`. -/
def typeRanges (s : Str) : Except ArgErr (List (Int × Option Int)) := mapExcept parseRange (typeList s)

/-- `\d*|-?\d+` -/
def boundRe : Re := .alt (.star true isDigit) (.seq (.opt (.lit '-')) (.plus true isDigit))

/-- argparse.py:107-108 `regex_slice`: groups 1 start, 2 stop, 3 pagesize, 4 page. -/
def sliceRe : Re :=
  .seq (.alt (.seq (.cap 1 boundRe) (.seq (.lit ':') (.cap 2 boundRe)))
    (.seq (.cap 3 (.plus true isDigit)) (.seq (.lit ',') (.cap 4 (.plus true isDigit))))) .eol

/-- argparse.py:110-136 `type_slice`. -/
def typeSlice (s : Str) : Except ArgErr (Int × Option Int) :=
  match sliceRe.match' s with
  | none => .error .usage
  | some (c, _) => match c.get 1 with
    | some start =>
      match (if start ≠ [] then argInt start else .ok 0) with
      | .error e => .error e
      | .ok start =>
        if (c.get 2).getD [] ≠ [] then
          match argInt ((c.get 2).getD []) with
          | .error e => .error e
          | .ok stop => .ok (start, some stop)
        else .ok (start, none)
    | none =>
      match argInt ((c.get 3).getD []), argInt ((c.get 4).getD []) with
      | .ok pagesize, .ok page => .ok (pagesize * page, some (pagesize * (page + 1)))
      | .error e, _ => .error e
      | _, .error e => .error e

/-- The `type` of an option. -/
inductive OptType | str | list | set | jobs | ranges | slice
  deriving DecidableEq

/-- `option.type(value)`. -/
def OptType.conv (maxCpu : Int) : OptType → Str → Except ArgErr NVal
  | .str, s => .ok (.str s)
  | .list, s => .ok (.strs (typeList s))
  | .set, s => .ok (.strs (typeList s))
  | .jobs, s => match typeJobs maxCpu s with
    | .error e => .error e
    | .ok n => .ok (.int n)
  | .ranges, s => match typeRanges s with
    | .error e => .error e
    | .ok l => .ok (.ranges l)
  | .slice, s => match typeSlice s with
    | .error e => .error e
    | .ok (a, b) => .ok (.slice a b)

/-! ### Options -/

/-- The `action` of an option with its `const`. -/
inductive Action
  | arguments
  | storeTrue
  | storeConst (const : NVal)
  | append
  | store
  | storeOptional (const : Str)
  | storeRemainder
  deriving DecidableEq

/-- argparse.py:139-170 `Option`; `help` and `metavar` have no influence on parsing. -/
structure ArgOpt where
  strings : List Str
  action : Action
  dest : Str
  type : OptType
  default : NVal
  choices : Option (List Str)
  deriving DecidableEq

/-- argparse.py:360, 379 `option.action in ("store", "store_optional", "append")`. -/
def Action.takesArgument : Action → Bool
  | .store | .storeOptional _ | .append => true
  | _ => false

/-- argparse.py:202-217 `Namespace`; keys that were never set are `unset`. -/
abbrev NS := Str → NVal

/-- argparse.py:206-209 `set`. -/
def NS.set (ns : NS) (key : Str) (v : NVal) : NS := fun k => if k = key then v else ns k

/-- argparse.py:211-217 `append`; only strings are ever appended, to lists or None. -/
def NS.append (ns : NS) (key : Str) (s : Str) : NS :=
  match ns key with
  | .strs l => NS.set ns key (.strs (l ++ [s]))
  | _ => NS.set ns key (.strs [s])

/-- `while argv: self.namespace.append(option.dest, argv.pop(0))`, argparse.py:460-461. -/
def NS.appendAll (ns : NS) (key : Str) : List Str → NS
  | [] => ns
  | w :: ws => NS.appendAll (NS.append ns key w) key ws

/-- argparse.py:324-329 `initialize`: the first option with a given dest provides the default. -/
def initNS (opts : List ArgOpt) : NS := fun key =>
  match opts.find? (fun o => o.dest = key) with
  | some o => o.default
  | none => .unset

/-- argparse.py:331-340 `get_option`; `none` is the ArgumentError. -/
def getOption (opts : List ArgOpt) (s : Str) : Option ArgOpt :=
  opts.find? (fun o => o.action ≠ .arguments && s ∈ o.strings)

/-- argparse.py:342-349 `get_arguments_option`. -/
def getArgumentsOption (opts : List ArgOpt) : Option ArgOpt := opts.find? (fun o => o.action = .arguments)

/-- `arg.startswith("-")`. -/
def isDash (w : Str) : Bool := startsWith w ['-']

/-! ### The parser -/

/-- argparse.py:354-368, the loop of `parse_combined_short_options`: the words inserted one after the other at the front of argv. -/
def bundle (opts : List ArgOpt) : Str → Except ArgErr (List Str)
  | [] => .ok []
  | c :: cs => match getOption opts ['-', c] with
    | none => .error .usage
    | some o =>
      if o.action.takesArgument then .ok [['-', c], cs]
      else match bundle opts cs with
        | .error e => .error e
        | .ok ws => .ok (['-', c] :: ws)

/-- argparse.py:376-385 `parse_long_option_with_value`. -/
def longValue (opts : List ArgOpt) (arg : Str) : Except ArgErr (List Str) :=
  let opt := arg.takeWhile (· ≠ '=')
  match getOption opts opt with
  | none => .error .usage
  | some o => if o.action.takesArgument then .ok [opt, (arg.dropWhile (· ≠ '=')).drop 1] else .error .usage

/-- argparse.py:399-405: rewrite a bundle or a long option with attached argument at the front of argv. -/
def expandArg (opts : List ArgOpt) (arg : Str) : Except ArgErr (List Str) :=
  if !startsWith arg ['-', '-'] && arg.length > 2 then bundle opts (arg.drop 1)
  else if startsWith arg ['-', '-'] && '=' ∈ arg then longValue opts arg
  else .ok [arg]

/-- argparse.py:433-464 `parse_option` with 417-431 `get_argument`, `get_optional_argument`: the new namespace and the remaining argv. -/
def parseOption (opts : List ArgOpt) (maxCpu : Int) (ns : NS) : List Str → Except ArgErr (NS × List Str)
  | [] => .error .crash
  | w :: argv => match getOption opts w with
    | none => .error .usage
    | some o => match o.action with
      | .storeTrue => .ok (NS.set ns o.dest (.bool true), argv)
      | .storeConst c => .ok (NS.set ns o.dest c, argv)
      | .append => match argv with
        | [] => .error .usage
        | v :: argv => .ok (NS.append ns o.dest v, argv)
      | .store => match argv with
        | [] => .error .usage
        | v :: argv => match o.type.conv maxCpu v with
          | .error e => .error e
          | .ok x => .ok (NS.set ns o.dest x, argv)
      | .storeOptional c =>
        let (v, argv) := match argv with
          | [] => (c, [])
          | v :: argv' => if isDash v then (c, v :: argv') else (v, argv')
        match o.type.conv maxCpu v with
        | .error e => .error e
        | .ok x => .ok (NS.set ns o.dest x, argv)
      | .storeRemainder => match argv with
        | [] => .error .usage
        | v :: argv => .ok (NS.appendAll ns o.dest (v :: argv), [])
      | .arguments => .error .usage

/-- argparse.py:466-475 `parse_arguments`. -/
def parsePositional (opts : List ArgOpt) (ns : NS) (argv : List Str) : Except ArgErr (NS × List Str) :=
  match getArgumentsOption opts with
  | none => .error .usage
  | some o =>
    if (ns o.dest).truthy then .error .usage
    else .ok (NS.appendAll ns o.dest (argv.takeWhile (fun w => !isDash w)), argv.dropWhile (fun w => !isDash w))

/-- argparse.py:396-410, the body of the loop of `parse_args`. -/
def argStep (opts : List ArgOpt) (maxCpu : Int) (ns : NS) : List Str → Except ArgErr (NS × List Str)
  | [] => .ok (ns, [])
  | w :: argv =>
    if isDash w then
      match expandArg opts w with
      | .error e => .error e
      | .ok ws => parseOption opts maxCpu ns (ws ++ argv)
    else parsePositional opts ns (w :: argv)

/-- argparse.py:395 `while argv:`, on fuel (`argWeight` suffices, see `argLoop_fuel`). -/
def argLoop (opts : List ArgOpt) (maxCpu : Int) : Nat → NS → List Str → Except ArgErr NS
  | _, ns, [] => .ok ns
  | 0, _, _ => .error .crash
  | f + 1, ns, w :: argv => match argStep opts maxCpu ns (w :: argv) with
    | .error e => .error e
    | .ok (ns', argv') => argLoop opts maxCpu f ns' argv'

/-- A bound on the iterations of the loop. -/
def argWeight (argv : List Str) : Nat := (argv.map (fun w => max 1 (2 * w.length - 2))).sum

/-- The parser from some namespace on. -/
def argRun (opts : List ArgOpt) (maxCpu : Int) (ns : NS) (argv : List Str) : Except ArgErr NS := argLoop opts maxCpu (argWeight argv) ns argv

/-- argparse.py:387-415 `parse_args`. -/
def parseArgs (opts : List ArgOpt) (maxCpu : Int) (argv : List Str) : Except ArgErr NS := argRun opts maxCpu (initNS opts) argv

end FF
