import Verif.Model.ArgParse
/-! What a command line means, independently of how it is parsed: a list of options and arguments, each with several spellings. -/
namespace FF.Spec

/-- One element of a command line. -/
inductive CItem
  /-- an option without argument -/
  | flag (o : ArgOpt)
  /-- an option with an argument -/
  | arg (o : ArgOpt) (v : Str)
  /-- an option with an optional argument that is not given -/
  | bare (o : ArgOpt)
  /-- an option that takes the rest of the command line -/
  | rest (o : ArgOpt) (ws : List Str)
  /-- positional arguments -/
  | words (ws : List Str)

/-- The option takes no argument. -/
def IsFlag (o : ArgOpt) : Prop := o.action = .storeTrue ∨ ∃ c, o.action = .storeConst c
/-- The option takes an argument. -/
def TakesArg (o : ArgOpt) : Prop := o.action = .store ∨ o.action = .append ∨ ∃ c, o.action = .storeOptional c
/-- The argument is optional. -/
def OptArg (o : ArgOpt) : Prop := ∃ c, o.action = .storeOptional c
/-- The word looks like an option. -/
def Dash (w : Str) : Prop := ∃ r, w = '-' :: r
/-- The next word, if any, looks like an option. -/
def DashNext : List Str → Prop
  | [] => True
  | w :: _ => Dash w

/-- An option table: option strings are `-c` or `--name` without `=`, belong to one option only, and there is one option for the positional
arguments. -/
structure Table (opts : List ArgOpt) (args : ArgOpt) : Prop where
  forms : ∀ o ∈ opts, o.action ≠ .arguments → ∀ s ∈ o.strings, (∃ c, c ≠ '-' ∧ s = ['-', c]) ∨ (∃ n, s = '-' :: '-' :: n ∧ n ≠ [] ∧ '=' ∉ n)
  unique : ∀ o ∈ opts, ∀ o' ∈ opts, o.action ≠ .arguments → o'.action ≠ .arguments → ∀ s, s ∈ o.strings → s ∈ o'.strings → o = o'
  args_mem : args ∈ opts ∧ args.action = .arguments
  args_unique : ∀ o ∈ opts, o.action = .arguments → o = args

/-- `Spells opts items words`: the words spell the items.
A bundle `-abc` is `-a` followed by `-bc`; its last letter must not be an option that takes an argument. -/
inductive Spells (opts : List ArgOpt) : List CItem → List Str → Prop
  | nil : Spells opts [] []
  | flag {o s is ws} : o ∈ opts → IsFlag o → s ∈ o.strings → Spells opts is ws → Spells opts (.flag o :: is) (s :: ws)
  | arg {o s v is ws} : o ∈ opts → TakesArg o → s ∈ o.strings → (OptArg o → ¬ Dash v) → Spells opts is ws →
      Spells opts (.arg o v :: is) (s :: v :: ws)
  | argLong {o s v is ws} : o ∈ opts → TakesArg o → ('-' :: '-' :: s) ∈ o.strings → (OptArg o → ¬ Dash v) → Spells opts is ws →
      Spells opts (.arg o v :: is) (('-' :: '-' :: s ++ '=' :: v) :: ws)
  | argShort {o c v is ws} : o ∈ opts → TakesArg o → ['-', c] ∈ o.strings → (OptArg o → ¬ Dash v) → v ≠ [] → Spells opts is ws →
      Spells opts (.arg o v :: is) (('-' :: c :: v) :: ws)
  | bare {o s is ws} : o ∈ opts → OptArg o → s ∈ o.strings → DashNext ws → Spells opts is ws → Spells opts (.bare o :: is) (s :: ws)
  | rest {o s ws} : o ∈ opts → o.action = .storeRemainder → s ∈ o.strings → ws ≠ [] → Spells opts [.rest o ws] (s :: ws)
  | words {us is ws} : us ≠ [] → (∀ u ∈ us, ¬ Dash u) → DashNext ws → Spells opts is ws → Spells opts (.words us :: is) (us ++ ws)
  | bundle {o c d cs is ws} : o ∈ opts → IsFlag o → ['-', c] ∈ o.strings → d ≠ '-' →
      (cs = [] → ∀ o' ∈ opts, ['-', d] ∈ o'.strings → ¬ TakesArg o') →
      Spells opts is (('-' :: d :: cs) :: ws) → Spells opts (.flag o :: is) (('-' :: c :: d :: cs) :: ws)

/-- A value appended to a list. -/
def pushed (ns : NS) (key : Str) (ws : List Str) : NS := fun k =>
  if k = key then .strs ((match ns key with | .strs l => l | _ => []) ++ ws) else ns k
/-- A value replaced. -/
def stored (ns : NS) (key : Str) (v : NVal) : NS := fun k => if k = key then v else ns k

/-- The value stored by an option without argument. -/
def flagVal (o : ArgOpt) : NVal := match o.action with
  | .storeConst c => c
  | _ => .bool true

/-- What an element of the command line does to the collected arguments. -/
def meaning (args : ArgOpt) (maxCpu : Int) (ns : NS) : CItem → Except ArgErr NS
  | .flag o => .ok (stored ns o.dest (flagVal o))
  | .arg o v => if o.action = .append then .ok (pushed ns o.dest [v]) else match o.type.conv maxCpu v with
    | .error e => .error e
    | .ok x => .ok (stored ns o.dest x)
  | .bare o => match o.type.conv maxCpu (match o.action with | .storeOptional c => c | _ => []) with
    | .error e => .error e
    | .ok x => .ok (stored ns o.dest x)
  | .rest o ws => .ok (pushed ns o.dest ws)
  | .words ws => if (ns args.dest).truthy then .error .usage else .ok (pushed ns args.dest ws)

/-- What a whole command line does. -/
def meanings (args : ArgOpt) (maxCpu : Int) : NS → List CItem → Except ArgErr NS
  | ns, [] => .ok ns
  | ns, i :: is => match meaning args maxCpu ns i with
    | .error e => .error e
    | .ok ns' => meanings args maxCpu ns' is

/-- The setting an element of the command line is about. -/
def CItem.dest (args : ArgOpt) : CItem → Str
  | .flag o | .arg o _ | .bare o | .rest o _ => o.dest
  | .words _ => args.dest

/-- The documented defaults: settings that are off, lists that are empty, and values. -/
def documentedDefaults (maxCpu : Int) (noColor : Bool) : List (Str × NVal) :=
  ["hide", "ignore", "no_parent_ignore", "follow_symlinks", "one_file_system", "fail", "absolute_path", "reverse", "all", "si"].map (fun k => (k.toList, .bool false)) ++
  ["tests", "directories", "exclude"].map (fun k => (k.toList, .strs [])) ++
  ["help", "action", "depth", "exec", "exec_batch", "sort", "count", "limit", "json"].map (fun k => (k.toList, .unset)) ++
  [("jobs".toList, .int maxCpu), ("case".toList, .str "smart".toList), ("halt".toList, .str "never".toList),
   ("color".toList, .str (if noColor then "never".toList else "auto".toList)), ("newline".toList, .str ['\n']), ("separator".toList, .str [' ']),
   ("output".toList, .strs ["path".toList]), ("ignore_files".toList, .strs [".gitignore".toList, ".ignore".toList, ".fdignore".toList, ".ffignore".toList])]

end FF.Spec
