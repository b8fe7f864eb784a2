import Verif.Model.Whole
/-! Model of searching by means of /repo/libff/find.py `Find` and of the generators of /repo/libff/processing.py. -/
namespace FF

/-- find.py:59-65: the arguments of `Find`. -/
structure FindArgs where
  query : Query
  directories : List Str
  exclude : List Str
  output : List Str
  sort : List Str
  reverse : Bool
  hide : Bool
  ignore : Bool
  ignoreFiles : List Str
  oneFileSystem : Bool
  case : Str
  si : Bool
  followSymlinks : Bool
  absolutePath : Bool
  jobs : Int

/-- find.py:31-51 and 76-94: the Namespace. -/
def FindArgs.ns (f : FindArgs) (tests : List Str) : NS := fun key =>
  if key = "tests".toList then .strs tests else
  if key = "directories".toList then .strs f.directories else
  if key = "exclude".toList then .strs f.exclude else
  if key = "output".toList then .strs f.output else
  if key = "sort".toList then .strs f.sort else
  if key = "reverse".toList then .bool f.reverse else
  if key = "hide".toList then .bool f.hide else
  if key = "ignore".toList then .bool f.ignore else
  if key = "ignore_files".toList then .strs f.ignoreFiles else
  if key = "one_file_system".toList then .bool f.oneFileSystem else
  if key = "case".toList then .str f.case else
  if key = "si".toList then .bool f.si else
  if key = "follow_symlinks".toList then .bool f.followSymlinks else
  if key = "absolute_path".toList then .bool f.absolutePath else
  if key = "jobs".toList then .int f.jobs else
  if key = "no_parent_ignore".toList then .bool false else .unset

/-- What creating a `Find` object does: an exception of one kind or the other, or a search. -/
inductive FindOutcome
  | valueError
  | usage
  | search (p : Plan)

/-- find.py:68-106 with arguments.py:34-35 and main.py:183-192: creating a `Find` object. Whether the tests and exclude tests are accepted is a matter of
`SearchEnv.kept` and `SearchEnv.excluded`. -/
def MainEnv.find (M : MainEnv) (f : FindArgs) : FindOutcome :=
  if f.case ∉ ["smart".toList, "ignore".toList, "sensitive".toList] then .valueError else
    match f.query.tests with
    | none => .valueError
    | some tests => match (settingsOf (f.ns tests)).process M.isdir M.cwd with
      | none => .usage
      | some (s, _) => match s.plan M.reg with
        | none => .usage
        | some p => if p.output.any (fun x => x.modifier ≠ none && x.modifier ≠ some 'n') then .valueError else .search p

/-- A record: attributes with their values, `none` is `None`. -/
abbrev FindRecord := List (Str × Option Val)

/-- find.py:108-131; processing.py:395-422 `ImmediateGenerator` and 425-452 `CollectiveGenerator`, whose loops are those of `CollectiveMixin`: the records that are
yielded for the entries in the order in which they have been received; `none` is an exception. -/
def World.findRecords (W : World) (ns : NS) (p : Plan) (received : List EntInfo) : Option (List FindRecord) :=
  (if given (ns "sort".toList).toOptWords then (W.render ns).finalizeEntries W.digits p.sort p.reverse received else some received).map
    (fun es => es.map ((W.render ns).toDict p.output))

end FF
