import Verif.Model.Search
import Verif.Model.Glob
/-! The glob patterns of tests (/repo/libff/parser.py, /repo/libff/type.py, /repo/libff/ignore.py). -/
namespace FF

/-- parser.py:319-320, type.py:144-148 and 173-178: `Glob(value, path_pattern)` with what its `match` answers. A pattern that does not compile is an
exception when it is used for the first time; it is not modelled here and matches nothing. -/
def testGlob (pathPattern : Bool) (pattern : Str) : (Str → Str → Bool → Bool) × Bool :=
  (fun path basename isDir => ((translate pattern pathPattern).match' path basename isDir).getD false, (translate pattern pathPattern).incl)

end FF
