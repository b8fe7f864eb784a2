import Verif.Model.Hash
/-! What a sum of a file is. -/
namespace FF.Spec

/-- `digest` is the function the algorithm computes: the sum does not depend on how the content is cut into pieces. -/
def Computes (A : HashAlg) (digest : Bytes → Option Str) : Prop := ∀ pieces : List Bytes, A.hexdigest (pieces.foldl A.update A.start) = digest pieces.flatten

/-- Reading the file to its end takes `n` calls, the last one returns nothing; it fails before that. -/
def FailsEarly (f : HashFile) : Prop := ∃ k, f.failsAfter = some k ∧ 8192 * k < f.content.length + 8192

end FF.Spec
