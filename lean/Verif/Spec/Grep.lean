import Verif.Model.PyStr
/-! The lines of a text. -/
namespace FF.Spec

/-- The text consists of these lines, which end in `\n`, `\r\n` or `\r`; the end of the last line may be missing. -/
inductive TextLines : Str → List Str → Prop
  | nil : TextLines [] []
  | last {l} : l ≠ [] → '\n' ∉ l → '\r' ∉ l → TextLines l [l]
  | unix {l s ls} : '\n' ∉ l → '\r' ∉ l → TextLines s ls → TextLines (l ++ '\n' :: s) (l :: ls)
  | dos {l s ls} : '\n' ∉ l → '\r' ∉ l → TextLines s ls → TextLines (l ++ '\r' :: '\n' :: s) (l :: ls)
  | mac {l s ls} : '\n' ∉ l → '\r' ∉ l → (∀ t, s ≠ '\n' :: t) → TextLines s ls → TextLines (l ++ '\r' :: s) (l :: ls)

end FF.Spec
