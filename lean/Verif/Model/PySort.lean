/-!
CPython `list.sort` as a stable sort. (CPython builtin, not code of /repo. The algorithm there is timsort; every
stable sorting algorithm gives the same result, see `Verif/Lemmas/PySort.lean`, theorem `stable_sort_unique`.)
-/
namespace FF

/-- Insert `a` before the first element that is not smaller. -/
def orderedInsert {α : Type _} (le : α → α → Bool) (a : α) : List α → List α
  | [] => [a]
  | b :: l => if le a b then a :: b :: l else b :: orderedInsert le a l

/-- `l.sort()` with comparison `le`. -/
def pySort {α : Type _} (le : α → α → Bool) (l : List α) : List α := l.foldr (orderedInsert le) []

/-- `l.sort(reverse=True)`: CPython reverses, sorts and reverses, so equal elements keep their order. -/
def pySortRev {α : Type _} (le : α → α → Bool) (l : List α) : List α := (pySort le l.reverse).reverse

/-- `l.sort(key=key, reverse=reverse)`. -/
def pySortKey {α : Type _} {κ : Type _} (le : κ → κ → Bool) (key : α → κ) (reverse : Bool) (l : List α) : List α :=
  if reverse then pySortRev (fun a b => le (key a) (key b)) l else pySort (fun a b => le (key a) (key b)) l

end FF
