import Verif.Props.Path
import Verif.Model.Entry
import Verif.Spec.Entry
import Verif.Lemmas.PySort
namespace FF
open Spec

/-! ### C59, on entries -/

/-- C59: pathx and ext of every entry are the documented stem and extension; the path is recovered from them. -/
theorem C59_entry (e : Entry) :
    (e.ext = [] ∧ (e.pathx = e.path ∨ e.path = e.pathx ++ ['.'])) ∨
    (e.ext ≠ [] ∧ e.path = e.pathx ++ '.' :: e.ext ∧ '.' ∉ e.ext ∧ '/' ∉ e.ext) := by
  have h := C59_splitext_spec e.path
  simp only [Entry.ext, Entry.pathx]
  generalize splitext e.path = re at h
  obtain ⟨r, x⟩ := re
  generalize e.path = p at h
  cases h with
  | ext d lead e' h1 h2 h3 hd hx =>
    simp only [List.drop_succ_cons, List.drop_zero]
    by_cases he : e' = []
    · left; subst he; simp
    · right; exact ⟨he, rfl, h3, h2⟩
  | none d k w h1 h2 hd => left; simp

/-! ### C60 -/

theorem pathSplit_no_sep {p : Str} (h : '/' ∉ p) : pathSplit p = ([], p) := by
  simp [pathSplit, rfind_not_mem h]

theorem pathSplit_root {b : Str} (h : '/' ∉ b) : pathSplit ('/' :: b) = (['/'], b) := by
  have := rfind_split [] h
  simp at this
  simp [pathSplit, this]

theorem pathSplit_mid {a b : Str} (ha : a ≠ []) (h : '/' ∉ b) : pathSplit (a ++ '/' :: b) = (a, b) := by
  have := rfind_split a h
  have hl : a.length ≠ 0 := by simpa using ha
  simp only [pathSplit, this]
  rw [if_neg (by omega), if_neg (by omega)]
  have : ((a.length : Int) + 1).toNat = (a ++ ['/']).length := by simp
  rw [sliceTo, sliceFrom, this, Int.toNat_natCast, List.take_left]
  have : a ++ '/' :: b = (a ++ ['/']) ++ b := by simp
  rw [this, List.drop_left]

theorem basename_isName (p : Str) : IsName p (basename p) := by
  rcases exists_last_split p '/' with hp | ⟨a, b, rfl, hb⟩
  · refine ⟨[], ?_, ?_, .inl rfl⟩ <;> simp [basename, rfind_not_mem hp, sliceFrom, hp]
  · have e : basename (a ++ '/' :: b) = b := by
      have h1 : ((a.length : Int) + 1).toNat = (a ++ ['/']).length := by simp
      have h2 : a ++ '/' :: b = (a ++ ['/']) ++ b := by simp
      rw [basename, rfind_split a hb, sliceFrom, h1, h2, List.drop_left]
    rw [e]
    exact ⟨a ++ ['/'], by simp, hb, .inr ⟨a, rfl⟩⟩

theorem pathSplit_isName (p : Str) : IsName p (pathSplit p).2 := by
  rcases exists_last_split p '/' with hp | ⟨a, b, rfl, hb⟩
  · rw [pathSplit_no_sep hp]; exact ⟨[], rfl, hp, .inl rfl⟩
  · by_cases ha : a = []
    · subst ha
      rw [List.nil_append, pathSplit_root hb]; exact ⟨['/'], rfl, hb, .inr ⟨[], rfl⟩⟩
    · rw [pathSplit_mid ha hb]; exact ⟨a ++ ['/'], by simp, hb, .inr ⟨a, rfl⟩⟩

theorem Spec.IsName.unique {p a b : Str} (ha : IsName p a) (hb : IsName p b) : a = b := by
  obtain ⟨d, rfl, h1, h2⟩ := ha
  obtain ⟨d', he, h3, h4⟩ := hb
  rcases List.append_eq_append_iff.1 he with ⟨t, rfl, rfl⟩ | ⟨t, rfl, rfl⟩
  · rcases h4 with h4 | ⟨u, h4⟩
    · simp at h4; simp [h4]
    · rcases List.eq_nil_or_concat t with rfl | ⟨t', c, rfl⟩
      · simp
      · rw [List.concat_eq_append, ← List.append_assoc] at h4
        have := (List.append_inj' h4 rfl).2
        simp at this; subst this
        simp at h1
  · rcases h2 with h2 | ⟨u, h2⟩
    · simp at h2; simp [h2]
    · rcases List.eq_nil_or_concat t with rfl | ⟨t', c, rfl⟩
      · simp
      · rw [List.concat_eq_append, ← List.append_assoc] at h2
        have := (List.append_inj' h2 rfl).2
        simp at this; subst this
        simp at h3

theorem Spec.IsName.append {p b t : Str} (h : IsName p b) (ht : '/' ∉ t) : IsName (p ++ t) (b ++ t) := by
  obtain ⟨d, rfl, h1, h2⟩ := h
  exact ⟨d, by simp, by simp [h1, ht], h2⟩

/-- C59: name and namex of every entry are the file name parts of path and pathx, and the name is recovered from namex and ext. -/
theorem C59_namex (root absroot relpath : Str) :
    let e := mkEntry root absroot relpath
    IsName e.path e.name ∧ IsName e.pathx e.namex ∧
    ((e.ext = [] ∧ (e.namex = e.name ∨ e.name = e.namex ++ ['.'])) ∨ (e.ext ≠ [] ∧ e.name = e.namex ++ '.' :: e.ext)) := by
  intro e
  have h1 : IsName e.path e.name := pathSplit_isName e.path
  have h2 : IsName e.pathx e.namex := basename_isName e.pathx
  refine ⟨h1, h2, ?_⟩
  rcases C59_entry e with ⟨he, hp | hp⟩ | ⟨he, hp, hd, hs⟩
  · rw [hp] at h2; exact .inl ⟨he, .inl (h2.unique h1)⟩
  · rw [hp] at h1; exact .inl ⟨he, .inr (h1.unique (h2.append (by simp)))⟩
  · rw [hp] at h1; exact .inr ⟨he, h1.unique (h2.append (by simp [hs]))⟩

example : let e := mkEntry ['a'] ['/', 'a'] ['b', '.', 'd', '/', 'c', '.', 't', '.', 'g']
    e.name = ['c', '.', 't', '.', 'g'] ∧ e.namex = ['c', '.', 't'] ∧ e.ext = ['g'] := by decide

/-- C60: `split` then `join` gives the path back, for every path with a file name part
that is not of the form "//name" . -/
theorem C60_join_split {p : Str} (h : (pathSplit p).2 ≠ []) (h2 : ∀ n, '/' ∉ n → p ≠ '/' :: '/' :: n) :
    pathJoin (pathSplit p).1 (pathSplit p).2 = p := by
  rcases exists_last_split p '/' with hp | ⟨a, b, rfl, hb⟩
  · simp [pathSplit_no_sep hp, pathJoin]
  · by_cases ha : a = []
    · subst ha
      rw [List.nil_append, pathSplit_root hb] at *
      simp at h; simp [pathJoin, h]
    · rw [pathSplit_mid ha hb] at *
      have : a ≠ ['/'] := by rintro rfl; exact h2 b hb rfl
      simp at h
      simp [pathJoin, ha, h, this]

/-- The exception in `C60_join_split` is real. -/
theorem C60_join_split_exception :
    pathJoin (pathSplit "//x".toList).1 (pathSplit "//x".toList).2 = "/x".toList := by decide

theorem pathOf_append_last (ns : List Str) (n : Str) (h : ns ≠ []) :
    pathOf (ns ++ [n]) = pathOf ns ++ '/' :: n := by
  induction ns with
  | nil => exact absurd rfl h
  | cons a as ih =>
    cases as with
    | nil => simp [pathOf]
    | cons b bs => simp only [List.cons_append, pathOf] at *; rw [ih (by simp)]; simp

theorem pathOf_ne_nil {ns : List Str} (h : ns ≠ []) (hn : ∀ n ∈ ns, IsFileName n) : pathOf ns ≠ [] := by
  cases ns with
  | nil => exact absurd rfl h
  | cons a as => cases as with
    | nil => simpa [pathOf] using (hn a (by simp)).1
    | cons b bs => simp [pathOf]

theorem pathOf_head_ne_sep {ns : List Str} (hn : ∀ n ∈ ns, IsFileName n) (r : Str) : pathOf ns ≠ '/' :: r := by
  cases ns with
  | nil => simp [pathOf]
  | cons a as =>
    obtain ⟨h1, h2⟩ := hn a (by simp)
    cases a with
    | nil => exact absurd rfl h1
    | cons c cs =>
      have : c ≠ '/' := fun h => h2 (by simp [h])
      cases as <;> simp [pathOf, this]

/-- C60: For every start directory and every non-empty list of file names below it: the path is the start directory joined
with the relative path, `name` is the last file name, and joining `dir` and `name` gives the path. -/
theorem C60_entry (root absroot : Str) (ns : List Str) (n : Str) (hr : root ≠ [])
    (hns : ∀ x ∈ ns, IsFileName x) (hn : IsFileName n) :
    let e := mkEntry root absroot (pathOf (ns ++ [n]))
    e.name = n ∧ pathJoin e.dir e.name = e.path ∧
    e.path = (if root = ['.'] then pathOf (ns ++ [n]) else
              if root = ['/'] then '/' :: pathOf (ns ++ [n]) else root ++ '/' :: pathOf (ns ++ [n])) ∧
    e.dir = (if ns = [] then (if root = ['.'] then [] else root) else
             if root = ['.'] then pathOf ns else
             if root = ['/'] then '/' :: pathOf ns else root ++ '/' :: pathOf ns) := by
  have hall : ∀ x ∈ ns ++ [n], IsFileName x := by
    intro x hx; rcases List.mem_append.1 hx with h | h
    · exact hns x h
    · simp at h; subst h; exact hn
  have hne := pathOf_ne_nil (by simp) hall
  have hpath : (mkEntry root absroot (pathOf (ns ++ [n]))).path =
      (if root = ['.'] then pathOf (ns ++ [n]) else
              if root = ['/'] then '/' :: pathOf (ns ++ [n]) else root ++ '/' :: pathOf (ns ++ [n])) := by
    simp only [mkEntry, pathJoin]
    by_cases h1 : root = ['.']
    · simp [h1]
    · by_cases h2 : root = ['/']
      · simp [h2, hne]
      · simp [h1, h2, hr, hne]
  have hd : (mkEntry root absroot (pathOf (ns ++ [n]))).dir =
      (pathSplit (mkEntry root absroot (pathOf (ns ++ [n]))).path).1 := rfl
  have hnm : (mkEntry root absroot (pathOf (ns ++ [n]))).name =
      (pathSplit (mkEntry root absroot (pathOf (ns ++ [n]))).path).2 := rfl
  intro e
  have hsplit : pathSplit e.path = ((if ns = [] then (if root = ['.'] then [] else root) else
             if root = ['.'] then pathOf ns else
             if root = ['/'] then '/' :: pathOf ns else root ++ '/' :: pathOf ns), n) := by
    rw [hpath]
    by_cases hnil : ns = []
    · subst hnil
      simp only [List.nil_append, pathOf, if_true]
      by_cases h1 : root = ['.']
      · simp [h1, pathSplit_no_sep hn.2]
      · by_cases h2 : root = ['/']
        · simp [h2, pathSplit_root hn.2]
        · simp [h1, h2, pathSplit_mid hr hn.2]
    · have hp := pathOf_append_last ns n hnil
      have hne' := pathOf_ne_nil hnil hns
      rw [hp]
      by_cases h1 : root = ['.']
      · simp [h1, hnil, pathSplit_mid hne' hn.2]
      · by_cases h2 : root = ['/']
        · simp only [h2, hnil, if_false]
          have := pathSplit_mid (a := '/' :: pathOf ns) (by simp) hn.2
          simpa using this
        · simp only [h1, h2, hnil, if_false]
          have := pathSplit_mid (a := root ++ '/' :: pathOf ns) (by simp) hn.2
          simpa using this
  have hname : e.name = n := by rw [hnm, hsplit]
  refine ⟨hname, ?_, hpath, by rw [hd, hsplit]⟩
  rw [hd, hnm]
  apply C60_join_split
  · rw [hsplit]; exact hn.1
  · intro m hm
    rw [hpath]
    by_cases h1 : root = ['.']
    · simp only [h1, if_true]; exact pathOf_head_ne_sep hall _
    · by_cases h2 : root = ['/']
      · simp only [h2]
        intro h; simp at h; exact pathOf_head_ne_sep hall _ h
      · simp only [h1, h2, if_false]
        cases root with
        | nil => exact absurd rfl hr
        | cons c cs =>
          intro h
          simp only [List.cons_append, List.cons.injEq] at h
          obtain ⟨rfl, h⟩ := h
          cases cs with
          | nil => exact h2 rfl
          | cons c' cs' =>
            simp only [List.cons_append, List.cons.injEq] at h
            exact hm (h.2 ▸ by simp)

example : (mkEntry "a b".toList "/x/a b".toList (pathOf ["c".toList, ".d.e".toList])).path = "a b/c/.d.e".toList ∧
    IsFileName ".d.e".toList := by unfold IsFileName; decide

/-! ### C61 -/

theorem count_sep_zero {n : Str} (h : '/' ∉ n) : n.count '/' = 0 := List.count_eq_zero.2 h

/-- C61: depth is the number of directories between start directory and entry. -/
theorem C61_depth (root absroot : Str) (ns : List Str) (n : Str)
    (hns : ∀ x ∈ ns, IsFileName x) (hn : IsFileName n) :
    (mkEntry root absroot (pathOf (ns ++ [n]))).depth = ns.length := by
  simp only [mkEntry, Entry.depth]
  induction ns with
  | nil => simpa [pathOf] using count_sep_zero hn.2
  | cons a as ih =>
    have h1 := (hns a (by simp)).2
    have : pathOf (a :: as ++ [n]) = a ++ '/' :: pathOf (as ++ [n]) := by
      cases as <;> simp [pathOf]
    rw [this, List.count_append, List.count_cons_self, ih (fun x hx => hns x (by simp [hx])), count_sep_zero h1]
    simp

/-- C61: hide is defined for every entry and true iff the file's own name starts with a dot. -/
theorem C61_hide (root absroot : Str) (ns : List Str) (n : Str) (hr : root ≠ [])
    (hns : ∀ x ∈ ns, IsFileName x) (hn : IsFileName n) :
    ∃ b, (mkEntry root absroot (pathOf (ns ++ [n]))).hide = some b ∧ (b = true ↔ ∃ r, n = '.' :: r) := by
  have h := (C60_entry root absroot ns n hr hns hn).1
  simp only [Entry.hide, h]
  obtain ⟨hne, _⟩ := hn
  cases n with
  | nil => exact absurd rfl hne
  | cons c cs => exact ⟨c = '.', by simp, by simp⟩

/-- C60: the absolute path of an entry is the absolute start directory joined with the path relative to it. -/
theorem C60_abspath (root absroot : Str) (ns : List Str) (n : Str) (ha : absroot ≠ []) (hns : ∀ x ∈ ns, IsFileName x) (hn : IsFileName n) :
    (mkEntry root absroot (pathOf (ns ++ [n]))).abspath = (if absroot = ['/'] then '/' :: pathOf (ns ++ [n]) else absroot ++ '/' :: pathOf (ns ++ [n])) ∧
    (mkEntry root absroot (pathOf (ns ++ [n]))).relpath = pathOf (ns ++ [n]) ∧ (mkEntry root absroot (pathOf (ns ++ [n]))).root = root := by
  have hne := pathOf_ne_nil (ns := ns ++ [n]) (by simp) (by
    intro x hx; rcases List.mem_append.1 hx with h | h
    · exact hns x h
    · simp at h; subst h; exact hn)
  refine ⟨?_, rfl, rfl⟩
  simp only [mkEntry, pathJoin]
  by_cases h : absroot = ['/'] <;> simp [h, ha, hne]

example : (mkEntry "../w".toList "/home/w".toList (pathOf (["a".toList] ++ ["b".toList]))).abspath = "/home/w/a/b".toList := by decide

theorem splitOn_cons_eq (c : Char) (s : Str) : ∃ w ws, splitOn c s = w :: ws := by
  induction s with
  | nil => exact ⟨[], [], rfl⟩
  | cons x xs ih =>
    obtain ⟨w, ws, h⟩ := ih
    by_cases hx : x = c
    · exact ⟨[], w :: ws, by simp [splitOn, hx, h]⟩
    · exact ⟨x :: w, ws, by simp [splitOn, hx, h]⟩

theorem splitOn_append_sep (c : Char) (a s : Str) (h : c ∉ a) : splitOn c (a ++ c :: s) = a :: splitOn c s := by
  induction a with
  | nil => simp [splitOn]
  | cons x xs ih =>
    simp only [List.mem_cons, not_or] at h
    simp [splitOn, Ne.symm h.1, ih h.2]

theorem splitOn_not_mem (c : Char) (a : Str) (h : c ∉ a) : splitOn c a = [a] := by
  induction a with
  | nil => simp [splitOn]
  | cons x xs ih =>
    simp only [List.mem_cons, not_or] at h
    simp [splitOn, Ne.symm h.1, ih h.2]

theorem splitOn_pathOf {ns : List Str} (h : ns ≠ []) (hns : ∀ x ∈ ns, '/' ∉ x) : splitOn '/' (pathOf ns) = ns := by
  induction ns with
  | nil => exact absurd rfl h
  | cons a as ih =>
    cases as with
    | nil => simpa [pathOf] using splitOn_not_mem '/' a (hns a (by simp))
    | cons b bs =>
      rw [pathOf, splitOn_append_sep _ _ _ (hns a (by simp)), ih (by simp) (fun x hx => hns x (by simp [hx]))]
      simp

theorem splitOn_append_sep' (c : Char) (a s : Str) : splitOn c (a ++ c :: s) = splitOn c a ++ splitOn c s := by
  induction a with
  | nil => simp [splitOn]
  | cons x xs ih =>
    by_cases hx : x = c
    · simp [splitOn, hx, ih]
    · obtain ⟨w, ws, h⟩ := splitOn_cons_eq c xs
      simp [splitOn, hx, ih, h]

/-- C61: hidden is true iff a component of the start directory as typed (other than ".") or one of the file names
below it starts with a dot. -/
theorem C61_hidden (root absroot : Str) (ns : List Str) (n : Str) (hr : root ≠ [])
    (hns : ∀ x ∈ ns, IsFileName x) (hn : IsFileName n) :
    (mkEntry root absroot (pathOf (ns ++ [n]))).hidden = true ↔
      (root ≠ ['.'] ∧ ∃ c ∈ splitOn '/' root, ∃ r, c = '.' :: r) ∨ ∃ c ∈ ns ++ [n], ∃ r, c = '.' :: r := by
  have hall : ∀ x ∈ ns ++ [n], '/' ∉ x := by
    intro x hx; rcases List.mem_append.1 hx with h | h
    · exact (hns x h).2
    · simp at h; subst h; exact hn.2
  have hp := (C60_entry root absroot ns n hr hns hn).2.2.1
  have hsw : ∀ c : Str, startsWith c ['.'] = true ↔ ∃ r, c = '.' :: r := by
    intro c; cases c with
    | nil => simp [startsWith]
    | cons x xs => simp [startsWith]; exact eq_comm
  simp only [Entry.hidden, List.any_eq_true, hsw, hp]
  have hs := splitOn_pathOf (ns := ns ++ [n]) (by simp) hall
  by_cases h1 : root = ['.']
  · simp only [h1, if_true, hs]; simp
  · simp only [h1, if_false, ne_eq, not_false_eq_true, true_and]
    by_cases h2 : root = ['/']
    · subst h2
      have h3 := splitOn_append_sep' '/' [] (pathOf (ns ++ [n]))
      simp only [List.nil_append] at h3
      simp only [if_true, h3, hs, List.mem_append]
      simp [splitOn]
    · simp only [h2, if_false, splitOn_append_sep', hs, List.mem_append]
      constructor
      · rintro ⟨c, h | h, hc⟩
        · exact .inl ⟨c, h, hc⟩
        · exact .inr ⟨c, h, hc⟩
      · rintro (⟨c, h, hc⟩ | ⟨c, h, hc⟩)
        · exact ⟨c, .inl h, hc⟩
        · exact ⟨c, .inr h, hc⟩

example : (mkEntry "x".toList "/x".toList (pathOf [".git".toList, "config".toList])).hidden = true ∧
    (mkEntry "x".toList "/x".toList (pathOf [".git".toList, "config".toList])).hide = some false ∧
    (mkEntry "x".toList "/x".toList (pathOf [".git".toList, "config".toList])).depth = 1 := by decide

/-! ### C62 -/

theorem strLe_prefix_length {p a b : Str} (ha : a <+: p) (hb : b <+: p) (h : strLe a b = true) :
    a.length ≤ b.length := by
  induction a generalizing p b with
  | nil => simp
  | cons x xs ih =>
    obtain ⟨t, rfl⟩ := ha
    cases b with
    | nil => simp [strLe] at h
    | cons y ys =>
      rw [List.cons_append, List.cons_prefix_cons] at hb
      obtain ⟨rfl, hb⟩ := hb
      simp only [strLe, if_true] at h
      have := ih (List.prefix_append xs t) hb h
      simpa using this

theorem strLe_total (a b : Str) : strLe a b = true ∨ strLe b a = true := by
  induction a generalizing b with
  | nil => simp [strLe]
  | cons x xs ih =>
    cases b with
    | nil => simp [strLe]
    | cons y ys =>
      by_cases h : x = y
      · subst h; simpa [strLe] using ih ys
      · have hv : x.val ≠ y.val := fun hh => h (Char.ext hh)
        simp only [strLe, h, Ne.symm h, if_false, decide_eq_true_eq]
        rcases Nat.lt_trichotomy x.val.toNat y.val.toNat with h1 | h1 | h1
        · left; exact h1
        · exact absurd (UInt32.toNat_inj.1 h1) hv
        · right; exact h1

theorem strLe_trans {a b c : Str} (h1 : strLe a b = true) (h2 : strLe b c = true) : strLe a c = true := by
  induction a generalizing b c with
  | nil => simp [strLe]
  | cons x xs ih =>
    cases b with
    | nil => simp [strLe] at h1
    | cons y ys =>
      cases c with
      | nil => simp [strLe] at h2
      | cons z zs =>
        simp only [strLe] at *
        by_cases hxy : x = y
        · subst hxy
          by_cases hxz : x = z
          · subst hxz; simp only [if_true] at *; exact ih h1 h2
          · simp only [hxz, if_false] at *; exact h2
        · simp only [hxy, if_false, decide_eq_true_eq] at h1
          by_cases hyz : y = z
          · subst hyz; simp only [hxy, if_false, decide_eq_true_eq]; exact h1
          · simp only [hyz, if_false, decide_eq_true_eq] at h2
            have h3 : x.val < z.val := UInt32.lt_trans h1 h2
            have hxz : x ≠ z := by rintro rfl; exact UInt32.lt_irrefl _ h3
            simp only [hxz, if_false, decide_eq_true_eq]; exact h3

theorem strLe_antisymm {a b : Str} (h1 : strLe a b = true) (h2 : strLe b a = true) : a = b := by
  induction a generalizing b with
  | nil => cases b with
    | nil => rfl
    | cons y ys => simp [strLe] at h2
  | cons x xs ih =>
    cases b with
    | nil => simp [strLe] at h1
    | cons y ys =>
      simp only [strLe] at *
      by_cases hxy : x = y
      · subst hxy; simp only [if_true] at *; rw [ih h1 h2]
      · simp only [hxy, Ne.symm hxy, if_false, decide_eq_true_eq] at *
        exact absurd h2 (UInt32.lt_asymm h1)

theorem rowLe_total (a b : MountRow) : (rowLe a b || rowLe b a) = true := by
  simp only [rowLe, Bool.or_eq_true]
  by_cases h1 : a.1 = b.1
  · by_cases h2 : a.2.1 = b.2.1
    · simpa [h1, h2] using strLe_total a.2.2 b.2.2
    · simpa [h1, h2, Ne.symm h2] using strLe_total a.2.1 b.2.1
  · simpa [h1, Ne.symm h1] using strLe_total a.1 b.1

theorem rowLe_trans (a b c : MountRow) (h1 : rowLe a b = true) (h2 : rowLe b c = true) : rowLe a c = true := by
  have lex : ∀ {a b c : Str}, strLe a b = true → strLe b c = true → a = c → a = b := by
    intro a b c h1 h2 h; subst h; exact strLe_antisymm h1 h2
  simp only [rowLe] at h1 h2 ⊢
  by_cases hab : a.1 = b.1 <;> by_cases hbc : b.1 = c.1
  · simp only [hab, hbc, if_true] at h1 h2 ⊢
    by_cases hab' : a.2.1 = b.2.1 <;> by_cases hbc' : b.2.1 = c.2.1
    · simp only [hab', hbc', if_true] at h1 h2 ⊢; exact strLe_trans h1 h2
    · simp only [hab', hbc', if_true, if_false] at h1 h2 ⊢; exact h2
    · simp only [← hbc', hab', if_true, if_false] at h1 h2 ⊢; exact h1
    · simp only [hab', hbc', if_false] at h1 h2 ⊢
      by_cases h : a.2.1 = c.2.1
      · exact absurd (lex h1 h2 h) hab'
      · simp only [h, if_false]; exact strLe_trans h1 h2
  · simp only [hab, hbc, if_false] at h1 h2 ⊢; exact h2
  · simp only [← hbc, hab, if_false] at h1 h2 ⊢; exact h1
  · simp only [hab, hbc, if_false] at h1 h2 ⊢
    by_cases h : a.1 = c.1
    · exact absurd (lex h1 h2 h) hab
    · simp only [h, if_false]; exact strLe_trans h1 h2

theorem rowLe_fst {a b : MountRow} (h : rowLe a b = true) : strLe a.1 b.1 = true := by
  simp only [rowLe] at h
  by_cases h1 : a.1 = b.1
  · rw [h1]; rcases strLe_total b.1 b.1 with h | h <;> exact h
  · simpa [h1] using h

theorem startsWith_iff {s p : Str} : startsWith s p = true ↔ p <+: s := by simp [startsWith]

theorem mountGet_longest {l : List MountRow} (hs : l.Pairwise (fun a b => rowLe b a = true)) (path : Str)
    (m : MountRow) (hm : m ∈ l) (hp : m.1 <+: path) :
    mountGet l path ∈ l ∧ (mountGet l path).1 <+: path ∧ m.1.length ≤ (mountGet l path).1.length := by
  induction l with
  | nil => simp at hm
  | cons r rest ih =>
    obtain ⟨mp, dev, fs⟩ := r
    rw [List.pairwise_cons] at hs
    by_cases hc : mp = path ∨ startsWith path mp = true
    · have hpre : mp <+: path := by
        rcases hc with rfl | hc
        · exact List.prefix_refl _
        · exact startsWith_iff.1 hc
      simp only [mountGet, hc, if_true]
      refine ⟨by simp, hpre, ?_⟩
      rcases List.mem_cons.1 hm with rfl | hm
      · simp
      · exact strLe_prefix_length hp hpre (rowLe_fst (hs.1 m hm))
    · simp only [mountGet, hc, if_false]
      rcases List.mem_cons.1 hm with rfl | hm
      · exact absurd (.inr (startsWith_iff.2 hp)) hc
      · obtain ⟨h1, h2, h3⟩ := ih hs.2 hm
        exact ⟨List.mem_cons_of_mem _ h1, h2, h3⟩

theorem rstripChar_of_no_trailing {c : Char} {s : Str} (h : ∀ t, s ≠ t ++ [c]) : rstripChar c s = s := by
  rcases List.eq_nil_or_concat s with rfl | ⟨t, x, rfl⟩
  · rfl
  · have : x ≠ c := by rintro rfl; exact h t (by simp)
    simp [rstripChar, this]

theorem rstripChar_root : rstripChar '/' ['/'] = [] := by decide

/-- C62 (partial): for every mount table and every path that is not itself one of the mount points, the reported mount is a
table row whose mount point is an ancestor of the path, and no row has a longer such mount point.
Missing: the case that the path is itself a mount point, where the claim is false (`C62_false`). -/
theorem C62_mount_longest_partial (lines : List (Str × Str × Str)) (path : Str)
    (hl : ∀ l ∈ lines, MountPath l.2.1) (hself : ∀ l ∈ lines, l.2.1 ≠ path)
    (hroot : ∃ l ∈ lines, Contains l.2.1 path) :
    ∃ l ∈ lines, mountGet (mountTable lines) path = ((if l.2.1 = ['/'] then ['/'] else l.2.1 ++ ['/']), l.1, l.2.2) ∧
      Contains l.2.1 path ∧ ∀ l' ∈ lines, Contains l'.2.1 path → l'.2.1.length ≤ l.2.1.length := by
  have hstrip : ∀ l ∈ lines, rstripChar '/' l.2.1 = if l.2.1 = ['/'] then [] else l.2.1 := by
    intro l hl'
    rcases hl l hl' with h | ⟨_, h⟩
    · simp [h, rstripChar_root]
    · have : l.2.1 ≠ ['/'] := fun hh => h [] (by simpa using hh)
      rw [if_neg this, rstripChar_of_no_trailing h]
  have hpre : ∀ l ∈ lines, Contains l.2.1 path ↔ rstripChar '/' l.2.1 ++ ['/'] <+: path := by
    intro l hl'
    rw [hstrip l hl']
    have hs := hself l hl'
    constructor
    · rintro (h | ⟨h1, q, h2⟩ | ⟨q, hq⟩)
      · exact absurd h.symm hs
      · simp [h1, h2]
      · split
        · rename_i he; rw [hq, he]; simp
        · rw [hq]; exact ⟨q, by simp⟩
    · rintro ⟨q, hq⟩
      split at hq
      · rename_i he; exact .inr (.inl ⟨he, q, by simpa using hq.symm⟩)
      · exact .inr (.inr ⟨q, by simpa using hq.symm⟩)
  have hsorted : (mountTable lines).Pairwise (fun a b => rowLe b a = true) :=
    pySortRev_sorted ⟨fun a b => by simpa using rowLe_total a b, rowLe_trans⟩ _
  have hmem : ∀ r, r ∈ mountTable lines ↔ ∃ l ∈ lines, (rstripChar '/' l.2.1 ++ ['/'], l.1, l.2.2) = r := by
    intro r; simp only [mountTable, (pySortRev_perm _ _).mem_iff, List.mem_map]
  obtain ⟨l0, hl0, hc0⟩ := hroot
  have key := fun l (hl' : l ∈ lines) hc => mountGet_longest hsorted path (rstripChar '/' l.2.1 ++ ['/'], l.1, l.2.2)
    ((hmem _).2 ⟨l, hl', rfl⟩) ((hpre l hl').1 hc)
  obtain ⟨h1, h2, _⟩ := key l0 hl0 hc0
  obtain ⟨l, hlm, hle⟩ := (hmem _).1 h1
  refine ⟨l, hlm, ?_, ?_, ?_⟩
  · rw [← hle, hstrip l hlm]; split <;> rfl
  · rw [hpre l hlm]; rw [← hle] at h2; exact h2
  · intro l' hl' hc'
    have h3 := (key l' hl' hc').2.2
    rw [← hle] at h3
    simp only [List.length_append, List.length_singleton, hstrip l hlm, hstrip l' hl'] at h3
    rcases hl l hlm with h | ⟨⟨t, h⟩, _⟩ <;> rcases hl l' hl' with h' | ⟨⟨t', h'⟩, _⟩
    · simp [h, h']
    · by_cases h4 : t' = []
      · simp [h, h', h4]
      · rw [if_pos h, if_neg (by rw [h']; simpa using h4)] at h3
        rw [h'] at h3; simp at h3
    · simp [h, h']
    · by_cases h4 : t' = []
      · simp [h, h', h4]
      · rw [if_neg (c := l'.2.1 = _) (by rw [h']; simpa using h4)] at h3
        split at h3
        · rw [h'] at h3; simp at h3
        · omega

example : mountGet (mountTable [("d1".toList, "/".toList, "ext4".toList), ("d2".toList, "/home".toList, "xfs".toList)])
    "/home/a".toList = ("/home/".toList, "d2".toList, "xfs".toList) := by decide

/-- C62 is false in full: a directory that is itself a mount point is attributed to the file system above it. -/
theorem C62_false :
    ∃ lines path, (∀ l ∈ lines, MountPath l.2.1) ∧ (∃ l ∈ lines, l.2.1 = path) ∧
      ∃ l ∈ lines, Contains l.2.1 path ∧
        (mountGet (mountTable lines) path).1.length < (l.2.1 ++ ['/']).length ∧
        (mountGet (mountTable lines) path).2 ≠ (l.1, l.2.2) := by
  refine ⟨[("d1".toList, "/".toList, "ext4".toList), ("d2".toList, "/home".toList, "xfs".toList)], "/home".toList,
    ?_, ⟨("d2".toList, "/home".toList, "xfs".toList), by simp, rfl⟩, ("d2".toList, "/home".toList, "xfs".toList), by simp, .inl rfl, by decide, by decide⟩
  intro l hl
  simp at hl
  rcases hl with rfl | rfl
  · exact .inl rfl
  · refine .inr ⟨⟨_, rfl⟩, ?_⟩
    intro t ht
    have := congrArg List.getLast? ht
    simp at this

end FF
