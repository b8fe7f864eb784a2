import Verif.Lemmas.Glob
namespace FF
open Spec

/-! ### C14: wildcards -/

theorem classText_noSlash {l : List (Char × Char)} (h2 : ∀ r ∈ l, classChar r.1 ∧ classChar r.2 ∧ r.1 ≤ r.2) : '/' ∉ classText l := by
  induction l with
  | nil => simp [classText]
  | cons r l ih =>
    have h3 := h2 r (by simp)
    simp only [classChar, List.mem_cons, List.not_mem_nil, or_false, not_or] at h3
    have h4 := ih (fun q hq => h2 q (by simp [hq]))
    obtain ⟨a, b⟩ := r
    simp only [classText, List.mem_append, not_or]
    refine ⟨?_, h4⟩
    split
    · simp [Ne.symm h3.1.2.2]
    · simp [Ne.symm h3.1.2.2, Ne.symm h3.2.1.2.2]

/-- The text of items contains no slash. -/
theorem item_text_noSlash {i : Item} (h : i.Ok) : '/' ∉ i.text := by
  cases i with
  | lit c => simp only [Item.Ok, plainChar, List.mem_cons, not_or] at h; simp [Item.text, Ne.symm h.2.2.2.2.1]
  | any => simp [Item.text]
  | star => simp [Item.text]
  | cls neg l =>
    have hc := classText_noSlash h.1.2.1
    cases neg <;> simp [Item.text, hc]
  | hat l =>
    have hc := classText_noSlash h.2.1
    simp [Item.text, hc]

theorem itemsText_noSlash {is : List Item} (h : ∀ i ∈ is, i.Ok) : '/' ∉ itemsText is := by
  intro hm
  simp only [itemsText, List.mem_flatMap] at hm
  obtain ⟨i, hi, hm⟩ := hm
  exact item_text_noSlash (h i hi) hm

theorem comp_text_noSlash {c : Comp} (h : c.Ok) : '/' ∉ c.text := by
  cases c with
  | deep => simp [Comp.text]
  | wild is => exact itemsText_noSlash h.2.1

theorem item_text_ne_nil (i : Item) : i.text ≠ [] := by
  cases i with
  | cls neg l => cases neg <;> simp [Item.text]
  | _ => simp [Item.text]

theorem comp_text_ne_nil {c : Comp} (h : c.Ok) : c.text ≠ [] := by
  cases c with
  | deep => simp [Comp.text]
  | wild is =>
    cases is with
    | nil => exact absurd rfl h.1
    | cons i is => simp [Comp.text, itemsText, item_text_ne_nil]

/-- C14: a pattern of one component, matched against a string that has no newline: `*`, `?`, classes and literal characters mean what
gitignore(5) says. This is what the `%` operator does for strings without slashes. -/
theorem C14_component {is : List Item} (hok : ∀ i ∈ is, i.Ok) (hd : noDouble is) :
    ∃ r, partsRe (globSplit [] 0 (itemsText is)) = some r ∧
      ∀ a : Str, '\n' ∉ a → ((∀ i ∈ is, i.noSlash) ∨ '/' ∉ a) → (bodyMatch r a = true ↔ Wild is a) := by
  have ht := tokens_items hok hd (t := []) (by intro x xs h; cases h) Tokens.nil
  rw [List.append_nil, List.append_nil] at ht
  obtain ⟨r, h1, h2⟩ := body_of_tokens ht (toksOk_items hok)
  exact ⟨r, h1, fun a ha hs => by rw [h2 a ha, toksL_items hok hs]⟩

theorem ranges_check {l : List (Char × Char)} (h1 : l ≠ []) (h2 : ∀ r ∈ l, (r.1 ∉ [']', '\\', '/']) ∧ (r.2 ∉ [']', '\\', '/']) ∧ r.1 ≤ r.2)
    (h3 : ∀ i, ∀ h : i < l.length, ((l[i]'h).1 = '-' ∨ (l[i]'h).2 = '-') → l[i]'h = ('-', '-') ∧ (i = 0 ∨ i + 1 = l.length)) : Ranges l := by
  refine ⟨h1, h2, ?_⟩
  rintro a r b rfl hr
  have h := h3 a.length (by simp) (by simpa using hr)
  rw [List.getElem_append_right (Nat.le_refl _)] at h
  simp only [Nat.sub_self, List.getElem_cons_zero, List.length_append, List.length_cons, List.length_eq_zero_iff] at h
  refine ⟨h.1, h.2.imp_right fun e => ?_⟩
  have : b.length = 0 := by omega
  exact List.length_eq_zero_iff.1 this

/-- `a?[-b-d!^]*[^x-]` -/
example : ∃ is : List Item, (∀ i ∈ is, i.Ok) ∧ noDouble is ∧ itemsText is = "a?[-b-d!^]*[^x-]".toList ∧ Wild is "ax-yz".toList := by
  refine ⟨[.lit 'a', .any, .cls false [('-', '-'), ('b', 'd'), ('!', '!'), ('^', '^')], .star, .hat [('x', 'x'), ('-', '-')]], ?_, by simp [noDouble], by decide, ?_⟩
  · intro i hi
    simp only [List.mem_cons, List.not_mem_nil, or_false] at hi
    rcases hi with rfl | rfl | rfl | rfl | rfl
    · simp [Item.Ok, plainChar]
    · trivial
    · exact ⟨ranges_check (by decide) (by decide) (by decide), fun _ => by decide⟩
    · trivial
    · exact ranges_check (by decide) (by decide) (by decide)
  · exact .lit _ (.any _ (by decide) (.cls _ _ _ (by decide) (by constructor <;> simp <;> decide) (.eat _ (by decide) (.skip (.hat _ _ (by decide) (by simp; decide) .nil)))))

/-- C14 (partial): a pattern of several components against a path. Exact, up to two deviations from gitignore(5): a pattern that ends
in `/**` also matches the directory itself (`Itself`), and a lone `**` that is anchored (`/**`) matches one component only (excluded by
`hdeep`). Classes that contain the slash are excluded, too. -/
theorem C14_path_partial {cs : List Comp} (hne : cs ≠ []) (hok : ∀ c ∈ cs, c.Ok ∧ c.noSlash) (hdeep : cs ≠ [.deep]) :
    ∃ r, partsRe (globSplit [] 0 (pathOf (cs.map Comp.text))) = some r ∧
      ∀ ns : List Str, ns ≠ [] → Names ns → (bodyMatch r (pathOf ns) = true ↔ Comps cs ns ∨ Itself cs ns) := by
  have hok' : ∀ c ∈ cs, c.Ok := fun c hc => (hok c hc).1
  obtain ⟨r, h1, h2⟩ := body_of_tokens (tokens_comps hok' false) (toksOk_comps hok' false)
  refine ⟨r, h1, fun ns hns hn => ?_⟩
  rw [h2 _ (pathOf_no_newline hn)]
  rw [← (compsM_iff cs hne).1 hdeep ns]
  exact toksL_comps hok false ns hn (fun _ => hns)

/-- C14: patterns that do not end in `**` match exactly as documented. -/
theorem C14_path {cs : List Comp} (hne : cs ≠ []) (hok : ∀ c ∈ cs, c.Ok ∧ c.noSlash) (hlast : cs.getLast? ≠ some .deep) :
    ∃ r, partsRe (globSplit [] 0 (pathOf (cs.map Comp.text))) = some r ∧
      ∀ ns : List Str, ns ≠ [] → Names ns → (bodyMatch r (pathOf ns) = true ↔ Comps cs ns) := by
  obtain ⟨r, h1, h2⟩ := C14_path_partial hne hok (by rintro rfl; exact hlast rfl)
  refine ⟨r, h1, fun ns hns hn => ?_⟩
  rw [h2 ns hns hn]
  constructor
  · rintro (h | ⟨ps, is, rfl, _⟩)
    · exact h
    · simp at hlast
  · exact Or.inl

/-- `**/foo/**/b*` -/
example : ∃ cs : List Comp, cs ≠ [] ∧ (∀ c ∈ cs, c.Ok ∧ c.noSlash) ∧ cs.getLast? ≠ some .deep ∧
    pathOf (cs.map Comp.text) = "**/foo/**/b*".toList ∧ Comps cs ["x".toList, "foo".toList, "y".toList, "z".toList, "bar".toList] := by
  refine ⟨[.deep, .wild [.lit 'f', .lit 'o', .lit 'o'], .deep, .wild [.lit 'b', .star]], by simp, ?_, by simp, by decide, ?_⟩
  · intro c hc
    simp only [List.mem_cons, List.not_mem_nil, or_false] at hc
    rcases hc with rfl | rfl | rfl | rfl <;> simp [Comp.Ok, Comp.noSlash, noDouble, Item.Ok, Item.noSlash, plainChar]
  · refine .deepSome _ (by simp) (.deepNone (by simp) (.wild _ _ (.lit _ (.lit _ (.lit _ .nil))) ?_))
    refine .deepSome _ (by simp) (.deepSome _ (by simp) (.deepNone (by simp) (.wild _ _ ?_ .nil)))
    exact .lit _ (.eat _ (by decide) (.eat _ (by decide) (.skip .nil)))

/-- Deviations of the code: `abc/**` matches `abc` itself, `a[!b]c` matches the path `a/c`, `foo**/bar` matches `foobar`,
`foo` matches a name with a trailing newline and an unclosed bracket swallows a character. -/
theorem C14_false :
    (translate "abc/**".toList true).match' "abc".toList "abc".toList true = some true ∧
    (translate "/a[!b]c".toList true).match' "a/c".toList "c".toList false = some true ∧
    (translate "foo**/bar".toList true).match' "foobar".toList "foobar".toList false = some true ∧
    (translate "foo".toList true).match' "foo\n".toList "foo\n".toList false = some true ∧
    (translate "[ab".toList true).match' "a".toList "a".toList false = some true ∧
    (translate "[ab".toList true).match' "[ab".toList "[ab".toList false = some false := by
  decide

/-! ### C15: markers -/

theorem findChar_append {c : Char} {a b : Str} (h : c ∉ a) : findChar c (a ++ c :: b) = some a.length := by
  induction a with
  | nil => simp [findChar]
  | cons x xs ih =>
    simp only [List.mem_cons, not_or] at h
    simp [findChar, Ne.symm h.1, ih h.2]

theorem findChar_none {c : Char} {a : Str} (h : c ∉ a) : findChar c a = none := by
  induction a with
  | nil => rfl
  | cons x xs ih =>
    simp only [List.mem_cons, not_or] at h
    simp [findChar, Ne.symm h.1, ih h.2]

theorem first_split {c : Char} {a : Str} (h : c ∈ a) : ∃ x y, a = x ++ c :: y ∧ c ∉ x := by
  induction a with
  | nil => cases h
  | cons z zs ih =>
    by_cases hz : z = c
    · exact ⟨[], zs, by simp [hz], by simp⟩
    · obtain ⟨x, y, rfl, hx⟩ := ih (by simpa [Ne.symm hz] using h)
      exact ⟨z :: x, y, rfl, by simp [hx, Ne.symm hz]⟩

/-- A slash that is not the last character. -/
theorem globAnchored_fst (s : Str) : (globAnchored true s).1 = true ↔ ∃ a b, s = a ++ '/' :: b ∧ b ≠ [] := by
  by_cases h : '/' ∈ s
  · obtain ⟨x, y, rfl, hx⟩ := first_split h
    simp only [globAnchored, if_true, findChar_append hx]
    by_cases hy : y = []
    · subst hy
      simp only [List.length_append, List.length_cons, List.length_nil]
      rw [if_neg (by omega)]
      simp only [Bool.false_eq_true, false_iff]
      rintro ⟨a, b, hab, hb⟩
      rcases List.append_eq_append_iff.1 hab with ⟨c, hc1, hc2⟩ | ⟨c, hc1, hc2⟩
      · cases c with
        | nil => simp at hc2; exact hb hc2
        | cons z zs =>
          simp only [List.cons_append, List.cons.injEq] at hc2
          have := congrArg List.length hc2.2
          simp at this
      · cases c with
        | nil => simp at hc2; exact hb hc2
        | cons z zs =>
          simp only [List.cons_append, List.cons.injEq] at hc2
          exact hx (by rw [hc1, ← hc2.1]; simp)
    · have : x.length + 1 < (x ++ '/' :: y).length := by
        have : 0 < y.length := List.length_pos_iff.2 hy
        simp; omega
      simp only [this, if_true, true_iff]
      exact ⟨x, y, rfl, hy⟩
  · simp only [globAnchored, if_true, findChar_none h, Bool.false_eq_true, false_iff]
    rintro ⟨a, b, rfl, _⟩
    simp at h

/-- C15: for every pattern whose text has no further marker or backslash at its beginning, a leading `!` and nothing else inverts, the
pattern is anchored iff it has a slash that is not its last character, and a trailing slash demands a directory. -/
theorem C15_markers (neg : Bool) (core : Str) (hb : core.head? ≠ some '!') (he : core.head? ≠ some '\\') (hs : ∃ c ∈ core, c ≠ '/') :
    let g := translate ((if neg then ['!'] else []) ++ core) true
    g.incl = !neg ∧ (g.anchored = true ↔ ∃ a b, core = a ++ '/' :: b ∧ b ≠ []) ∧ (g.directory = true ↔ ∃ a, core = a ++ ['/']) := by
  have h1 : globNegated ((if neg then ['!'] else []) ++ core) = (neg, core) := by
    cases core with
    | nil => cases neg <;> simp [globNegated, startsWith]
    | cons x xs =>
      simp only [List.head?_cons, ne_eq, Option.some.injEq] at hb he
      cases neg <;> simp [globNegated, startsWith_cons, startsWith_nil, Ne.symm hb, Ne.symm he]
  have h2 : startsWith core ['\\', '!'] = false := by
    cases core with
    | nil => rfl
    | cons x xs =>
      simp only [List.head?_cons, ne_eq, Option.some.injEq] at he
      simp [startsWith_cons, Ne.symm he]
  simp only [translate, h1, h2, Bool.false_eq_true, if_false]
  refine ⟨trivial, globAnchored_fst core, ?_⟩
  -- stripping leading slashes keeps the last character
  have hlast : (globAnchored true core).2.getLast? = core.getLast? := by
    have hl : (lstripChar '/' core).getLast? = core.getLast? := by
      obtain ⟨c, hc, hne⟩ := hs
      have hne' : lstripChar '/' core ≠ [] := by
        intro h
        have hall := h
        unfold lstripChar at hall
        have : ∀ l : Str, l.dropWhile (· = '/') = [] → ∀ x ∈ l, x = '/' := by
          intro l
          induction l with
          | nil => simp
          | cons y ys ihy =>
            intro hd x hx
            by_cases hy : y = '/'
            · simp only [List.dropWhile_cons, hy, decide_true, if_true] at hd
              rcases List.mem_cons.1 hx with rfl | hx
              · exact hy
              · exact ihy hd x hx
            · simp [List.dropWhile_cons, hy] at hd
        exact hne (this core hall c hc)
      conv => rhs; rw [← List.takeWhile_append_dropWhile (p := (· = '/')) (l := core)]
      rw [List.getLast?_append]
      unfold lstripChar at hne' ⊢
      rw [List.getLast?_eq_some_getLast hne']
      rfl
    unfold globAnchored
    simp only [if_true]
    split
    · split
      · exact hl
      · rfl
    · rfl
  unfold globDirectory
  rw [hlast]
  constructor
  · intro h
    split at h
    · rename_i h'
      obtain ⟨a, ha⟩ := List.getLast?_eq_some_iff.1 h'
      exact ⟨a, ha⟩
    · cases h
  · rintro ⟨a, rfl⟩
    simp

example : "/foo/".toList.head? ≠ some '!' ∧ "/foo/".toList.head? ≠ some '\\' ∧ ∃ c ∈ "/foo/".toList, c ≠ '/' := by
  refine ⟨by decide, by decide, 'f', by decide, by decide⟩

/-- C15: an escaped `#` is literal. -/
theorem C15_hash (s : Str) (pp : Bool) : translate ('\\' :: '#' :: s) pp = translate ('#' :: s) pp := by
  have : globNegated ('\\' :: '#' :: s) = globNegated ('#' :: s) := by simp [globNegated, startsWith_cons, startsWith_nil]
  simp only [translate, this]

/-- C15: an anchored pattern looks only at the path (whether or not it begins with slashes), any other pattern only at the basename. -/
theorem C15_scope (g : Glob) (path path' name name' : Str) (isDir : Bool)
    (ha : g.anchored = true → lstripChar '/' path = lstripChar '/' path') (hn : g.anchored = false → name = name') :
    g.match' path name isDir = g.match' path' name' isDir := by
  unfold Glob.match'
  cases h : g.anchored with
  | true => simp [ha h]
  | false => simp [hn h]

example : ((translate "a/b".toList true).anchored = true → lstripChar '/' "/a/b".toList = lstripChar '/' "a/b".toList) ∧
    ((translate "a/b".toList true).anchored = false → "b".toList = "b".toList) := by decide

/-- C15: a pattern with a trailing slash never matches anything but a directory. -/
theorem C15_directory (g : Glob) (path name : Str) (h : g.directory = true) (r : Bool) (hr : g.match' path name false = some r) : r = false := by
  unfold Glob.match' at hr
  split at hr
  · cases hr
  · simpa [h] using hr.symm

example : (translate "foo/".toList true).directory = true ∧ (translate "foo/".toList true).match' "foo".toList "foo".toList false = some false := by
  decide

theorem lstrip_path (k : Nat) {s : Str} (h : s.head? ≠ some '/') : lstripChar '/' (List.replicate k '/' ++ s) = s := by
  induction k with
  | zero =>
    cases s with
    | nil => rfl
    | cons x xs => simp only [List.head?_cons, ne_eq, Option.some.injEq] at h; simp [lstripChar, h]
  | succ k ih => simpa [lstripChar, List.replicate_succ] using ih

theorem comps_head {cs : List Comp} (hne : cs ≠ []) (hok : ∀ c ∈ cs, c.Ok) (t : Str) : ∃ x xs, x ≠ '/' ∧ pathOf (cs.map Comp.text) ++ t = x :: xs := by
  cases cs with
  | nil => exact absurd rfl hne
  | cons c cs =>
    rw [List.map_cons, pathOf_cons]
    have h1 := comp_text_ne_nil (hok c (by simp))
    have h2 := comp_text_noSlash (hok c (by simp))
    cases hc : c.text with
    | nil => exact absurd hc h1
    | cons x xs => rw [hc] at h2; simp only [List.mem_cons, not_or] at h2; exact ⟨x, _, Ne.symm h2.1, rfl⟩

theorem pathOf_head {ns : List Str} (hn : Names ns) : (pathOf ns).head? ≠ some '/' := by
  cases ns with
  | nil => simp [pathOf]
  | cons n ns =>
    rw [pathOf_cons]
    obtain ⟨h1, h2, _⟩ := hn n (by simp)
    cases n with
    | nil => exact absurd rfl h1
    | cons x xs => simp only [List.mem_cons, not_or] at h2; simp [Ne.symm h2.1]

theorem comp_text_head_ne_backslash {c : Comp} (h : c.Ok) : c.text.head? ≠ some '\\' := by
  cases c with
  | deep => simp [Comp.text]
  | wild is =>
    cases is with
    | nil => exact absurd rfl h.1
    | cons i is =>
      have hi := h.2.1 i (by simp)
      cases i with
      | lit c => simp only [Item.Ok, plainChar, List.mem_cons, not_or] at hi; simp [Comp.text, itemsText, Item.text, hi.2.2.2.1]
      | any => simp [Comp.text, itemsText, Item.text]
      | star => simp [Comp.text, itemsText, Item.text]
      | cls neg l => cases neg <;> simp [Comp.text, itemsText, Item.text]
      | hat l => simp [Comp.text, itemsText, Item.text]

theorem pat_core_head_ne_backslash {p : Pat} (hne : p.comps ≠ []) (hok : ∀ c ∈ p.comps, c.Ok) : p.core.head? ≠ some '\\' := by
  unfold Pat.core
  cases p.lead with
  | true => simp
  | false =>
    cases hc : p.comps with
    | nil => exact absurd hc hne
    | cons c cs =>
      have h0 := hok c (by simp [hc])
      have h1 := comp_text_head_ne_backslash h0
      have h2 := comp_text_ne_nil h0
      rw [List.map_cons, pathOf_cons]
      cases ht : c.text with
      | nil => exact absurd ht h2
      | cons x xs => rw [ht] at h1; simpa using h1

/-- The last slash of a pattern is removed, and its leading one. -/
theorem translate_pat {p : Pat} (hne : p.comps ≠ []) (hok : ∀ c ∈ p.comps, c.Ok) :
    translate p.text true = Glob.mk (partsRe (globSplit [] 0 (pathOf (p.comps.map Comp.text)))) (!p.neg)
      (decide (p.lead = true ∨ 1 < p.comps.length)) p.dirOnly := by
  have hbs := pat_core_head_ne_backslash hne hok
  -- markers
  have h1 : (globNegated p.text).1 = p.neg ∧ (if startsWith (globNegated p.text).2 ['\\', '!'] then (globNegated p.text).2.drop 1 else (globNegated p.text).2) = p.core := by
    unfold Pat.text
    generalize p.core = core at hbs
    cases core with
    | nil => cases p.neg <;> simp [globNegated, startsWith]
    | cons x xs =>
      simp only [List.head?_cons, ne_eq, Option.some.injEq] at hbs
      by_cases hx : x = '!'
      · subst hx; cases p.neg <;> simp [globNegated, startsWith_cons, startsWith_nil]
      · cases p.neg <;> simp [globNegated, startsWith_cons, startsWith_nil, Ne.symm hbs, hx, Ne.symm hx]
  -- anchoring
  have h2 : globAnchored true p.core = (decide (p.lead = true ∨ 1 < p.comps.length), pathOf (p.comps.map Comp.text) ++ (if p.dirOnly then ['/'] else [])) := by
    have hp : pathOf (p.comps.map Comp.text) ++ (if p.dirOnly then ['/'] else []) = p.core.drop (if p.lead then 1 else 0) := by
      unfold Pat.core; cases p.lead <;> simp
    obtain ⟨x, xs, hx, hxs⟩ := comps_head hne hok (if p.dirOnly then ['/'] else [])
    have hstrip : lstripChar '/' p.core = pathOf (p.comps.map Comp.text) ++ (if p.dirOnly then ['/'] else []) := by
      unfold Pat.core
      rw [List.append_assoc, hxs]
      cases p.lead <;> simp [lstripChar, hx]
    have hfst := globAnchored_fst p.core
    by_cases ha : p.lead = true ∨ 1 < p.comps.length
    · have hanch : (globAnchored true p.core).1 = true := by
        rw [hfst]
        rcases ha with ha | ha
        · refine ⟨[], x :: xs, ?_, by simp⟩
          unfold Pat.core; rw [List.append_assoc, hxs]; simp [ha]
        · obtain ⟨lead, hlead⟩ : ∃ lead : Str, lead = (if p.lead then ['/'] else []) := ⟨_, rfl⟩
          cases hc : p.comps with
          | nil => exact absurd hc hne
          | cons c cs =>
            cases cs with
            | nil => simp [hc] at ha
            | cons d ds =>
              refine ⟨lead ++ c.text, pathOf ((d :: ds).map Comp.text) ++ (if p.dirOnly then ['/'] else []), ?_, ?_⟩
              · unfold Pat.core; rw [hc, hlead]; simp [pathOf]
              · obtain ⟨y, ys, _, hy⟩ := comps_head (cs := d :: ds) (by simp) (fun e he => hok e (by rw [hc]; simp [List.mem_cons.1 he])) (if p.dirOnly then ['/'] else [])
                rw [hy]; simp
      have h2' : (globAnchored true p.core).2 = lstripChar '/' p.core := by
        revert hanch
        unfold globAnchored
        simp only [if_true]
        split
        · split
          · intro; rfl
          · intro h; cases h
        · intro h; cases h
      exact Prod.ext (by rw [hanch]; simp [ha]) (by rw [h2', hstrip])
    · have hl : p.lead = false := by cases h : p.lead <;> simp_all
      have hcore : p.core = pathOf (p.comps.map Comp.text) ++ (if p.dirOnly then ['/'] else []) := by
        unfold Pat.core; simp [hl]
      have hanch : (globAnchored true p.core).1 = false := by
        cases hh : (globAnchored true p.core).1 with
        | false => rfl
        | true =>
          exfalso
          obtain ⟨a, b, hab, hb⟩ := hfst.1 hh
          cases hc : p.comps with
          | nil => exact absurd hc hne
          | cons c cs =>
            cases cs with
            | cons d ds => simp [hc] at ha
            | nil =>
              have hns := comp_text_noSlash (hok c (by simp [hc]))
              rw [hcore, hc] at hab
              simp only [List.map_cons, List.map_nil, pathOf] at hab
              have hbl : b = b.dropLast ++ [b.getLast hb] := (List.dropLast_concat_getLast hb).symm
              cases hd : p.dirOnly with
              | false => simp only [hd, Bool.false_eq_true, if_false, List.append_nil] at hab; exact hns (by rw [hab]; simp)
              | true =>
                simp only [hd, if_true] at hab
                rw [hbl] at hab
                have : c.text = a ++ '/' :: b.dropLast := by
                  have h3 : c.text ++ ['/'] = (a ++ '/' :: b.dropLast) ++ [b.getLast hb] := by rw [hab]; simp
                  exact (List.append_inj' h3 rfl).1
                exact hns (by rw [this]; simp)
      have h2' : (globAnchored true p.core).2 = p.core := by
        revert hanch
        unfold globAnchored
        simp only [if_true]
        split
        · split
          · intro h; cases h
          · intro; rfl
        · intro; rfl
      exact Prod.ext (by rw [hanch]; simp [ha]) (by rw [h2', hcore])
  -- directory marker
  have h3 : globDirectory (pathOf (p.comps.map Comp.text) ++ (if p.dirOnly then ['/'] else [])) = (p.dirOnly, pathOf (p.comps.map Comp.text)) := by
    cases hd : p.dirOnly with
    | true => simp [globDirectory]
    | false =>
      have : (pathOf (p.comps.map Comp.text)).getLast? ≠ some '/' := by
        have gen : ∀ cs : List Comp, cs ≠ [] → (∀ c ∈ cs, c.Ok) → (pathOf (cs.map Comp.text)).getLast? ≠ some '/' := by
          intro cs
          induction cs with
          | nil => intro h; exact absurd rfl h
          | cons c cs ih =>
            intro _ hk
            cases cs with
            | nil =>
              simp only [List.map_cons, List.map_nil, pathOf]
              intro h
              obtain ⟨a, ha⟩ := List.getLast?_eq_some_iff.1 h
              exact comp_text_noSlash (hk c (by simp)) (by rw [ha]; simp)
            | cons d ds =>
              have := ih (by simp) (fun e he => hk e (by simp [List.mem_cons.1 he]))
              rw [List.map_cons, pathOf_cons]
              obtain ⟨y, ys, _, hy⟩ := comps_head (cs := d :: ds) (by simp) (fun e he => hk e (by simp [List.mem_cons.1 he])) []
              rw [List.append_nil] at hy
              have e : slashed true ((d :: ds).map Comp.text) = '/' :: pathOf ((d :: ds).map Comp.text) := rfl
              rw [e, hy, List.getLast?_append, List.getLast?_cons_cons, ← hy]
              rw [hy, List.getLast?_eq_some_getLast (by simp)] at this ⊢
              simpa using this
        exact gen _ hne hok
      simp [globDirectory, this]
  simp only [translate]
  rw [h1.1, h1.2, h2, h3]

/-- C15 (with C14): what a pattern of an ignore file does. `k` leading slashes of the path do not matter. The only deviation from the
specification is that a pattern that ends in `/**` also applies to the directory itself. -/
theorem C15_pattern {p : Pat} (hne : p.comps ≠ []) (hok : ∀ c ∈ p.comps, c.Ok ∧ c.noSlash) (hdeep : ¬ (p.lead = true ∧ p.comps = [.deep]))
    {ns : List Str} {name : Str} (hn : Names ns) (hname : ns.getLast? = some name) (isDir : Bool) (k : Nat) :
    (translate p.text true).incl = !p.neg ∧
    ∃ m, (translate p.text true).match' (List.replicate k '/' ++ pathOf ns) name isDir = some m ∧
      (m = true ↔ p.Applies ns isDir ∨ ((p.dirOnly = true → isDir = true) ∧ Itself p.comps ns)) := by
  have hok' : ∀ c ∈ p.comps, c.Ok := fun c hc => (hok c hc).1
  have hns : ns ≠ [] := by rintro rfl; cases hname
  rw [translate_pat hne hok']
  refine ⟨rfl, ?_⟩
  have hmem : name ∈ ns := List.mem_of_getLast? hname
  have hname' := hn name hmem
  have hdir : ∀ b : Bool, (!p.dirOnly || isDir) = b → (b = true ↔ (p.dirOnly = true → isDir = true)) := by
    intro b hb; subst hb; cases p.dirOnly <;> cases isDir <;> simp
  have hd := hdir _ rfl
  by_cases ha : p.lead = true ∨ 1 < p.comps.length
  · have hnd : p.comps ≠ [.deep] := by
      intro h; rcases ha with ha | ha
      · exact hdeep ⟨ha, h⟩
      · simp [h] at ha
    obtain ⟨r, h1, h2⟩ := C14_path_partial hne hok hnd
    simp only [Glob.match', h1, ha, decide_true, if_true, lstrip_path k (pathOf_head hn)]
    refine ⟨_, rfl, ?_⟩
    rw [Bool.and_eq_true, h2 ns hns hn, hd]
    unfold Pat.Applies
    rw [if_pos ha]
    constructor
    · rintro ⟨h | h, h'⟩
      · exact Or.inl ⟨h', h⟩
      · exact Or.inr ⟨h', h⟩
    · rintro (⟨h', h⟩ | ⟨h', h⟩)
      · exact ⟨Or.inl h, h'⟩
      · exact ⟨Or.inr h, h'⟩
  · cases hc : p.comps with
    | nil => exact absurd hc hne
    | cons c cs =>
      cases cs with
      | cons d ds => simp [hc] at ha
      | nil =>
        have hit : ¬ Itself [c] ns := by
          rintro ⟨ps, is, h, _⟩
          have := congrArg List.length h
          simp at this
        simp only [Pat.Applies, if_neg ha]
        rw [hc] at ha
        simp only [Glob.match', ha, decide_false, Bool.false_eq_true, if_false]
        obtain ⟨r, h1, h2⟩ := body_of_tokens (tokens_comps (cs := [c]) (by intro x hx; exact hok' x (by rw [hc]; exact hx)) false)
          (toksOk_comps (cs := [c]) (by intro x hx; exact hok' x (by rw [hc]; exact hx)) false)
        have h1' : partsRe (globSplit [] 0 (pathOf (List.map Comp.text [c]))) = some r := h1
        simp only [h1']
        refine ⟨_, rfl, ?_⟩
        have hcomp : bodyMatch r name = true ↔ Comps [c] [name] := by
          rw [h2 name hname'.2.2]
          have := toksL_comps (cs := [c]) (by intro x hx; exact hok x (by rw [hc]; exact hx)) false [name] (by intro x hx; simp at hx; subst hx; exact hname') (by simp)
          simp only [slashed, pathOf] at this
          rw [this]
          cases c with
          | deep => simp only [compsM]; exact ⟨fun _ => .inside, fun _ => ⟨name, rfl⟩⟩
          | wild is =>
            simp only [compsM, comps_wild]
            constructor
            · rintro ⟨n, rest, h3, h4, rfl⟩; exact ⟨n, [], h3, h4, .nil⟩
            · rintro ⟨n, rest, h3, h4, h5⟩; cases h5; exact ⟨n, [], h3, h4, rfl⟩
        rw [Bool.and_eq_true, hcomp, hd]
        constructor
        · rintro ⟨h3, h4⟩; exact Or.inl ⟨h4, by rw [hc]; exact ⟨name, hname, h3⟩⟩
        · rintro (⟨h4, h3⟩ | ⟨_, h⟩)
          · rw [hc] at h3
            obtain ⟨n, hn', h3⟩ := h3
            rw [hname] at hn'
            cases hn'
            exact ⟨h3, h4⟩
          · exact absurd h hit

/-- `!/foo/**/b*/` meets the hypotheses and applies to the directory foo/x/bar. -/
example : ∃ p : Pat, p.text = "!/foo/**/b*/".toList ∧ p.comps ≠ [] ∧ (∀ c ∈ p.comps, c.Ok ∧ c.noSlash) ∧ ¬ (p.lead = true ∧ p.comps = [.deep]) ∧
    Names ["foo".toList, "x".toList, "bar".toList] ∧ p.Applies ["foo".toList, "x".toList, "bar".toList] true := by
  refine ⟨⟨true, true, [.wild [.lit 'f', .lit 'o', .lit 'o'], .deep, .wild [.lit 'b', .star]], true⟩, by decide, by simp, ?_, by simp, ?_, ?_⟩
  · intro c hc
    simp only [List.mem_cons, List.not_mem_nil, or_false] at hc
    rcases hc with rfl | rfl | rfl <;> simp [Comp.Ok, Comp.noSlash, noDouble, Item.Ok, Item.noSlash, plainChar]
  · intro n hn
    simp only [List.mem_cons, List.not_mem_nil, or_false] at hn
    rcases hn with rfl | rfl | rfl <;> decide
  · simp only [Pat.Applies]
    refine ⟨fun _ => trivial, ?_⟩
    simp only [true_or, if_true]
    refine .wild _ _ (.lit _ (.lit _ (.lit _ .nil))) (.deepSome _ (by simp) (.deepNone (by simp) (.wild _ _ ?_ .nil)))
    exact .lit _ (.eat _ (by decide) (.eat _ (by decide) (.skip .nil)))

/-- An anchored `**` only matches entries of the directory itself, and an escaped `#` after `!` keeps its backslash. -/
theorem C14_false_anchored :
    (translate "/**".toList true).match' "a/b".toList "b".toList false = some false ∧
    (translate "!\\#a".toList true).match' "#a".toList "#a".toList false = some false := by
  decide

/-- Further deviations from gitignore(5): a backslash does not quote `*`, `]` right after the bracket does not belong to the class,
classes such as `[[:digit:]]` are not known, and neither blanks at the beginning of a line nor a blank quoted by a backslash at its end are part of a pattern. -/
theorem C14_false_quoted :
    (translate "a\\*b".toList true).match' "a*b".toList "a*b".toList false = some false ∧
    (translate "a\\*b".toList true).match' "a\\xb".toList "a\\xb".toList false = some true ∧
    (translate "x[]a]".toList true).match' "x]".toList "x]".toList false = some false ∧
    (translate "[[:digit:]]".toList true).match' "7".toList "7".toList false = some false ∧
    (translate "[[:digit:]]".toList true).match' "d]".toList "d]".toList false = some true ∧
    (ignorePatterns [" a".toList]).map (fun g => g.match' "a".toList "a".toList false) = [some true] ∧
    (ignorePatterns ["a\\ ".toList]).map (fun g => g.match' "a ".toList "a ".toList false) = [some false] := by
  decide

end FF
