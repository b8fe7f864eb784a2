import Verif.Spec.PathGlob
import Verif.Model.PathGlob
import Verif.Props.Again
import Verif.Props.Glob
/-! C122: a glob test looks at the attribute it is made for. -/
namespace FF
open Spec

theorem word_percent {t : Str} (h : '%' ∈ t) : Word t := by
  have hk : ∀ k : String, '%' ∉ k.toList → ¬Kw k t := by
    intro k hk hh
    refine hk ?_
    rw [← hh]; exact List.mem_map.2 ⟨'%', h, by decide⟩
  refine ⟨?_, ?_, hk _ (by decide), hk _ (by decide), hk _ (by decide)⟩
  · rintro (rfl | rfl) <;> revert h <;> decide
  · rintro (rfl | rfl) <;> revert h <;> decide

theorem glob_created (env : TestEnv) (mode : CaseMode) {ty : Ty} (hty : ty = .string ∨ ty = .path) (text : Str) :
    ∃ t, createTest env mode ty ['%'] none text = .ok t := by
  rcases hty with rfl | rfl <;> exact ⟨_, rfl⟩

theorem parse_glob {S : SearchEnv} {name text : Str} {a : Attr} {ty : Ty} {t : Test} (hn : AttrName S.cc name) (ha : setupAttribute S.reg name = some a)
    (hty : attributeType S.reg a = some ty) (hp : PlainValue S.cc text) (hr : ¬LooksLikeReference S.cc text)
    (ht : createTest S.tests S.case ty ['%'] none text = .ok t) : S.parseTest (likeGlob name text) = .ok (a, t) := by
  have hb : Blank S.cc [] := by intro x hx; cases hx
  have e := C05_roundtrip_partial (cc := S.cc) [] name [] ['%'] ['%'] [] text hb hn hb (by decide) hb hp (fun _ hx => absurd hx (by unfold Extensible; decide))
    (fun _ r rest h1 h2 h3 => hr ⟨r, rest, h1, h2, h3⟩)
  simp only [List.nil_append, List.append_nil, List.append_assoc, List.singleton_append] at e
  unfold SearchEnv.parseTest likeGlob
  simp only [e, ha, hty, Option.map_none, ht]

theorem not_itself {p : Pat} (h : p.comps.getLast? ≠ some .deep) (ns : List Str) : ¬Itself p.comps ns := by
  rintro ⟨ps, is, e, _⟩
  apply h
  rw [e]
  simp

/-- C122 (partial: the entry's own name is the last name of the value, or the pattern looks at the whole value): a glob test on an attribute that is a path
finds the entries whose value the pattern selects; leading slashes of the value do not matter. `ns` are the names of the value. -/
theorem C122_path_partial {S : SearchEnv} (hg : S.tests.glob = testGlob) (hlow : ∀ s, S.tests.low (S.tests.low s) = S.tests.low s)
    {name text : Str} {a : Attr} (hn : AttrName S.cc name) (ha : setupAttribute S.reg name = some a) (hty : attributeType S.reg a = some .path)
    (hv : PlainValue S.cc text) (hr : ¬LooksLikeReference S.cc text)
    {p : Pat} (hne : p.comps ≠ []) (hok : ∀ c ∈ p.comps, c.Ok ∧ c.noSlash) (hend : p.comps.getLast? ≠ some .deep)
    (htext : fold S.tests.low S.case text text = p.text)
    {i : EntInfo} {v : Str} (hval : S.attr i a = some (.str v)) {ns : List Str} {k : Nat} (hns : Names ns) (hns' : ns ≠ [])
    (hpath : fold S.tests.low S.case text v = List.replicate k '/' ++ pathOf ns)
    (hown : p.Anchored ∨ ns.getLast? = some (fold S.tests.low S.case text i.entry.name)) :
    S.kept [likeGlob name text] i = true ↔ p.Selects ns i.isDir := by
  obtain ⟨t, ht⟩ := glob_created S.tests S.case (ty := .path) (.inr rfl) text
  rw [kept_single (word_percent (by unfold likeGlob; simp)) (parse_glob hn ha hty hv hr ht)]
  unfold SearchEnv.outcome
  simp only [hval, hty, Option.some.injEq]
  rw [C27_path S.tests hlow S.case ht]
  simp only [strTest, envGlob, hg, testGlob, htext, hpath]
  obtain ⟨last, hlast⟩ : ∃ last, ns.getLast? = some last := by
    cases h : ns.getLast? with
    | none => exact absurd (List.getLast?_eq_none_iff.1 h) hns'
    | some x => exact ⟨x, rfl⟩
  have hdeep : ¬(p.lead = true ∧ p.comps = [.deep]) := fun h => hend (by rw [h.2]; rfl)
  obtain ⟨hi, m, hm, hm'⟩ := C15_pattern hne hok hdeep hns hlast i.isDir k
  have hm2 : (translate p.text true).match' (List.replicate k '/' ++ pathOf ns) (fold S.tests.low S.case text i.entry.name) i.isDir = some m := by
    rw [← hm]
    refine C15_scope _ _ _ _ _ _ (fun _ => rfl) ?_
    intro hna
    rcases hown with h | h
    · rw [translate_pat hne (fun c hc => (hok c hc).1)] at hna
      simp only [decide_eq_false_iff_not] at hna
      exact absurd h hna
    · rw [hlast] at h; injection h with h; exact h.symm
  rw [hm2, hi, Option.getD_some]
  unfold Pat.Selects
  have : m = true ↔ p.Applies ns i.isDir := by
    rw [hm']
    exact ⟨fun h => h.elim id (fun h => absurd h.2 (not_itself hend ns)), .inl⟩
  rw [← this]
  cases m <;> cases p.neg <;> simp

theorem pathSplit_snd {y n : Str} (hn : '/' ∉ n) (hy : y = [] ∨ ∃ z, y = z ++ ['/']) : (pathSplit (y ++ n)).2 = n := by
  rcases hy with rfl | ⟨z, rfl⟩
  · rw [List.nil_append, pathSplit_no_sep hn]
  · rw [List.append_assoc, List.singleton_append]
    by_cases hz : z = []
    · rw [hz, List.nil_append, pathSplit_root hn]
    · rw [pathSplit_mid hz hn]

/-- The last name of a path. -/
theorem pathSplit_last {ns : List Str} (hns : Names ns) (hne : ns ≠ []) {x : Str} (hx : x = [] ∨ ∃ z, x = z ++ ['/']) :
    ns.getLast? = some (pathSplit (x ++ pathOf ns)).2 := by
  rcases List.eq_nil_or_concat ns with rfl | ⟨q, n, rfl⟩
  · exact absurd rfl hne
  · rw [List.concat_eq_append] at *
    have hn : '/' ∉ n := (hns n (by simp)).2.1
    rw [List.getLast?_concat]
    congr 1
    by_cases hq : q = []
    · subst hq
      exact (pathSplit_snd hn hx).symm
    · rw [pathOf_append hq (by simp)]
      show n = (pathSplit (x ++ (pathOf q ++ '/' :: n))).2
      have e : x ++ (pathOf q ++ '/' :: n) = (x ++ (pathOf q ++ ['/'])) ++ n := by simp
      rw [e]
      exact (pathSplit_snd hn (.inr ⟨x ++ pathOf q, by simp⟩)).symm

theorem ends_replicate (k : Nat) : List.replicate k '/' = [] ∨ ∃ z, List.replicate k '/' = z ++ ['/'] := by
  cases k with
  | zero => exact .inl rfl
  | succ k => exact .inr ⟨_, List.replicate_succ'⟩

/-- The name of an entry is the last name of its path. -/
theorem entry_name_path {i : EntInfo} {ns : List Str} {k : Nat} (hns : Names ns) (hne : ns ≠ []) (h : i.entry.path = List.replicate k '/' ++ pathOf ns) :
    ns.getLast? = some i.entry.name := by
  have e : i.entry.name = (pathSplit i.entry.path).2 := rfl
  rw [e, h]
  exact pathSplit_last hns hne (ends_replicate k)

/-- The name of an entry is the last name of its path below the start directory. -/
theorem entry_name_relpath {i : EntInfo} {ns : List Str} (hns : Names ns) (hne : ns ≠ []) (h : i.entry.relpath = pathOf ns) :
    ns.getLast? = some i.entry.name := by
  have e : i.entry.name = (pathSplit (if i.start.root ≠ ['.'] then pathJoin i.start.root i.relpath else i.relpath)).2 := rfl
  have e' : i.relpath = pathOf ns := h
  have hp : pathOf ns ≠ [] := by
    cases ns with
    | nil => exact absurd rfl hne
    | cons n ns => rw [pathOf_cons]; have := (hns n (by simp)).1; simp [this]
  rw [e, e']
  unfold pathJoin
  by_cases h1 : i.start.root = ['.']
  · simp only [h1, ne_eq, not_true, if_false]; exact pathSplit_last (x := []) hns hne (.inl rfl)
  · simp only [h1, ne_eq, not_false_eq_true, if_true, hp]
    by_cases h2 : i.start.root = []
    · simp only [h2, not_true, if_false]; exact pathSplit_last (x := []) hns hne (.inl rfl)
    · simp only [h2, not_false_eq_true, if_true]
      by_cases h3 : i.start.root = ['/']
      · simp only [h3, if_true]; exact pathSplit_last hns hne (.inr ⟨[], rfl⟩)
      · simp only [h3, if_false]
        have e : i.start.root ++ '/' :: pathOf ns = (i.start.root ++ ['/']) ++ pathOf ns := by simp
        rw [e]
        exact pathSplit_last hns hne (.inr ⟨_, rfl⟩)

/-- C122: for the path of an entry, and for its path below the start directory, all patterns are applied to the attribute. Case is minded here. -/
theorem C122_own {S : SearchEnv} (hg : S.tests.glob = testGlob) (hlow : ∀ s, S.tests.low (S.tests.low s) = S.tests.low s)
    {name text : Str} {a : Attr} (hn : AttrName S.cc name) (ha : setupAttribute S.reg name = some a) (hty : attributeType S.reg a = some .path)
    (hv : PlainValue S.cc text) (hr : ¬LooksLikeReference S.cc text) (hcase : ¬insensitive S.tests.low S.case text)
    {p : Pat} (hne : p.comps ≠ []) (hok : ∀ c ∈ p.comps, c.Ok ∧ c.noSlash) (hend : p.comps.getLast? ≠ some .deep) (htext : text = p.text)
    {i : EntInfo} {ns : List Str} {k : Nat} (hns : Names ns) (hns' : ns ≠ [])
    (h : (a = ("file".toList, "path".toList) ∧ i.entry.path = List.replicate k '/' ++ pathOf ns) ∨
      (a = ("file".toList, "relpath".toList) ∧ i.entry.relpath = pathOf ns)) :
    S.kept [likeGlob name text] i = true ↔ p.Selects ns i.isDir := by
  have hf : ∀ v, fold S.tests.low S.case text v = v := by intro v; unfold fold; rw [if_neg hcase]
  rcases h with ⟨rfl, h⟩ | ⟨rfl, h⟩
  · have hval : S.attr i ("file".toList, "path".toList) = some (.str i.entry.path) := by simp [SearchEnv.attr, SearchEnv.fileAttr]
    exact C122_path_partial hg hlow hn ha hty hv hr hne hok hend (by rw [hf, htext]) hval hns hns' (k := k) (by rw [hf, h])
      (.inr (by rw [hf]; exact entry_name_path hns hns' h))
  · have hval : S.attr i ("file".toList, "relpath".toList) = some (.str i.entry.relpath) := by simp [SearchEnv.attr, SearchEnv.fileAttr]
    exact C122_path_partial hg hlow hn ha hty hv hr hne hok hend (by rw [hf, htext]) hval hns hns' (k := 0) (by rw [hf, h]; rfl)
      (.inr (by rw [hf]; exact entry_name_relpath hns hns' h))

/-! ### Other texts -/

theorem translate_unanchored {s : Str} (h : (translate s true).anchored = false) : translate s false = translate s true := by
  have key : ∀ x, (globAnchored true x).1 = false → globAnchored true x = globAnchored false x := by
    intro x hx
    unfold globAnchored at *
    simp only [if_true, Bool.false_eq_true, if_false] at *
    split at hx
    · split at hx
      · cases hx
      · rename_i h; simp [h]
    · rfl
  unfold translate at *
  simp only at h ⊢
  rw [key _ h]

/-- The text that a string is for a pattern with a single component: it is one name. -/
theorem string_glob {p : Pat} {c : Comp} (hp : p.comps = [c]) (hlead : p.lead = false) (hdir : p.dirOnly = false) (hok : c.Ok ∧ c.noSlash) (hd : c ≠ .deep)
    {v : Str} (hv : Names [v]) : ((testGlob false p.text).1 v v false = (testGlob false p.text).2) ↔ p.Selects [v] false := by
  have hok' : ∀ c' ∈ p.comps, c'.Ok ∧ c'.noSlash := by intro c' h; rw [hp] at h; simp at h; subst h; exact hok
  have hne : p.comps ≠ [] := by simp [hp]
  have hend : p.comps.getLast? ≠ some .deep := by rw [hp]; simpa using hd
  obtain ⟨hi, m, hm, hm'⟩ := C15_pattern hne hok' (fun h => by rw [hlead] at h; cases h.1) hv (name := v) rfl false 0
  have hun : (translate p.text true).anchored = false := by
    rw [translate_pat hne (fun c hc => (hok' c hc).1)]; simp [hlead, hp]
  simp only [testGlob, translate_unanchored hun]
  have hm2 : (translate p.text true).match' v v false = some m := by rw [← hm]; rfl
  rw [hm2, hi, Option.getD_some]
  unfold Pat.Selects
  have : m = true ↔ p.Applies [v] false := by
    rw [hm']
    exact ⟨fun h => h.elim id (fun h => absurd h.2 (not_itself hend _)), .inl⟩
  rw [← this]
  cases m <;> cases p.neg <;> simp

/-- C122 (partial: patterns without slashes): a glob test on an attribute that is a text finds the entries whose value the pattern selects. -/
theorem C122_string_partial {S : SearchEnv} (hg : S.tests.glob = testGlob)
    {name text : Str} {a : Attr} (hn : AttrName S.cc name) (ha : setupAttribute S.reg name = some a) (hty : attributeType S.reg a = some .string)
    (hv : PlainValue S.cc text) (hr : ¬LooksLikeReference S.cc text)
    {p : Pat} {is : List Item} (hp : p.comps = [.wild is]) (hlead : p.lead = false) (hdir : p.dirOnly = false) (hok : (Comp.wild is).Ok ∧ (Comp.wild is).noSlash)
    (htext : fold S.tests.low S.case text text = p.text)
    {i : EntInfo} {v : Str} (hval : S.attr i a = some (.str v)) (hns : Names [fold S.tests.low S.case text v]) :
    S.kept [likeGlob name text] i = true ↔ (Wild is (fold S.tests.low S.case text v) ↔ p.neg = false) := by
  obtain ⟨t, ht⟩ := glob_created S.tests S.case (ty := .string) (.inl rfl) text
  rw [kept_single (word_percent (by unfold likeGlob; simp)) (parse_glob hn ha hty hv hr ht)]
  unfold SearchEnv.outcome
  simp only [hval, hty, Option.some.injEq]
  rw [C27_string S.tests S.case ht]
  simp only [strTest, envGlob, hg, htext]
  rw [string_glob hp hlead hdir hok (by simp) hns]
  unfold Pat.Selects Pat.Applies
  simp only [hdir, hlead, hp, Bool.false_eq_true, false_implies, List.length_singleton, Nat.lt_irrefl, or_self, if_false, List.getLast?_singleton,
    Option.some.injEq, exists_eq_left', true_and, comps_wild]
  have : (∃ n rest, [fold S.tests.low S.case text v] = n :: rest ∧ Wild is n ∧ Comps [] rest) ↔ Wild is (fold S.tests.low S.case text v) := by
    constructor
    · rintro ⟨n, rest, h1, h2, _⟩; injection h1 with h1 _; rw [h1]; exact h2
    · intro h; exact ⟨_, [], rfl, h, .nil⟩
  rw [this]

/-! ### Where it fails -/

/-- Symbolic links to `x.txt`. -/
def globSearch : SearchEnv :=
  { cc := asciiClass, reg := [filePlugin], tests := { demoEnv with glob := testGlob }, case := .smart,
    stat := fun _ n => if n = "link".toList then some (.str "x.txt".toList) else none, data := fun _ _ _ => none, refEntry := fun _ => none }

/-- The directory or file with a path below `.` -/
def globEntry (path : Str) (isDir : Bool) : EntInfo := ⟨⟨".".toList, "/w".toList⟩, path, isDir, []⟩

set_option maxRecDepth 20000 in
/-- C122 is false for the directory, the target and the name without extension: a pattern without slashes is applied to the name of the entry. -/
theorem C122_false :
    globSearch.attr (globEntry "src/a.c".toList false) ("file".toList, "dir".toList) = some (.str "src".toList) ∧
    globSearch.kept ["dir%src".toList] (globEntry "src/a.c".toList false) = false ∧ globSearch.kept ["dir%a.c".toList] (globEntry "src/a.c".toList false) = true ∧
    globSearch.attr (globEntry "y".toList false) ("file".toList, "link".toList) = some (.str "x.txt".toList) ∧
    globSearch.kept ["link%*.txt".toList] (globEntry "y".toList false) = false ∧ globSearch.kept ["link%y".toList] (globEntry "y".toList false) = true ∧
    globSearch.attr (globEntry "a.c".toList false) ("file".toList, "namex".toList) = some (.str "a".toList) ∧
    globSearch.kept ["namex%a".toList] (globEntry "a.c".toList false) = false ∧ globSearch.kept ["namex%a.c".toList] (globEntry "a.c".toList false) = true := by
  refine ⟨?_, ?_, ?_, ?_, ?_, ?_, ?_, ?_, ?_⟩ <;> decide +kernel

set_option maxRecDepth 20000 in
/-- C122 is false for names and patterns for directories only, which do not find directories. -/
theorem C122_directory_false :
    globSearch.kept ["name%src/".toList] (globEntry "src".toList true) = false ∧ globSearch.kept ["path%src/".toList] (globEntry "src".toList true) = true := by
  refine ⟨?_, ?_⟩ <;> decide +kernel

/-! ### Examples -/

set_option maxRecDepth 20000 in
/-- `relpath%/src/*.c` and the file src/a.c; case is minded since the pattern has an upper case letter. -/
example : globSearch.kept ["relpath%/S/*.c".toList] (globEntry "S/a.c".toList false) = true ∧ globSearch.kept ["relpath%/S/*.c".toList] (globEntry "S/t/a.c".toList false) = false ∧
    AttrName asciiClass "relpath".toList ∧ attributeType globSearch.reg ("file".toList, "relpath".toList) = some .path ∧ PlainValue asciiClass "/S/*.c".toList ∧
    ¬insensitive globSearch.tests.low globSearch.case "/S/*.c".toList ∧ globSearch.tests.glob = testGlob ∧
    (⟨false, true, [.wild [.lit 'S'], .wild [.star, .lit '.', .lit 'c']], false⟩ : Pat).text = "/S/*.c".toList ∧
    (globEntry "S/a.c".toList false).entry.relpath = pathOf ["S".toList, "a.c".toList] :=
  ⟨by decide +kernel, by decide +kernel, .inl ⟨by decide, by decide⟩, by decide +kernel, ⟨⟨_, _, rfl, by decide⟩, by decide⟩, by decide +kernel, rfl, by decide, by decide +kernel⟩

set_option maxRecDepth 20000 in
/-- `name%!*.txt` -/
example : globSearch.kept ["name%!*.txt".toList] (globEntry "d/a.c".toList false) = true ∧ globSearch.kept ["name%!*.txt".toList] (globEntry "d/A.TXT".toList false) = false ∧
    fold globSearch.tests.low globSearch.case "!*.txt".toList "A.TXT".toList = "a.txt".toList ∧
    (⟨true, false, [.wild [.star, .lit '.', .lit 't', .lit 'x', .lit 't']], false⟩ : Pat).text = "!*.txt".toList := by
  refine ⟨?_, ?_, ?_, ?_⟩ <;> decide +kernel

end FF
