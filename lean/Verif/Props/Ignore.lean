import Verif.Spec.Ignore
import Verif.Lemmas.Glob
import Verif.Lemmas.Size
import Verif.Props.Walk
import Verif.Props.Glob
/-! C13, C16, C17, C18: ignore files. -/
namespace FF
open Spec

/-! ### Groups -/

theorem alts_isSome (l : List Re) (s : Str) : ((Re.alts l).match' s).isSome = l.any (fun r => (r.match' s).isSome) := by
  rw [Bool.eq_iff_iff, List.any_eq_true]
  unfold Re.match'
  rw [Re.run_isSome_iff]
  simp only [Re.run_isSome_iff, mat_alts]
  constructor
  · rintro ⟨s', c', ⟨r, hr, h1⟩, h2⟩; exact ⟨r, hr, s', c', h1, h2⟩
  · rintro ⟨r, hr, s', c', h1, h2⟩; exact ⟨s', c', ⟨r, hr, h1⟩, h2⟩

theorem groupRe_isSome (bodies : List Re) (s : Str) : ((groupRe bodies).match' s).isSome = bodies.any (fun b => bodyMatch b s) := by
  rw [groupRe, alts_isSome, List.any_map]
  rfl

/-- Does a single pattern match (for a relative path without leading slashes)? -/
def hits (rel name : Str) (isDir : Bool) (g : Glob) : Bool :=
  match g.body with
  | none => false
  | some body => bodyMatch body (if g.anchored then rel else name) && (!g.directory || isDir)

/-- Evaluation of one pattern after the other. -/
def foldPatterns (f rel name : Str) (isDir : Bool) (st : Bool × Option Str) (gs : List Glob) : Bool × Option Str :=
  gs.foldl (fun st g => if hits rel name isDir g then (g.incl, some f) else st) st

theorem matchGroups_cons (f rel name : Str) (isDir : Bool) (st : Bool × Option Str) (i an d : Bool) (bodies : List Re) (gs : List Group) :
    matchGroups f rel name isDir st (((i, an, d), bodies) :: gs) =
      matchGroups f rel name isDir (if (bodies.any (fun b => bodyMatch b (if an then rel else name)) && (!d || isDir)) = true then (i, some f) else st) gs := by
  simp only [matchGroups, groupRe_isSome]
  cases d <;> cases isDir <;> simp only [Bool.and_true, Bool.and_false, Bool.not_true, Bool.not_false, Bool.or_true, Bool.or_false, Bool.false_eq_true, if_false, if_true] <;>
    first | rfl | (split <;> split <;> rfl)

theorem matchGroups_append (f rel name : Str) (isDir : Bool) (st : Bool × Option Str) (a b : List Group) :
    matchGroups f rel name isDir st (a ++ b) = matchGroups f rel name isDir (matchGroups f rel name isDir st a) b := by
  induction a generalizing st with
  | nil => rfl
  | cons g a ih =>
    obtain ⟨⟨i, an, d⟩, bodies⟩ := g
    rw [List.cons_append, matchGroups_cons, matchGroups_cons, ih]

theorem groupPatterns_eq (f rel name : Str) (isDir : Bool) (gs : List Glob) (groups out : List Group) (h : groupPatterns groups gs = some out)
    (st : Bool × Option Str) : matchGroups f rel name isDir st out = foldPatterns f rel name isDir (matchGroups f rel name isDir st groups) gs := by
  induction gs generalizing groups with
  | nil => simp only [groupPatterns, Option.some.injEq] at h; subst h; rfl
  | cons g gs ih =>
    unfold groupPatterns at h
    cases hb : g.body with
    | none => simp [hb] at h
    | some body =>
      have hnew : ∀ st, matchGroups f rel name isDir st [(g.key, [body])] = if hits rel name isDir g then (g.incl, some f) else st := by
        intro st
        rw [Glob.key, matchGroups_cons]
        simp only [List.any_cons, List.any_nil, Bool.or_false, hits, hb, matchGroups]
      simp only [hb] at h
      cases hl : groups.getLast? with
      | none =>
        simp only [hl] at h
        have : groups = [] := by simpa using hl
        subst this
        rw [ih _ h, hnew]
        rfl
      | some kb =>
        obtain ⟨key, bodies⟩ := kb
        simp only [hl] at h
        by_cases hk : g.key = key
        · simp only [hk, ne_eq, not_true_eq_false, if_false] at h
          rw [ih _ h]
          obtain ⟨init, rfl⟩ := List.getLast?_eq_some_iff.1 hl
          rw [List.dropLast_concat]
          simp only [matchGroups_append]
          generalize matchGroups f rel name isDir st init = st'
          rw [foldPatterns, foldPatterns, List.foldl_cons]
          congr 1
          subst hk
          rw [Glob.key, matchGroups_cons, matchGroups_cons]
          simp only [List.any_append, List.any_cons, List.any_nil, Bool.or_false, hits, hb, matchGroups]
          cases bodyMatch body (if g.anchored = true then rel else name) <;>
            cases bodies.any (fun b => bodyMatch b (if g.anchored = true then rel else name)) <;> cases (!g.directory || isDir) <;> simp
        · simp only [ne_eq, hk, not_false_eq_true, if_true] at h
          rw [ih _ h, matchGroups_append, hnew]
          rfl

/-! ### Sequences of files -/

theorem pathSplit_abs {dir name : Str} (hd : dir ≠ []) (hn : '/' ∉ name) : pathSplit (absOf dir [name]) = (dir, name) := by
  unfold absOf
  split
  · rename_i h
    subst h
    have := rfind_split [] (b := name) (c := '/') hn
    simp only [List.nil_append] at this
    simp [pathSplit, pathOf, this]
  · have h1 := rfind_split dir (b := name) (c := '/') hn
    have hpos : 0 < dir.length := List.length_pos_iff.2 hd
    simp only [pathOf, pathSplit, h1]
    rw [if_neg (by omega), if_neg (by omega)]
    simp only [sliceTo, sliceFrom]
    simp

theorem lstrip_below {dir path : Str} {names : List Str} (h : Below dir names path) :
    lstripChar '/' (path.drop dir.length) = pathOf names := by
  obtain ⟨h1, h2, rfl⟩ := h
  have hh : (pathOf names).head? ≠ some '/' := by
    cases names with
    | nil => simp at h1
    | cons n ns =>
      have hn := h2 n (by simp)
      rw [pathOf_cons]
      cases n with
      | nil => exact absurd rfl hn.1
      | cons c cs =>
        simp only [List.cons_append, List.head?_cons, ne_eq, Option.some.injEq]
        rintro rfl
        exact hn.2 (by simp)
  unfold absOf
  split
  · rename_i h; subst h; simpa using lstrip_path 0 hh
  · have := lstrip_path 1 hh
    simpa using this

theorem absOf_inj {dir : Str} {a b : List Str} (ha : ∀ x ∈ a, IsFileName x) (hb : ∀ x ∈ b, IsFileName x) (h : absOf dir a = absOf dir b) : a = b := by
  unfold absOf at h
  split at h <;> simp only [List.append_cancel_left_eq, List.cons.injEq, true_and] at h <;> exact pathOf_inj ha hb h

theorem translate_incl (p : Str) : (translate p true).incl = !decide (p.head? = some '!') := by
  have : ∀ q : Str, (startsWith q ['!']) = decide (q.head? = some '!') := by
    intro q
    cases q with
    | nil => rfl
    | cons c cs => simp only [startsWith_cons, startsWith_nil, Bool.and_true, List.head?_cons, Option.some.injEq]; exact (Bool.beq_eq_decide_eq _ _).trans (by simp [eq_comm])
  have hn : (translate p true).incl = !(globNegated p).1 := rfl
  rw [hn]
  unfold globNegated
  split
  · rename_i h
    obtain ⟨c, cs, rfl⟩ : ∃ c cs, p = c :: cs := by
      cases p with
      | nil => simp [startsWith] at h
      | cons c cs => exact ⟨c, cs, rfl⟩
    rw [startsWith_cons] at h
    simp only [Bool.and_eq_true, beq_iff_eq] at h
    obtain ⟨rfl, h⟩ := h
    cases cs with
    | nil => simp [startsWith] at h
    | cons d ds =>
      rw [startsWith_cons] at h
      simp only [Bool.and_eq_true, beq_iff_eq] at h
      obtain ⟨rfl, -⟩ := h
      simp [startsWith_cons]
  · show (!(if startsWith p ['!'] = true then (true, p.drop 1) else (false, p)).1) = _
    rw [this]; by_cases hq : p.head? = some '!' <;> simp [hq]

theorem ignorePatterns_eq (lines : List Str) : ignorePatterns lines = (patternsOf lines).map (fun p => translate p true) := by
  unfold ignorePatterns patternsOf
  induction lines.map strip with
  | nil => rfl
  | cons p ps ih =>
  rw [List.filterMap_cons, List.filter_cons, ih]
  have : startsWith p ['#'] = true ↔ p.head? = some '#' := by
    cases p with
    | nil => simp [startsWith]
    | cons c cs =>
      simp only [startsWith_cons, startsWith_nil, Bool.and_true, beq_iff_eq, List.head?_cons, Option.some.injEq]
      exact eq_comm
  by_cases h1 : p = [] <;> by_cases h2 : p.head? = some '#' <;> simp [h1, h2, this]

/-- Evaluation of all patterns one after the other. -/
def foldAll (rel : IgnSrc → Str) (name : Str) (isDir : Bool) (st : Bool × Option Str) (ps : List (IgnSrc × Str)) : Bool × Option Str :=
  ps.foldl (fun st fp => if hits (rel fp.1) name isDir (translate fp.2 true) then (decide (fp.2.head? ≠ some '!'), some fp.1.path) else st) st

theorem foldAll_append (rel : IgnSrc → Str) (name : Str) (isDir : Bool) (st : Bool × Option Str) (a b : List (IgnSrc × Str)) :
    foldAll rel name isDir st (a ++ b) = foldAll rel name isDir (foldAll rel name isDir st a) b := by simp [foldAll]

theorem foldAll_file (rel : IgnSrc → Str) (name : Str) (isDir : Bool) (st : Bool × Option Str) (f : IgnSrc) (ps : List Str) :
    foldPatterns f.path (rel f) name isDir st (ps.map (fun p => translate p true)) = foldAll rel name isDir st (ps.map (fun p => (f, p))) := by
  unfold foldPatterns foldAll
  rw [List.foldl_map, List.foldl_map]
  congr 1
  funext st p
  simp only [translate_incl, decide_not]

theorem getIgnores_eq (read : ReadFile) (path name : Str) (isDir : Bool) {files : List IgnSrc} (hok : ∀ f ∈ files, f.Ok)
    (hread : ∀ f ∈ files, read f.path = f.lines) {igs : List IgnoreFile} (h : getIgnores read (files.map IgnSrc.path) = some igs) (st : Bool × Option Str) :
    matchIgnores path name isDir st igs = foldAll (fun f => lstripChar '/' (path.drop f.dir.length)) name isDir st (allPatterns files) := by
  induction files generalizing igs st with
  | nil => simp only [List.map_nil, getIgnores, Option.some.injEq] at h; subst h; rfl
  | cons f fs ih =>
    obtain ⟨hd, hne, hn⟩ := hok f (by simp)
    have hr := hread f (by simp)
    have hall : allPatterns (f :: fs) = (patternsOf (f.lines.getD [])).map (fun p => (f, p)) ++ allPatterns fs := by simp [allPatterns]
    rw [hall, foldAll_append]
    have ih' := fun (igs : List IgnoreFile) => ih (fun x hx => hok x (by simp [hx])) (fun x hx => hread x (by simp [hx])) (igs := igs)
    rw [List.map_cons, getIgnores, hr] at h
    cases hl : f.lines with
    | none => simp only [hl] at h; exact ih' igs h st
    | some lines =>
      have hp : f.path = absOf f.dir [f.name] := rfl
      simp only [hl, hp, pathSplit_abs hd hn] at h
      cases h1 : mkIgnoreFile f.dir f.name lines with
      | none => simp [h1] at h
      | some i =>
        cases h2 : getIgnores read (fs.map IgnSrc.path) with
        | none => simp [h1, h2] at h
        | some is =>
          simp only [h1, h2, Option.some.injEq] at h
          subst h
          rw [matchIgnores, ih' is h2]
          congr 1
          unfold mkIgnoreFile at h1
          rw [if_neg hd] at h1
          obtain ⟨gs, hgs, rfl⟩ := Option.map_eq_some_iff.1 h1
          have hpj : pathJoin f.dir f.name = f.path := by
            unfold pathJoin IgnSrc.path absOf
            rw [if_pos hd, if_pos hne]
            split <;> simp_all [pathOf]
          simp only [hpj]
          rw [groupPatterns_eq _ _ _ _ _ _ _ hgs, ignorePatterns_eq]
          simp only [matchGroups]
          exact foldAll_file (fun f => lstripChar '/' (path.drop f.dir.length)) name isDir st f (patternsOf lines)

theorem hits_iff {path : Str} {isDir : Bool} {fp : IgnSrc × Str} {names : List Str} {name : Str} (hb : Below fp.1.dir names path)
    (hl : names.getLast? = some name) :
    hits (lstripChar '/' (path.drop fp.1.dir.length)) name isDir (translate fp.2 true) = true ↔ Applies path isDir fp := by
  have hlb := lstrip_below hb
  have hm : ∀ g : Glob, hits (pathOf names) name isDir g = true ↔ g.match' (pathOf names) name isDir = some true := by
    intro g
    unfold hits Glob.match'
    have hs : lstripChar '/' (pathOf names) = pathOf names := by
      have := lstrip_path 0 (s := pathOf names) (by
        rw [← hlb]
        unfold lstripChar
        intro h
        have := List.head?_dropWhile_not (p := (· = '/')) (l := path.drop fp.1.dir.length)
        simp [h] at this)
      simpa using this
    cases g.body with
    | none => simp
    | some b => simp only [hs, Option.some.injEq]
  rw [hlb, hm]
  constructor
  · intro h; exact ⟨names, name, hb, hl, h⟩
  · rintro ⟨names', name', hb', hl', h⟩
    have : names' = names := absOf_inj hb'.2.1 hb.2.1 (by rw [← hb'.2.2, ← hb.2.2])
    subst this
    rw [hl] at hl'
    cases hl'
    exact h

theorem foldAll_last (rel : IgnSrc → Str) (name : Str) (isDir : Bool) (st : Bool × Option Str) (ps : List (IgnSrc × Str)) :
    ((∀ fp ∈ ps, hits (rel fp.1) name isDir (translate fp.2 true) = false) ∧ foldAll rel name isDir st ps = st) ∨
    ∃ a fp b, ps = a ++ fp :: b ∧ hits (rel fp.1) name isDir (translate fp.2 true) = true ∧
      (∀ x ∈ b, hits (rel x.1) name isDir (translate x.2 true) = false) ∧
      foldAll rel name isDir st ps = (decide (fp.2.head? ≠ some '!'), some fp.1.path) := by
  induction ps generalizing st with
  | nil => left; simp [foldAll]
  | cons q qs ih =>
    have hc : ∀ st, foldAll rel name isDir st (q :: qs) = foldAll rel name isDir
      (if hits (rel q.1) name isDir (translate q.2 true) then (decide (q.2.head? ≠ some '!'), some q.1.path) else st) qs := fun st => rfl
    rw [hc]
    rcases ih (if hits (rel q.1) name isDir (translate q.2 true) then (decide (q.2.head? ≠ some '!'), some q.1.path) else st) with ⟨h1, h2⟩ | ⟨a, fp, b, h1, h2, h3, h4⟩
    · by_cases hq : hits (rel q.1) name isDir (translate q.2 true) = true
      · right
        refine ⟨[], q, qs, rfl, hq, h1, ?_⟩
        rw [h2, if_pos hq]
      · left
        refine ⟨?_, by rw [h2, if_neg hq]⟩
        intro fp hfp
        rcases List.mem_cons.1 hfp with rfl | hfp
        · simpa using hq
        · exact h1 fp hfp
    · right
      exact ⟨q :: a, fp, b, by simp [h1], h2, h3, h4⟩

/-- C13: whether an entry is ignored, and by which file, is decided by the last pattern that applies to it: any number of ignore files (those that cannot
be read are skipped), any patterns. The entry lies below the directories of all the files; `none` stands for the exception raised for a malformed
pattern. -/
theorem C13_last (read : ReadFile) {files : List IgnSrc} (hok : ∀ f ∈ files, f.Ok) (hread : ∀ f ∈ files, read f.path = f.lines)
    {path name : Str} (isDir : Bool) (hbelow : ∀ f ∈ files, ∃ names, Below f.dir names path ∧ names.getLast? = some name) {result : Bool × Option Str}
    (h : isIgnored read (files.map IgnSrc.path) path name isDir = some result) : LastDecides files path isDir result := by
  unfold isIgnored at h
  split at h
  · rename_i hnil
    simp only [List.map_eq_nil_iff] at hnil
    subst hnil
    cases h
    left; simp [allPatterns]
  · obtain ⟨igs, h1, rfl⟩ := Option.map_eq_some_iff.1 h
    have hm := getIgnores_eq read path name isDir hok hread h1 (false, none)
    have hh : ∀ fp ∈ allPatterns files, (hits (lstripChar '/' (path.drop fp.1.dir.length)) name isDir (translate fp.2 true) = true ↔ Applies path isDir fp) := by
      intro fp hfp
      obtain ⟨f, hf, hfp⟩ := List.mem_flatMap.1 hfp
      obtain ⟨p, _, rfl⟩ := List.mem_map.1 hfp
      obtain ⟨names, hb, hl⟩ := hbelow f hf
      exact hits_iff hb hl
    rcases foldAll_last (fun f => lstripChar '/' (path.drop f.dir.length)) name isDir (false, none) (allPatterns files) with ⟨h2, h3⟩ | ⟨a, fp, b, h2, h3, h4, h5⟩
    · left
      refine ⟨fun fp hfp ha => ?_, ?_⟩
      · have := (hh fp hfp).2 ha
        rw [h2 fp hfp] at this; cases this
      · simp only [gitIgnoreMatch, hm, h3]; rfl
    · right
      refine ⟨a, fp, b, h2, (hh fp (by simp [h2])).1 h3, ?_, ?_⟩
      · intro x hx ha
        have := (hh x (by simp [h2, hx])).2 ha
        rw [h4 x hx] at this; cases this
      · simp only [gitIgnoreMatch, hm, h5, verdict]
        by_cases hq : fp.2.head? = some '!' <;> simp [hq]

/-- A case of C13 with two files: the outer one ignores object files but not keep.o, the inner one ignores keep.o. -/
def demoFiles : List IgnSrc := [⟨"/w".toList, ".gitignore".toList, some ["*.o".toList, "!keep.o".toList]⟩,
  ⟨"/w/sub".toList, ".ignore".toList, some ["# comment".toList, " /keep.o ".toList]⟩]

example : (∀ f ∈ demoFiles, f.Ok) ∧ (∀ f ∈ demoFiles, ∃ names, Below f.dir names "/w/sub/keep.o".toList ∧ names.getLast? = some "keep.o".toList) ∧
    isIgnored (fun p => (demoFiles.find? (fun f => f.path = p)).bind IgnSrc.lines) (demoFiles.map IgnSrc.path) "/w/sub/keep.o".toList "keep.o".toList false =
      some (true, some "/w/sub/.ignore".toList) := by
  refine ⟨?_, ?_, by decide⟩
  · intro f hf
    simp only [demoFiles, List.mem_cons, List.not_mem_nil, or_false] at hf
    rcases hf with rfl | rfl <;> exact ⟨by decide, by decide, by decide⟩
  · intro f hf
    simp only [demoFiles, List.mem_cons, List.not_mem_nil, or_false] at hf
    rcases hf with rfl | rfl
    · exact ⟨["sub".toList, "keep.o".toList], ⟨by simp, by intro n hn; simp only [List.mem_cons, List.not_mem_nil, or_false] at hn; rcases hn with rfl | rfl <;> exact ⟨by decide, by decide⟩, by decide⟩, rfl⟩
    · exact ⟨["keep.o".toList], ⟨by simp, by intro n hn; simp only [List.mem_cons, List.not_mem_nil, or_false] at hn; subst hn; exact ⟨by decide, by decide⟩, by decide⟩, rfl⟩

/-! ### C16: scope -/

theorem allPatterns_append (a b : List IgnSrc) : allPatterns (a ++ b) = allPatterns a ++ allPatterns b := by simp [allPatterns]

/-- C16: patterns of deeper files (`inner`) override those of outer files: if one of them applies, the outer files do not matter;
if none applies the outer files decide as if the others were not there. -/
theorem C16_override (read : ReadFile) {outer inner : List IgnSrc} (hok : ∀ f ∈ outer ++ inner, f.Ok) (hread : ∀ f ∈ outer ++ inner, read f.path = f.lines)
    {path name : Str} (isDir : Bool) (hbelow : ∀ f ∈ outer ++ inner, ∃ names, Below f.dir names path ∧ names.getLast? = some name)
    {result : Bool × Option Str} (h : isIgnored read ((outer ++ inner).map IgnSrc.path) path name isDir = some result) :
    ((∃ fp ∈ allPatterns inner, Applies path isDir fp) → LastDecides inner path isDir result) ∧
    ((∀ fp ∈ allPatterns inner, ¬ Applies path isDir fp) → LastDecides outer path isDir result) := by
  have hl := C13_last read hok hread isDir hbelow h
  constructor
  · rintro ⟨fp, hfp, ha⟩
    rcases hl with ⟨h1, _⟩ | ⟨a, x, b, h1, h2, h3, h4⟩
    · exact absurd ha (h1 fp (by rw [allPatterns_append]; simp [hfp]))
    · rw [allPatterns_append, List.append_eq_append_iff] at h1
      rcases h1 with ⟨c, h5, h6⟩ | ⟨c, h5, h6⟩
      · exact Or.inr ⟨c, x, b, h6, h2, h3, h4⟩
      · cases c with
        | nil => exact Or.inr ⟨[], x, b, by simpa using h6.symm, h2, h3, h4⟩
        | cons y c =>
          simp only [List.cons_append, List.cons.injEq] at h6
          exact absurd ha (h3 fp (by rw [h6.2]; simp [hfp]))
  · intro hno
    rcases hl with ⟨h1, h2⟩ | ⟨a, x, b, h1, h2, h3, h4⟩
    · exact Or.inl ⟨fun fp hfp => h1 fp (by rw [allPatterns_append]; simp [hfp]), h2⟩
    · rw [allPatterns_append, List.append_eq_append_iff] at h1
      rcases h1 with ⟨c, h5, h6⟩ | ⟨c, h5, h6⟩
      · exact absurd h2 (hno x (by rw [h6]; simp))
      · cases c with
        | nil => exact absurd h2 (hno x (by rw [← List.nil_append (allPatterns inner), ← h6]; simp))
        | cons y c =>
          simp only [List.cons_append, List.cons.injEq] at h6
          obtain ⟨rfl, rfl⟩ := h6
          exact Or.inr ⟨a, x, c, h5, h2, fun z hz => h3 z (by simp [hz]), h4⟩

theorem ignoresOn_eq (isIgn : Str → Bool) (absroot : Str) (dir : List Str) (kids : List FNode) {p : List FNode} (hp : p ≠ []) :
    ignoresOn isIgn absroot dir kids p =
      (List.range p.length).flatMap (fun k => ignoresIn isIgn absroot (dir ++ (p.take k).map FNode.name) (listing kids (p.take k))) := by
  induction p generalizing dir kids with
  | nil => exact absurd rfl hp
  | cons n p ih =>
    cases p with
    | nil => simp [ignoresOn, listing]
    | cons m p =>
      rw [ignoresOn, ih _ _ (by simp), List.length_cons (a := n), List.range_succ_eq_map, List.flatMap_cons, List.flatMap_map]
      · congr 1
        · simp [listing]
        · congr 1
          funext k
          cases k with
          | zero => simp [listing]
          | succ k =>
            simp only [List.take_succ_cons, List.map_cons, List.append_assoc, List.cons_append, List.nil_append, listing]
            rw [List.getLast?_cons_cons (l := p.take k)]
            rw [List.getLast?_eq_some_getLast (by simp)]
            rfl
      

theorem absOf_absDir {absroot : Str} {a b : List Str} (ha : ∀ x ∈ a, IsFileName x) (hb : b ≠ []) :
    absOf (absDir absroot a) b = absOf absroot (a ++ b) := by
  unfold absDir
  split
  · rename_i h; subst h; rfl
  · rename_i h
    have hne : absOf absroot a ≠ ['/'] := by
      have := pathOf_ne_nil h ha
      unfold absOf
      split
      · intro he
        simp only [List.cons.injEq, true_and] at he
        exact this he
      · rename_i h0
        intro he
        cases absroot with
        | nil => simp only [List.nil_append, List.cons.injEq, true_and] at he; exact this he
        | cons c cs => simp at he
    rw [absOf, if_neg hne]
    unfold absOf
    rw [pathOf_append h hb]
    split <;> simp

/-- C16: the ignore files that an entry found by the search refers to are those from outside (-I) followed by those in the start directory, and in each
directory on the way to it, outermost first, and no others. -/
theorem C16_order (cfg : WalkCfg) (fair : Fair) {roots : List Root} (hok : ∀ r ∈ roots, r.Ok) (hnd : (roots.map Root.start).Nodup) (n : Nat) {s : PState}
    (h : PSteps cfg fair (initState (roots.map Root.dir) n) s) {i : EntInfo} (hi : i ∈ s.handed) :
    ∃ r ∈ roots, ∃ p, Chain r.kids p ∧ i.start = r.start ∧ i.relpath = pathOf (p.map FNode.name) ∧
      i.ignorePaths = r.base ++ (List.range p.length).flatMap (fun k =>
        (((listing r.kids (p.take k)).map FNode.name).filter cfg.isIgnoreFile).map (fun f => absOf (absDir r.start.absroot ((p.take k).map FNode.name)) [f])) := by
  obtain ⟨r, hr, p, h1, rfl, _⟩ := (C07_sound cfg fair hok hnd n h).2 i hi
  refine ⟨r, hr, p, h1, rfl, rfl, ?_⟩
  have hn := goodTree_chain (hok r hr).2.2 h1
  show r.base ++ _ = _
  rw [ignoresOn_eq _ _ _ _ (chain_ne_nil h1)]
  congr 2
  funext k
  unfold ignoresIn
  congr 1
  funext f
  rw [absOf_absDir (by
    intro x hx
    obtain ⟨m, hm, rfl⟩ := List.mem_map.1 hx
    exact hn m (List.mem_of_mem_take hm)) (by simp)]
  rfl

/-- C16: every ignore file found on the way lies in a directory that the entry is below, so that its patterns are matched against the path relative
to that directory (see `C13_last` and `Applies`). -/
theorem C16_scope {kids : List FNode} (hg : GoodTree kids) (absroot : Str) {p : List FNode} (hp : Chain kids p) {k : Nat} (hk : k < p.length) :
    Below (absDir absroot ((p.take k).map FNode.name)) ((p.drop k).map FNode.name) (absOf absroot (p.map FNode.name)) := by
  have hn := goodTree_chain hg hp
  refine ⟨?_, ?_, ?_⟩
  · intro h
    have := congrArg List.length h
    simp at this
    omega
  · intro x hx
    obtain ⟨m, hm, rfl⟩ := List.mem_map.1 hx
    exact hn m (List.mem_of_mem_drop hm)
  · rw [absOf_absDir]
    · rw [← List.map_append, List.take_append_drop]
    · intro x hx
      obtain ⟨m, hm, rfl⟩ := List.mem_map.1 hx
      exact hn m (List.mem_of_mem_take hm)
    · intro h
      have := congrArg List.length h
      simp at this
      omega

/-- C16: a pattern cannot match an entry that is not below the directory of its file. -/
theorem C16_only_below {path : Str} {isDir : Bool} {fp : IgnSrc × Str} (h : Applies path isDir fp) : ∃ names, Below fp.1.dir names path := by
  obtain ⟨names, _, hb, _⟩ := h
  exact ⟨names, hb⟩

/-- The ignore files on the way to an entry, outermost first. -/
def Spec.filesOn (isIgn : Str → Bool) (read : ReadFile) (absroot : Str) (kids p : List FNode) : List IgnSrc :=
  (List.range p.length).flatMap (fun k => (((listing kids (p.take k)).map FNode.name).filter isIgn).map (fun f =>
    ⟨absDir absroot ((p.take k).map FNode.name), f, read (absOf (absDir absroot ((p.take k).map FNode.name)) [f])⟩))

theorem chain_goodTree {kids : List FNode} (hg : GoodTree kids) {p : List FNode} (hp : Chain kids p) : ∀ n ∈ p, GoodTree n.kids := by
  induction p generalizing kids with
  | nil => simp
  | cons n p ih =>
    cases hg with
    | mk h1 h2 h3 =>
    cases p with
    | nil => intro m hm; simp at hm; subst hm; exact h3 m hp
    | cons m p =>
      obtain ⟨hn, _, hp⟩ := hp
      intro x hx
      rcases List.mem_cons.1 hx with rfl | hx
      · exact h3 x hn
      · exact ih (h3 n hn) hp x hx

/-- C13 and C16 for a whole search without ignore files from outside: for every entry handed to processing, the `ignored` attribute is decided by the last
pattern that applies, among those of the ignore files of the directories on the way to the entry, outermost first. -/
theorem C16_search (cfg : WalkCfg) (fair : Fair) {roots : List Root} (hok : ∀ r ∈ roots, r.Ok) (hbase : ∀ r ∈ roots, r.base = []) (hnd : (roots.map Root.start).Nodup)
    (n : Nat) {s : PState} (h : PSteps cfg fair (initState (roots.map Root.dir) n) s) {i : EntInfo} (hi : i ∈ s.handed) (read : ReadFile) {result : Bool × Option Str}
    (hres : isIgnored read i.ignorePaths i.entry.abspath i.entry.name i.isDir = some result) :
    ∃ r ∈ roots, ∃ p, Chain r.kids p ∧ i.entry.abspath = absOf r.start.absroot (p.map FNode.name) ∧
      LastDecides (filesOn cfg.isIgnoreFile read r.start.absroot r.kids p) i.entry.abspath i.isDir result := by
  obtain ⟨r, hr, p, h1, h2, h3, h4⟩ := C16_order cfg fair hok hnd n h hi
  obtain ⟨hroot, habs, hg⟩ := hok r hr
  have hn := goodTree_chain hg h1
  have hpne := chain_ne_nil h1
  obtain ⟨init, l, rfl⟩ : ∃ init l, p = init ++ [l] := ⟨_, _, (List.dropLast_concat_getLast hpne).symm⟩
  have hd : ∀ x ∈ init.map FNode.name, IsFileName x := by
    intro x hx; obtain ⟨m, hm, rfl⟩ := List.mem_map.1 hx; exact hn m (by simp [hm])
  have hl := hn l (by simp)
  have hmap : (init ++ [l]).map FNode.name = init.map FNode.name ++ [l.name] := by simp
  have ha : i.entry.abspath = absOf r.start.absroot ((init ++ [l]).map FNode.name) := by
    unfold EntInfo.entry
    rw [h2, h3, hmap]
    exact entry_abspath habs hd hl
  have hname : i.entry.name = l.name := by
    unfold EntInfo.entry
    rw [h2, h3, hmap]
    exact entry_name hroot hd hl
  refine ⟨r, hr, init ++ [l], h1, ha, ?_⟩
  have hmem : ∀ f ∈ filesOn cfg.isIgnoreFile read r.start.absroot r.kids (init ++ [l]), ∃ k < (init ++ [l]).length, ∃ m ∈ listing r.kids ((init ++ [l]).take k),
      f = ⟨absDir r.start.absroot (((init ++ [l]).take k).map FNode.name), m.name, read (absOf (absDir r.start.absroot (((init ++ [l]).take k).map FNode.name)) [m.name])⟩ := by
    intro f hf
    obtain ⟨k, hk, hf⟩ := List.mem_flatMap.1 hf
    obtain ⟨nm, hnm, rfl⟩ := List.mem_map.1 hf
    obtain ⟨m, hm, rfl⟩ := List.mem_map.1 (List.mem_filter.1 hnm).1
    exact ⟨k, List.mem_range.1 hk, m, hm, rfl⟩
  refine C13_last read (name := l.name) ?_ ?_ i.isDir ?_ ?_
  · intro f hf
    obtain ⟨k, hk, m, hm, rfl⟩ := hmem f hf
    refine ⟨?_, ?_⟩
    · show absDir _ _ ≠ []
      unfold absDir
      split
      · exact habs
      · unfold absOf; split <;> simp
    · have hgl : GoodTree (listing r.kids ((init ++ [l]).take k)) := by
        unfold listing
        cases hlast : ((init ++ [l]).take k).getLast? with
        | none => exact hg
        | some x => exact chain_goodTree hg h1 x (List.mem_of_mem_take (List.mem_of_getLast? hlast))
      cases hgl with
      | mk hx _ _ => exact hx m hm
  · intro f hf
    obtain ⟨k, hk, m, hm, rfl⟩ := hmem f hf
    rfl
  · intro f hf
    obtain ⟨k, hk, m, hm, rfl⟩ := hmem f hf
    refine ⟨((init ++ [l]).drop k).map FNode.name, ?_, ?_⟩
    · rw [ha]; exact C16_scope hg _ h1 hk
    · have hk2 : k ≤ init.length := by simp at hk; omega
      rw [List.drop_append_of_le_length hk2]
      simp
  · rw [← hname, ← hres]
    congr 1
    rw [h4, hbase r hr]
    simp only [filesOn, List.map_flatMap, List.map_map, List.nil_append]
    rfl

/-! ### C17: the order of listings -/

theorem sameTree_names {kids kids' : List FNode} (h : SameTree kids kids') {n : FNode} (hn : n ∈ kids) :
    ∃ n' ∈ kids', n'.name = n.name ∧ n'.isDir = n.isDir := by
  obtain ⟨p, h1, h2⟩ := (h [(n.name, n.isDir)]).1 ⟨[n], hn, rfl⟩
  match p, h1, h2 with
  | [m], h1, h2 =>
    simp only [labels, List.map_cons, List.map_nil, List.cons.injEq, Prod.mk.injEq, and_true] at h2
    exact ⟨m, h1, h2.1, h2.2⟩
  | _ :: _ :: _, _, h2 => simp [labels] at h2

theorem sameTree_symm {kids kids' : List FNode} (h : SameTree kids kids') : SameTree kids' kids := fun l => (h l).symm

theorem nodup_name {kids : List FNode} (h : (kids.map FNode.name).Nodup) {a b : FNode} (ha : a ∈ kids) (hb : b ∈ kids) (hab : a.name = b.name) : a = b := by
  induction kids with
  | nil => simp at ha
  | cons n ns ih =>
    simp only [List.map_cons, List.nodup_cons] at h
    rcases List.mem_cons.1 ha with ha1 | ha1 <;> rcases List.mem_cons.1 hb with hb1 | hb1
    · rw [ha1, hb1]
    · exact absurd (show n.name ∈ ns.map FNode.name by rw [← ha1, hab]; exact List.mem_map_of_mem hb1) h.1
    · exact absurd (show n.name ∈ ns.map FNode.name by rw [← hb1, ← hab]; exact List.mem_map_of_mem ha1) h.1
    · exact ih h.2 ha1 hb1

theorem goodTree_nodup {kids : List FNode} (h : GoodTree kids) : (kids.map FNode.name).Nodup := by cases h; assumption
theorem goodTree_sub {kids : List FNode} (h : GoodTree kids) : ∀ n ∈ kids, GoodTree n.kids := by cases h; assumption

theorem sameTree_sub {kids kids' : List FNode} (h : SameTree kids kids') (hg : GoodTree kids) (hg' : GoodTree kids') {n n' : FNode} (hn : n ∈ kids) (hn' : n' ∈ kids')
    (hname : n'.name = n.name) (hd : n.isDir = true) (hd' : n'.isDir = true) : SameTree n.kids n'.kids := by
  have key : ∀ {k k' : List FNode} {m m' : FNode}, SameTree k k' → GoodTree k' → m ∈ k → m' ∈ k' → m'.name = m.name → m.isDir = true → m'.isDir = true →
      ∀ l, (∃ p, Chain m.kids p ∧ labels p = l) → (∃ p, Chain m'.kids p ∧ labels p = l) := by
    intro k k' m m' h hg' hm hm' hname hd hd' l
    rintro ⟨p, hp, rfl⟩
    have hne := chain_ne_nil hp
    obtain ⟨q, h1, h2⟩ := (h (labels (m :: p))).1 ⟨m :: p, (chain_cons hne).2 ⟨hm, hd, hp⟩, rfl⟩
    cases q with
    | nil => exact absurd h1 (by simp [Chain])
    | cons x q =>
      simp only [labels, List.map_cons, List.cons.injEq, Prod.mk.injEq] at h2
      have hqne : q ≠ [] := by
        rintro rfl
        have := h2.2
        simp at this
        exact hne this
      obtain ⟨hx, hxd, hq⟩ := (chain_cons hqne).1 h1
      have : x = m' := nodup_name (goodTree_nodup hg') hx hm' (by rw [h2.1.1, hname])
      subst this
      exact ⟨q, hq, h2.2⟩
  intro l
  exact ⟨key h hg' hn hn' hname hd hd' l, key (sameTree_symm h) hg hn' hn hname.symm hd' hd l⟩

theorem le_one_ext {a b : List Str} (ha : a.length ≤ 1) (hb : b.length ≤ 1) (h : ∀ x, x ∈ a ↔ x ∈ b) : a = b := by
  match a, b, ha, hb with
  | [], [], _, _ => rfl
  | [], y :: b, _, _ => exact absurd ((h y).2 (by simp)) (by simp)
  | x :: a, [], _, _ => exact absurd ((h x).1 (by simp)) (by simp)
  | [x], [y], _, _ => have := (h x).1 (by simp); simp at this; rw [this]

theorem oneIgnore_sub {isIgn : Str → Bool} {kids : List FNode} (h : OneIgnore isIgn kids) {n : FNode} (hn : n ∈ kids) (hd : n.isDir = true) : OneIgnore isIgn n.kids := by
  refine ⟨h.2 [] n hn hd, ?_⟩
  intro p m hp hm
  exact h.2 (n :: p) m ((chain_cons (by simp)).2 ⟨hn, hd, hp⟩) hm

theorem ignoresOn_same {isIgn : Str → Bool} {absroot : Str} {p : List FNode} : ∀ {kids kids' : List FNode} {p' : List FNode} (dir : List Str), SameTree kids kids' →
    GoodTree kids → GoodTree kids' → OneIgnore isIgn kids → OneIgnore isIgn kids' → Chain kids p → Chain kids' p' → labels p = labels p' →
    ignoresOn isIgn absroot dir kids p = ignoresOn isIgn absroot dir kids' p' := by
  induction p with
  | nil => intro kids kids' p' dir _ _ _ _ _ h; exact absurd h (by simp [Chain])
  | cons n p ih =>
    intro kids kids' p' dir h hg hg' ho ho' hp hp' hl
    have hin : ignoresIn isIgn absroot dir kids = ignoresIn isIgn absroot dir kids' := by
      unfold ignoresIn
      rw [le_one_ext ho.1 ho'.1]
      intro x
      simp only [List.mem_filter, List.mem_map]
      constructor
      · rintro ⟨⟨m, hm, rfl⟩, hx⟩
        obtain ⟨m', hm', h1, _⟩ := sameTree_names h hm
        exact ⟨⟨m', hm', h1⟩, hx⟩
      · rintro ⟨⟨m, hm, rfl⟩, hx⟩
        obtain ⟨m', hm', h1, _⟩ := sameTree_names (sameTree_symm h) hm
        exact ⟨⟨m', hm', h1⟩, hx⟩
    cases p' with
    | nil => simp [labels] at hl
    | cons n' p' =>
      simp only [labels, List.map_cons, List.cons.injEq, Prod.mk.injEq] at hl
      cases p with
      | nil =>
        cases p' with
        | nil => simpa [ignoresOn] using hin
        | cons m' p' => simp at hl
      | cons m p =>
        cases p' with
        | nil => simp at hl
        | cons m' p' =>
          obtain ⟨h1, h2, h3⟩ := hp
          obtain ⟨h1', h2', h3'⟩ := hp'
          rw [ignoresOn, ignoresOn, hin, ← hl.1.1]
          congr 1
          exact ih _ (sameTree_sub h hg hg' h1 h1' hl.1.1.symm h2 h2') (goodTree_sub hg n h1) (goodTree_sub hg' n' h1') (oneIgnore_sub ho h1 h2)
            (oneIgnore_sub ho' h1' h2') h3 h3' hl.2

theorem chain_prefix {kids : List FNode} {p q : List FNode} (hp : Chain kids p) (hq : q ≠ []) (hqp : q <+: p) : Chain kids q := by
  induction q generalizing kids p with
  | nil => exact absurd rfl hq
  | cons n q ih =>
    obtain ⟨t, rfl⟩ := hqp
    cases q with
    | nil =>
      cases t with
      | nil => exact hp
      | cons m t => exact hp.1
    | cons m q => exact ⟨hp.1, hp.2.1, ih hp.2.2 (by simp) ⟨t, rfl⟩⟩

theorem entryAt_same {isIgn : Str → Bool} {start : Start} {base : List Str} {kids kids' p p' : List FNode} (h : SameTree kids kids') (hg : GoodTree kids)
    (hg' : GoodTree kids') (ho : OneIgnore isIgn kids) (ho' : OneIgnore isIgn kids') (hp : Chain kids p) (hp' : Chain kids' p') (hl : labels p = labels p') :
    entryAt isIgn start base kids p = entryAt isIgn start base kids' p' := by
  have h1 : p.map FNode.name = p'.map FNode.name := by
    have := congrArg (List.map Prod.fst) hl
    simpa [labels, Function.comp_def] using this
  have h2 : p.getLast?.map FNode.isDir = p'.getLast?.map FNode.isDir := by
    have := congrArg (fun l => (l.getLast?).map Prod.snd) hl
    simpa [labels, List.getLast?_map, Function.comp_def] using this
  simp only [entryAt, h1, h2, ignoresOn_same [] h hg hg' ho ho' hp hp' hl]

/-- C17: if no directory has more than one ignore file, what a search selects does not depend on the order in which directories are listed. -/
theorem C17_selected {cfg : WalkCfg} {start : Start} {base : List Str} {kids kids' : List FNode} (h : SameTree kids kids') (hg : GoodTree kids) (hg' : GoodTree kids')
    (ho : OneIgnore cfg.isIgnoreFile kids) (ho' : OneIgnore cfg.isIgnoreFile kids') (i : EntInfo) :
    Selected cfg start base kids i ↔ Selected cfg start base kids' i := by
  have key : ∀ {k k' : List FNode}, SameTree k k' → GoodTree k → GoodTree k' → OneIgnore cfg.isIgnoreFile k → OneIgnore cfg.isIgnoreFile k' →
      Selected cfg start base k i → Selected cfg start base k' i := by
    rintro k k' h hg hg' ho ho' ⟨p, h1, rfl, h2, h3⟩
    obtain ⟨p', h4, h5⟩ := (h (labels p)).1 ⟨p, h1, rfl⟩
    refine ⟨p', h4, entryAt_same h hg hg' ho ho' h1 h4 h5.symm, h2, ?_⟩
    intro q hq hqp
    have hlen : q.length ≤ p'.length := hqp.length_le
    have hqe : q = p'.take q.length := List.prefix_iff_eq_take.1 hqp
    have hpl : p.length = p'.length := by simpa [labels] using (congrArg List.length h5).symm
    have hqpos : 0 < q.length := List.length_pos_iff.2 hq
    have hne : p.take q.length ≠ [] := by
      intro h0
      have := congrArg List.length h0
      rw [List.length_take, List.length_nil] at this
      omega
    have hc1 := chain_prefix h1 hne (List.take_prefix _ _)
    have hlq : labels (p.take q.length) = labels q := by
      have hq2 : labels q = (labels p').take q.length := by
        conv => lhs; rw [hqe]
        simp only [labels, List.map_take]
      rw [hq2, h5]
      simp only [labels, List.map_take]
    rw [← entryAt_same h hg hg' ho ho' hc1 (chain_prefix h4 hq hqp) hlq]
    exact h3 _ hne (List.take_prefix _ _)
  exact ⟨key h hg hg' ho ho', key (sameTree_symm h) hg' hg ho' ho⟩

/-- C17: in any case the entries of a directory refer to all the ignore files in it, wherever they are in the listing. -/
theorem C17_all_files (isIgn : Str → Bool) (start : Start) (rel : Str) (ign : List Str) {kids kids' : List FNode} (h : kids.Perm kids') :
    ∀ e ∈ scanDirectory isIgn ⟨start, rel, ign, kids⟩, ∀ e' ∈ scanDirectory isIgn ⟨start, rel, ign, kids'⟩, e.info.ignorePaths.Perm e'.info.ignorePaths := by
  intro e he e' he'
  rw [scanDirectory_eq] at he he'
  obtain ⟨_, _, rfl⟩ := List.mem_map.1 he
  obtain ⟨_, _, rfl⟩ := List.mem_map.1 he'
  exact List.Perm.append_left _ ((h.filter _).map _)

/-- A case of `C17_selected`: two orders of a listing. -/
example : SameTree [.mk "a".toList false [], .mk ".gitignore".toList false []] [.mk ".gitignore".toList false [], .mk "a".toList false []] ∧
    OneIgnore (· = ".gitignore".toList) [.mk "a".toList false [], .mk ".gitignore".toList false []] := by
  have hc : ∀ {a b : FNode} {p : List FNode}, a.isDir = false → b.isDir = false → (Chain [a, b] p ↔ p = [a] ∨ p = [b]) := by
    intro a b p ha hb
    match p with
    | [] => simp [Chain]
    | [n] => simp [Chain]
    | n :: m :: p =>
      simp only [Chain, List.mem_cons, List.not_mem_nil, or_false, List.cons.injEq, reduceCtorEq, and_false, or_self, iff_false]
      rintro ⟨rfl | rfl, h, _⟩
      · rw [ha] at h; cases h
      · rw [hb] at h; cases h
  refine ⟨fun l => ?_, by decide, ?_⟩
  · simp only [hc (show FNode.isDir (.mk _ false _) = false from rfl) (show FNode.isDir (.mk _ false _) = false from rfl)]
    constructor
    · rintro ⟨p, h, rfl⟩; exact ⟨p, h.symm, rfl⟩
    · rintro ⟨p, h, rfl⟩; exact ⟨p, h.symm, rfl⟩
  · intro p n hp hd
    rcases (hc (show FNode.isDir (.mk _ false _) = false from rfl) (show FNode.isDir (.mk _ false _) = false from rfl)).1 hp with h | h
    · cases p with
      | nil => simp at h; subst h; cases hd
      | cons x p => simp at h
    · cases p with
      | nil => simp at h; subst h; cases hd
      | cons x p => simp at h

/-- Two ignore files in one directory, in both orders. -/
def twoIgnores : ReadFile := fun p =>
  if p = "/w/.gitignore".toList then some ["a".toList] else if p = "/w/.ffignore".toList then some ["!a".toList] else none

/-- C17 is false with two ignore files in a directory: their order is that of the listing, and the last one wins. -/
theorem C17_false :
    (scanDirectory (fun n => n ∈ [".gitignore".toList, ".ffignore".toList]) ⟨⟨".".toList, "/w".toList⟩, [], [],
      [.mk ".gitignore".toList false [], .mk ".ffignore".toList false [], .mk "a".toList false []]⟩).map (fun e =>
        isIgnored twoIgnores e.info.ignorePaths e.info.entry.abspath e.info.entry.name e.info.isDir) = [some (false, none), some (false, none), some (false, none)] ∧
    (scanDirectory (fun n => n ∈ [".gitignore".toList, ".ffignore".toList]) ⟨⟨".".toList, "/w".toList⟩, [], [],
      [.mk ".ffignore".toList false [], .mk ".gitignore".toList false [], .mk "a".toList false []]⟩).map (fun e =>
        isIgnored twoIgnores e.info.ignorePaths e.info.entry.abspath e.info.entry.name e.info.isDir) =
          [some (false, none), some (false, none), some (true, some "/w/.gitignore".toList)] := by decide

/-! ### C18: parents of the start directory -/

theorem parentLoop_eq (exist : Str → Bool) (ignoreFiles : List Str) (hi : ∀ f ∈ ignoreFiles, IsFileName f) {ns : List Str} (hn : ∀ x ∈ ns, IsFileName x) :
    ∀ (done : List Str), (∀ x ∈ done, IsFileName x) → parentLoop exist ignoreFiles (absDir ['/'] done) ns =
      (List.range ns.length).flatMap (fun k => (ignoreFiles.map (fun f => absOf (absDir ['/'] (done ++ ns.take (k + 1))) [f])).filter exist) := by
  have hj : ∀ (d : List Str) (f : Str), (∀ x ∈ d, IsFileName x) → IsFileName f → pathJoin (absDir ['/'] d) f = absOf (absDir ['/'] d) [f] := by
    intro d f hd hf
    have : absDir ['/'] d ≠ [] := by
      unfold absDir; split
      · simp
      · simp [absOf]
    unfold pathJoin absOf
    rw [if_pos this, if_pos hf.1]
    split <;> simp_all [pathOf]
  induction ns with
  | nil => intro done _; simp [parentLoop]
  | cons n ns ih =>
    intro done hd
    have hn1 := hn n (by simp)
    have hd' : ∀ x ∈ done ++ [n], IsFileName x := by
      intro x hx
      rcases List.mem_append.1 hx with h | h
      · exact hd x h
      · simp at h; subst h; exact hn1
    have hjoin : pathJoin (absDir ['/'] done) n = absDir ['/'] (done ++ [n]) := by
      rw [hj _ _ hd hn1, absOf_absDir hd (by simp)]
      simp [absDir]
    rw [parentLoop]
    simp only [hjoin]
    rw [ih (fun x hx => hn x (by simp [hx])) (done ++ [n]) hd', List.length_cons, List.range_succ_eq_map, List.flatMap_cons, List.flatMap_map]
    congr 1
    · congr 1
      simp only [List.take_succ_cons, List.take_zero]
      apply List.map_congr_left
      intro f hf
      exact hj _ _ hd' (hi f hf)
    · congr 1
      funext k
      simp

theorem allSlash_dirname_abs {ns : List Str} (hn : ∀ x ∈ ns, IsFileName x) (hne : ns ≠ []) :
    dirname (absOf ['/'] ns) = absDir ['/'] ns.dropLast := by
  obtain ⟨init, l, rfl⟩ : ∃ init l, ns = init ++ [l] := ⟨_, _, (List.dropLast_concat_getLast hne).symm⟩
  have hl : '/' ∉ l := (hn l (by simp)).2
  rw [List.dropLast_concat]
  by_cases hi : init = []
  · subst hi
    have h1 := rfind_split [] (b := l) (c := '/') hl
    simp only [List.nil_append, List.length_nil] at h1
    simp [absOf, pathOf, absDir, dirname, h1, sliceTo]
  · have hin : ∀ x ∈ init, IsFileName x := fun x hx => hn x (by simp [hx])
    have he : absOf ['/'] (init ++ [l]) = ('/' :: pathOf init) ++ '/' :: l := by simp [absOf, pathOf_append hi (show [l] ≠ [] by simp), pathOf]
    have h1 := rfind_split ('/' :: pathOf init) (b := l) (c := '/') hl
    have hlast : ∃ a c, pathOf init = a ++ [c] ∧ c ≠ '/' := by
      obtain ⟨i2, m, rfl⟩ : ∃ i2 m, init = i2 ++ [m] := ⟨_, _, (List.dropLast_concat_getLast hi).symm⟩
      have hm := hin m (by simp)
      obtain ⟨m2, c, rfl⟩ : ∃ m2 c, m = m2 ++ [c] := ⟨_, _, (List.dropLast_concat_getLast hm.1).symm⟩
      have hc : c ≠ '/' := by rintro rfl; exact hm.2 (by simp)
      by_cases h2 : i2 = []
      · subst h2; exact ⟨m2, c, by simp [pathOf], hc⟩
      · exact ⟨pathOf i2 ++ '/' :: m2, c, by rw [pathOf_append h2 (by simp)]; simp [pathOf], hc⟩
    obtain ⟨a, c, ha, hc⟩ := hlast
    have hs : sliceTo (('/' :: pathOf init) ++ '/' :: l) ((('/' :: pathOf init).length : Int) + 1) = ('/' :: pathOf init) ++ ['/'] := by
      unfold sliceTo
      rw [show ((('/' :: pathOf init).length : Int) + 1).toNat = ('/' :: pathOf init).length + 1 by omega]
      rw [List.take_append]
      simp [List.take_of_length_le]
    have hnd : (absDir ['/'] init) = '/' :: pathOf init := by simp [absDir, hi, absOf]
    unfold dirname
    rw [he, h1, hs, hnd]
    have hall : (('/' :: pathOf init) ++ ['/']).all (· = '/') = false := by
      rw [List.all_eq_false]
      exact ⟨c, by rw [ha]; simp, by simpa using hc⟩
    simp only [hall, Bool.false_eq_true, if_false]
    rw [ha]
    simp [rstripChar, hc]

theorem splitOn_abs {ns : List Str} (hn : ∀ x ∈ ns, IsFileName x) : splitOn '/' (absDir ['/'] ns) = if ns = [] then [[], []] else [] :: ns := by
  by_cases h : ns = []
  · subst h; rfl
  · have h0 : splitOn '/' (absDir ['/'] ns) = splitOn '/' ([] ++ '/' :: pathOf ns) := by simp [absDir, h, absOf]
    rw [h0, splitOn_append_sep _ _ _ (by simp), splitOn_pathOf h (fun x hx => (hn x hx).2), if_neg h]

/-- The ignore files of the first `m` directories on the way from the root to a directory, outermost first. -/
def Spec.ignoresAbove (exist : Str → Bool) (ignoreFiles : List Str) (ns : List Str) (m : Nat) : List Str :=
  (List.range m).flatMap (fun k => (ignoreFiles.map (fun f => absOf (absDir ['/'] (ns.take k)) [f])).filter exist)

theorem parents_eq (exist : Str → Bool) (ignoreFiles : List Str) (hi : ∀ f ∈ ignoreFiles, IsFileName f) {ns : List Str} (hn : ∀ x ∈ ns, IsFileName x) (hne : ns ≠ []) :
    parentLoop exist ignoreFiles ['/'] (splitOn '/' (dirname (absOf ['/'] ns))) =
      (if ns.length = 1 then ignoresAbove exist ignoreFiles ns 1 else []) ++ ignoresAbove exist ignoreFiles ns ns.length := by
  have hroot : ∀ ps, parentLoop exist ignoreFiles ['/'] ([] :: ps) = ignoresAbove exist ignoreFiles ns 1 ++ parentLoop exist ignoreFiles ['/'] ps := by
    intro ps
    rw [parentLoop]
    congr 1
    simp only [ignoresAbove, List.range_one, List.flatMap_cons, List.flatMap_nil, List.append_nil, List.take_zero]
    congr 1
    apply List.map_congr_left
    intro f hf
    simp [pathJoin, (hi f hf).1, absDir, absOf, pathOf]
  obtain ⟨init, l, rfl⟩ : ∃ init l, ns = init ++ [l] := ⟨_, _, (List.dropLast_concat_getLast hne).symm⟩
  have hin : ∀ x ∈ init, IsFileName x := fun x hx => hn x (by simp [hx])
  rw [allSlash_dirname_abs hn hne, List.dropLast_concat, splitOn_abs hin]
  split
  · rename_i h
    subst h
    rw [hroot, hroot]
    simp [parentLoop]
  · rename_i h
    have hlen : 0 < init.length := List.length_pos_iff.2 h
    rw [hroot, if_neg (by simp [h])]
    have := parentLoop_eq exist ignoreFiles hi hin [] (by simp)
    rw [show absDir ['/'] [] = ['/'] from rfl] at this
    rw [this]
    simp only [ignoresAbove, List.length_append, List.length_singleton, List.nil_append]
    rw [List.range_one, List.range_succ_eq_map, List.flatMap_cons, List.flatMap_cons, List.flatMap_map, List.flatMap_nil, List.append_nil]
    congr 1
    rw [List.flatMap_def, List.flatMap_def]
    congr 1
    apply List.map_congr_left
    intro k hk
    simp only [List.mem_range] at hk
    rw [List.take_append_of_le_length (by omega)]

/-- C18, for the start directory "." (the default): the ignore files of all directories above it count, outermost first; those of the root directory are
listed twice if there is nothing else above it, which does no harm. Missing: other start directories, see `C18_false`. -/
theorem C18_dot_partial (exist : Str → Bool) (ignoreFiles : List Str) (hi : ∀ f ∈ ignoreFiles, IsFileName f) {cwd : List Str} (hn : ∀ x ∈ cwd, IsFileName x) (hne : cwd ≠ []) :
    startIgnores (absOf ['/'] cwd) exist ignoreFiles ['.'] =
      (if cwd.length = 1 then ignoresAbove exist ignoreFiles cwd 1 else []) ++ ignoresAbove exist ignoreFiles cwd cwd.length := by
  unfold startIgnores fromParentDirectories
  have h1 : dirname ['.'] = [] := by decide
  have h2 : abspath (absOf ['/'] cwd) [] = absOf ['/'] cwd := by simp [abspath, startsWith, pathJoin, absOf]
  rw [h1, h2, parents_eq exist ignoreFiles hi hn hne]

/-- C18 for a start directory given by its absolute path (also with --absolute-path): all directories above it but its direct parent count. -/
theorem C18_abs_partial (exist : Str → Bool) (ignoreFiles : List Str) (hi : ∀ f ∈ ignoreFiles, IsFileName f) (cwd : Str) {ns : List Str} (l : Str)
    (hn : ∀ x ∈ ns ++ [l], IsFileName x) (hne : ns ≠ []) :
    startIgnores cwd exist ignoreFiles (absOf ['/'] (ns ++ [l])) =
      (if ns.length = 1 then ignoresAbove exist ignoreFiles ns 1 else []) ++ ignoresAbove exist ignoreFiles ns ns.length := by
  unfold startIgnores fromParentDirectories
  rw [allSlash_dirname_abs hn (by simp), List.dropLast_concat]
  have h2 : abspath cwd (absDir ['/'] ns) = absOf ['/'] ns := by
    simp [abspath, absDir, hne, absOf, startsWith]
  rw [h2, parents_eq exist ignoreFiles hi (fun x hx => hn x (by simp [hx])) hne]

/-- C18 is false: the ignore file in the direct parent of a start directory other than "." is not used. -/
theorem C18_false :
    startIgnores "/w/x".toList (fun p => p = "/w/x/.gitignore".toList) [".gitignore".toList] "a".toList = [] ∧
    startIgnores "/".toList (fun p => p = "/w/x/.gitignore".toList) [".gitignore".toList] "/w/x/a".toList = [] ∧
    startIgnores "/w/x/a".toList (fun p => p = "/w/x/.gitignore".toList) [".gitignore".toList] ".".toList = ["/w/x/.gitignore".toList] := by decide

example : (∀ f ∈ [".gitignore".toList, ".ignore".toList], IsFileName f) ∧ (∀ x ∈ ["w".toList, "x".toList], IsFileName x) := by
  constructor <;> intro f hf <;> simp only [List.mem_cons, List.not_mem_nil, or_false] at hf <;> rcases hf with rfl | rfl <;> exact ⟨by decide, by decide⟩

end FF
