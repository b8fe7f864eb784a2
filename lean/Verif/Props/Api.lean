import Verif.Spec.Api
import Verif.Props.Whole
import Verif.Props.Find
/-! Property C88: searching by means of `Find`. -/
namespace FF
open Spec

/-! ### The plan -/

theorem find_search {M : MainEnv} {f : FindArgs} {p : Plan} (h : M.find f = .search p) :
    ∃ tests0 s w, f.query.tests = some tests0 ∧ (settingsOf (f.ns tests0)).process M.isdir M.cwd = some (s, w) ∧ s.plan M.reg = some p ∧
      (∀ x ∈ p.output, x.modifier = none ∨ x.modifier = some 'n') := by
  unfold MainEnv.find at h
  split at h
  · cases h
  · split at h
    · cases h
    · rename_i tests0 ht
      split at h
      · cases h
      · rename_i s w hs
        split at h
        · cases h
        · rename_i p' hp
          split at h
          · cases h
          · rename_i hm
            cases h
            refine ⟨tests0, s, w, ht, hs, hp, fun x hx => ?_⟩
            rcases Classical.em (x.modifier = none) with h1 | h1
            · exact .inl h1
            · refine .inr (Classical.byContradiction fun h2 => hm (List.any_eq_true.2 ⟨x, hx, ?_⟩))
              simp [h1, h2]

/-- What `Find` searches for. -/
theorem find_plan {M : MainEnv} {f : FindArgs} {p : Plan} (h : M.find f = .search p) {tests0 : List Str} (ht0 : f.query.tests = some tests0) :
    ∃ tests dirs, processDirectories M.isdir M.cwd tests0 f.directories = some (tests, dirs) ∧
      p.tests = (processArguments { (settingsOf (f.ns tests0)).fargs with tests := tests }).tests ∧
      p.exclude = (processArguments { (settingsOf (f.ns tests0)).fargs with tests := tests }).exclude ∧ p.dirs = dirs ∧
      p.absolute = ((settingsOf (f.ns tests0)).fargs.absolutePath || (settingsOf (f.ns tests0)).fargs.json.isSome) ∧
      outputFields M.reg (expandFile M.reg f.output) = some p.output ∧ (outputFields M.reg f.sort).map some = some p.sort ∧ p.reverse = f.reverse := by
  obtain ⟨t', s, w, ht, hs, hp, _⟩ := find_search h
  rw [ht0] at ht
  cases ht
  obtain ⟨tests, dirs, hd, _, hw⟩ := process_some hs
  refine ⟨tests, dirs, hd, ?_⟩
  have h1 := collectWarnings_settings { settingsOf (f.ns tests0) with fargs := processArguments { (settingsOf (f.ns tests0)).fargs with tests := tests }, dirs := dirs }
  rw [hw] at h1
  simp only at h1
  subst h1
  have hcount : (processArguments { (settingsOf (f.ns tests0)).fargs with tests := tests }).count = none := processArguments_uncounted rfl
  have hn : given (none : Option (List Str)) = false := rfl
  have hx : (settingsOf (f.ns tests0)).exec = none := rfl
  have hX : (settingsOf (f.ns tests0)).execBatch = none := rfl
  unfold Settings.plan at hp
  simp only [hcount, hn, hx, hX, Bool.or_self, Bool.false_and, Bool.false_eq_true, if_false] at hp
  split at hp
  · rename_i g1 g2 g3 g4 g5
    cases hp
    exact ⟨rfl, rfl, rfl, processArguments_absolute _, g1, g2, rfl⟩
  · cases hp

/-- What is asked for, by way of the Namespace. -/
theorem findWanted_iff (W : World) (f : FindArgs) (tests0 tests dirs : List Str) (i : EntInfo) :
    FindWanted W f tests dirs i ↔ Wanted W (f.ns tests0) tests dirs i := by
  have hS : findTests W f = asked W (f.ns tests0) := by
    unfold findTests asked caseMeant
    have : f.ns tests0 "case".toList = .str f.case := rfl
    rw [this]
    simp
  have e1 : (settingsOf (f.ns tests0)).fargs.absolutePath = f.absolutePath := rfl
  have e2 : (settingsOf (f.ns tests0)).fargs.json = none := rfl
  have e3 : (settingsOf (f.ns tests0)).fargs.depth = [] := rfl
  have e4 : (f.ns tests0 "follow_symlinks".toList).truthy = f.followSymlinks := rfl
  have e5 : (f.ns tests0 "ignore_files".toList).toWords = f.ignoreFiles := rfl
  have e6 : (settingsOf (f.ns tests0)).fargs.exclude = f.exclude := rfl
  have e7 : (settingsOf (f.ns tests0)).fargs.ignore = f.ignore := rfl
  have e8 : (settingsOf (f.ns tests0)).fargs.hide = f.hide := rfl
  have e9 : (settingsOf (f.ns tests0)).fargs.oneFileSystem = f.oneFileSystem := rfl
  have e10 : ∀ root, outside W (f.ns tests0) root = if f.ignore then startIgnores W.main.cwd W.pathExists f.ignoreFiles root else [] := by
    intro root
    unfold outside
    have h1 : (f.ns tests0 "ignore".toList).truthy = f.ignore := rfl
    have h2 : (f.ns tests0 "no_parent_ignore".toList).truthy = false := rfl
    rw [h1, h2, e5]
    simp
  unfold FindWanted Wanted
  simp only [e1, e2, e3, e4, e5, e10, Option.isSome_none, Bool.or_false, true_or, true_and, hS]
  refine exists_congr fun d => and_congr_right fun _ => exists_congr fun p => and_congr_right fun _ => and_congr_right fun _ => and_congr_right fun _ => ?_
  refine forall_congr' fun q => forall_congr' fun n => imp_congr_right fun _ => ?_
  unfold Avoided
  rw [e6, e7, e8, e9]
  constructor
  · rintro ⟨h1, h2, h3, h4⟩ (⟨t, ht, h⟩ | ⟨g, h⟩ | ⟨g, r, h⟩ | ⟨g, h⟩)
    · rw [h1 t ht] at h; cases h
    · rw [h2 g] at h; cases h
    · exact h3 g r h
    · exact h4 g h
  · intro h
    refine ⟨fun t ht => ?_, fun g => ?_, fun g r hr => h (.inr (.inr (.inl ⟨g, r, hr⟩))), fun g hs => h (.inr (.inr (.inr ⟨g, hs⟩)))⟩
    · rw [← Bool.not_eq_true]; exact fun hh => h (.inl ⟨t, ht, hh⟩)
    · rw [← Bool.not_eq_true]; exact fun hh => h (.inr (.inl ⟨g, hh⟩))

/-! ### Records -/

theorem lookup_dictSet {α : Type} (d : List (Str × α)) (k : Str) (v : α) (x : Str) : (dictSet d k v).lookup x = if x = k then some v else d.lookup x := by
  induction d with
  | nil =>
    unfold dictSet
    by_cases h : x = k
    · subst h; simp
    · rw [if_neg h, List.lookup_cons]
      have : (x == k) = false := by simpa using h
      rw [this]
  | cons p d ih =>
    obtain ⟨a, b⟩ := p
    unfold dictSet
    by_cases h : a = k
    · subst h
      rw [if_pos rfl]
      by_cases hx : x = a
      · subst hx; simp
      · have : (x == a) = false := by simpa using hx
        rw [if_neg hx, List.lookup_cons, List.lookup_cons, this]
    · rw [if_neg h, List.lookup_cons, List.lookup_cons, ih]
      by_cases hx : x = a
      · subst hx
        simp [h]
      · have : (x == a) = false := by simpa using hx
        rw [this]

/-- A record made of fields that have the same value if they have the same label. -/
theorem toDict_lookup (R : RenderEnv) (i : EntInfo) (g : Str → Option Val) (fields : List Field) (hg : ∀ x ∈ fields, R.recordValue i x = g x.label) (d : FindRecord) (k : Str) :
    (fields.foldl (fun d f => dictSet d f.label (R.recordValue i f)) d).lookup k = if k ∈ fields.map Field.label then some (g k) else d.lookup k := by
  induction fields generalizing d with
  | nil => simp
  | cons x xs ih =>
    rw [List.foldl_cons, ih (fun y hy => hg y (by simp [hy])), lookup_dictSet, hg x (by simp)]
    by_cases h : k = x.label
    · subst h; simp
    · simp [h]

theorem mapOption_mem {α β : Type} {f : α → Option β} : ∀ {l : List α} {m : List β}, mapOption f l = some m → ∀ y ∈ m, ∃ x ∈ l, f x = some y := by
  intro l
  induction l with
  | nil => intro m h y hy; cases h; cases hy
  | cons x xs ih =>
    intro m h y hy
    unfold mapOption at h
    split at h
    · cases h
    · rename_i z hz
      split at h
      · cases h
      · rename_i zs hzs
        cases h
        rcases List.mem_cons.1 hy with rfl | hy
        · exact ⟨x, by simp, hz⟩
        · obtain ⟨w, hw, he⟩ := ih hzs y hy
          exact ⟨w, by simp [hw], he⟩

theorem makeField_attr {reg : List PluginDef} {s : Str} {x : Field} (h : makeField reg s = some x) : setupAttribute reg x.label = some x.attr := by
  unfold makeField at h
  split at h
  · cases h
  · split at h
    · cases h
    · rename_i ha
      split at h
      · cases h
      · cases h
        exact ha

theorem find_record {W : World} {f : FindArgs} {p : Plan} (h : W.main.find f = .search p) {tests0 : List Str} (ht0 : f.query.tests = some tests0) (i : EntInfo) :
    IsRecord W f p.output i ((W.render (f.ns tests0)).toDict p.output i) := by
  obtain ⟨_, _, _, _, _, _, hm⟩ := find_search h
  obtain ⟨_, _, _, _, _, _, _, ho, _⟩ := find_plan h ht0
  have hS : (W.render (f.ns tests0)).search = findTests W f := by
    show W.env _ = _
    rw [env_asked]
    unfold findTests asked caseMeant
    have : f.ns tests0 "case".toList = .str f.case := rfl
    rw [this]
    simp
  have hval : ∀ x ∈ p.output, (W.render (f.ns tests0)).recordValue i x = (findTests W f).attr i x.attr := by
    intro x hx
    unfold RenderEnv.recordValue
    rw [hS]
    cases (findTests W f).attr i x.attr with
    | none => rfl
    | some v => rcases hm x hx with e | e <;> rw [e] <;> rfl
  have hattr : ∀ x ∈ p.output, setupAttribute W.main.reg x.label = some x.attr := by
    intro x hx
    obtain ⟨s, _, hs⟩ := mapOption_mem ho x hx
    exact makeField_attr hs
  have key := toDict_lookup (W.render (f.ns tests0)) i (fun k => (setupAttribute W.main.reg k).bind ((findTests W f).attr i)) p.output
    (fun x hx => by rw [hval x hx, hattr x hx]; rfl) []
  refine ⟨fun x hx => ?_, ?_⟩
  · unfold RenderEnv.toDict
    rw [key, if_pos (List.mem_map_of_mem hx), hattr x hx]
    rfl
  · rintro k ⟨v, hv⟩
    unfold RenderEnv.toDict at hv
    rw [key] at hv
    split at hv
    · rename_i hk
      obtain ⟨x, hx, he⟩ := List.mem_map.1 hk
      exact ⟨x, hx, he⟩
    · simp at hv

/-! ### C88 -/

theorem find_received {W : World} {f : FindArgs} {p : Plan} (hf : W.main.find f = .search p) {tests0 tests dirs : List Str} (hq : f.query.tests = some tests0)
    (hd : processDirectories W.main.isdir W.main.cwd tests0 f.directories = some (tests, dirs)) (hP : Proper W (f.ns tests0) tests dirs) (hj : 1 ≤ f.jobs)
    {s : PState} (h : PSteps (W.cfg (f.ns tests0) p) ⟨true, true⟩ (initState (W.startDirs (f.ns tests0) p) f.jobs.toNat) s) (hfin : s.main = .finished) :
    s.collected.Nodup ∧ ∀ i, i ∈ s.collected ↔ FindWanted W f tests dirs i := by
  obtain ⟨t', d', hd', h1, h2, h3, h4, _⟩ := find_plan hf hq
  rw [hd] at hd'
  cases hd'
  subst h3
  rw [← roots_dir] at h
  obtain ⟨_, g1, g2⟩ := C11_complete_partial (W.cfg (f.ns tests0) p) ⟨true, true⟩ rfl rfl (roots_ok hP) (roots_different hP hd) (by omega) h hfin
  exact ⟨g1, fun i => by rw [g2, selected_roots h1 h2 h4 (by intro r hr; cases hr) hP, ← findWanted_iff]⟩

theorem render_find (W : World) (f : FindArgs) (tests0 : List Str) : (W.render (f.ns tests0)).search = findTests W f := by
  show W.env _ = _
  rw [env_asked]
  unfold findTests asked caseMeant
  have : f.ns tests0 "case".toList = .str f.case := rfl
  rw [this]
  simp

theorem all2_map {α β : Type} {R : α → β → Prop} (g : α → β) (l : List α) (h : ∀ x ∈ l, R x (g x)) : All2 R l (l.map g) := by
  induction l with
  | nil => exact .nil
  | cons x xs ih => exact .cons (h x (by simp)) (ih (fun y hy => h y (by simp [hy])))

/-- C88: iterating over `Find` gives a record for each entry that is asked for and for nothing else, each once, in the order of `sort`, if it is given.
Missing: the timing assumption about queues (see `C11_false`); at least one job (see `C88_jobs_false`). -/
theorem C88_entries_partial (W : World) {f : FindArgs} {p : Plan} (hf : W.main.find f = .search p) {tests0 tests dirs : List Str} (hq : f.query.tests = some tests0)
    (hd : processDirectories W.main.isdir W.main.cwd tests0 f.directories = some (tests, dirs)) (hP : Proper W (f.ns tests0) tests dirs) (hj : 1 ≤ f.jobs)
    {s : PState} (h : PSteps (W.cfg (f.ns tests0) p) ⟨true, true⟩ (initState (W.startDirs (f.ns tests0) p) f.jobs.toNat) s) (hfin : s.main = .finished)
    {records : List FindRecord} (hr : W.findRecords (f.ns tests0) p s.collected = some records) :
    ∃ fields es, outputFields W.main.reg (expandFile W.main.reg f.output) = some fields ∧ es.Nodup ∧ (∀ i, i ∈ es ↔ FindWanted W f tests dirs i) ∧
      All2 (IsRecord W f fields) es records ∧
      ∀ R keys, R.search = findTests W f → outputFields W.main.reg f.sort = some keys → (∀ x ∈ keys, x.modifier ≠ some 'v') →
        (∀ e, FindWanted W f tests dirs e → ∀ x ∈ keys, ∀ v, R.search.attr e x.attr = some v → HasType x.type v) →
        es.Pairwise (fun a b => if f.reverse then ¬ Lex SortVal.Before (sortVals R keys a) (sortVals R keys b)
          else ¬ Lex SortVal.Before (sortVals R keys b) (sortVals R keys a)) := by
  obtain ⟨g1, g2⟩ := find_received hf hq hd hP hj h hfin
  obtain ⟨_, _, _, _, _, _, _, hout, hsort, hrev⟩ := find_plan hf hq
  unfold World.findRecords at hr
  have hgiven : (f.ns tests0 "sort".toList).toOptWords = some f.sort := rfl
  rw [hgiven, Option.map_eq_some_iff] at hr
  obtain ⟨es, hes, rfl⟩ := hr
  have hperm : es.Perm s.collected := by
    split at hes
    · cases hs : p.sort with
      | none => rw [hs, C35_unsorted] at hes; cases hes; exact List.Perm.refl _
      | some keys => rw [hs] at hes; exact (C35_permutation _ _ _ _ _ _ hes).1
    · cases hes; exact List.Perm.refl _
  refine ⟨p.output, es, hout, hperm.nodup_iff.2 g1, fun i => by rw [hperm.mem_iff, g2], all2_map _ _ (fun i _ => find_record hf hq i), ?_⟩
  intro R keys hR hk hm ht
  have hs : p.sort = some keys := by
    rw [hk] at hsort
    simp only [Option.map_some, Option.some.injEq] at hsort
    exact hsort.symm
  have hv : ∀ e, sortVals R keys e = sortVals (W.render (f.ns tests0)) keys e := by
    intro e
    unfold sortVals
    rw [render_find, hR]
  simp only [hv]
  rw [hR, ← render_find W f tests0] at ht
  by_cases hg : given (some f.sort) = true
  · rw [if_pos hg] at hes
    obtain ⟨out', k1, _, k3, _⟩ := C35_sorted (W.render (f.ns tests0)) W.digits keys p.reverse s.collected hm (fun e he => ht e ((g2 e).1 he))
    rw [hs, k1] at hes
    cases hes
    rw [hrev] at k3
    exact k3
  · have hnil : f.sort = [] := by
      unfold given at hg
      simpa using hg
    rw [hnil] at hk
    cases hk
    refine List.Pairwise.imp (R := fun _ _ => True) ?_ (List.pairwise_of_forall (fun _ _ => trivial))
    intro a b _
    have : ∀ x y : EntInfo, ¬ Lex SortVal.Before (sortVals (W.render (f.ns tests0)) [] x) (sortVals (W.render (f.ns tests0)) [] y) := by
      intro x y hl
      have key : ∀ a b : List SortVal, Lex SortVal.Before a b → b ≠ [] := by
        intro a b h
        cases h <;> simp
      exact key _ _ hl rfl
    split
    · exact this a b
    · exact this b a

/-- C88: the results of `Find` without sorting are those of the command line with `--jsonl`. Missing: as above and in C87. -/
theorem C88_same_partial (W : World) {f : FindArgs} {p : Plan} (hf : W.main.find f = .search p) {tests0 tests dirs : List Str} (hq : f.query.tests = some tests0)
    (hd : processDirectories W.main.isdir W.main.cwd tests0 f.directories = some (tests, dirs)) (hP : Proper W (f.ns tests0) tests dirs) (hj : 1 ≤ f.jobs)
    {s : PState} (h : PSteps (W.cfg (f.ns tests0) p) ⟨true, true⟩ (initState (W.startDirs (f.ns tests0) p) f.jobs.toNat) s) (hfin : s.main = .finished)
    {records : List FindRecord} (hr : W.findRecords (f.ns tests0) p s.collected = some records)
    {argv : List Str} {p' : Plan} {w : List Warning} (hrun : W.main.run argv = .search p' w) (hm : p'.mode = .console) {ns : NS}
    (hok : parseArgs (ffOptions W.main.arg) W.main.arg.maxCpu argv = .ok ns) (hsame : SameRequest ns f tests0)
    {k : Nat} {s' : IAll} (h' : ASteps (W.cfg ns p') (W.imode ns p') true k (initAll (W.startDirs ns p') (ns "jobs".toList).toJobs) s') (hfin' : s'.finished = true)
    {R : RenderEnv} (hR : RenderAs W ns R) {fields : List Field} (hfields : outputFields W.main.reg (expandFile W.main.reg f.output) = some fields) :
    (s'.done.map (R.toDict fields)).Perm records := by
  obtain ⟨g1, g2⟩ := find_received hf hq hd hP hj h hfin
  obtain ⟨_, _, _, _, _, _, _, hout, hsort, hrev⟩ := find_plan hf hq
  rw [hfields] at hout
  cases hout
  have hd2 : processDirectories W.main.isdir W.main.cwd (settingsOf ns).fargs.tests (settingsOf ns).dirs = some (tests, dirs) := by
    show processDirectories W.main.isdir W.main.cwd (ns "tests".toList).toWords (ns "directories".toList).toWords = _
    rw [hsame.tests, hsame.dirs, hd]
  have henv : W.env ns = W.env (f.ns tests0) := by
    unfold World.env
    rw [hsame.case]
    rfl
  have hP2 : Proper W ns tests dirs := by
    refine ⟨hP.cpus, hP.cwd, hP.cwd2, henv ▸ hP.env, ?_, henv ▸ hP.tests, hP.different, hP.named, hP.trees⟩
    have := hP.exclude
    unfold GoodExclude at this ⊢
    rw [henv]
    have e1 : (settingsOf ns).fargs.exclude = (settingsOf (f.ns tests0)).fargs.exclude := hsame.exclude
    have e2 : (settingsOf ns).fargs.ignore = (settingsOf (f.ns tests0)).fargs.ignore := hsame.ignore
    rw [e1, e2]
    exact this
  obtain ⟨k1, k2, _⟩ := C87_console_partial W hrun hm hok hd2 hP2 h' hfin'
  have hw : ∀ i, Wanted W ns tests dirs i ↔ FindWanted W f tests dirs i := by
    intro i
    rw [findWanted_iff W f tests0]
    have a1 : asked W ns = asked W (f.ns tests0) := by rw [← env_asked, ← env_asked, henv]
    have a2 : (settingsOf ns).fargs.depth = [] := hsame.depth
    have a3 : (settingsOf ns).fargs.exclude = (settingsOf (f.ns tests0)).fargs.exclude := hsame.exclude
    have a4 : (settingsOf ns).fargs.ignore = (settingsOf (f.ns tests0)).fargs.ignore := hsame.ignore
    have a5 : (settingsOf ns).fargs.hide = (settingsOf (f.ns tests0)).fargs.hide := hsame.hide
    have a6 : (settingsOf ns).fargs.oneFileSystem = (settingsOf (f.ns tests0)).fargs.oneFileSystem := hsame.oneFileSystem
    have a7 : ((settingsOf ns).fargs.absolutePath || (settingsOf ns).fargs.json.isSome) = f.absolutePath := hsame.absolute.symm
    have a8 : ((settingsOf (f.ns tests0)).fargs.absolutePath || (settingsOf (f.ns tests0)).fargs.json.isSome) = f.absolutePath := by
      show (f.absolutePath || false) = _
      simp
    have a9 : (ns "follow_symlinks".toList).truthy = (f.ns tests0 "follow_symlinks".toList).truthy := hsame.follow
    have a10 : (ns "ignore_files".toList).toWords = (f.ns tests0 "ignore_files".toList).toWords := hsame.ignoreFiles
    have a11 : ∀ root, outside W ns root = outside W (f.ns tests0) root := by
      intro root
      unfold outside
      have b1 : (ns "ignore".toList).truthy = (f.ns tests0 "ignore".toList).truthy := hsame.ignore
      have b2 : (ns "no_parent_ignore".toList).truthy = (f.ns tests0 "no_parent_ignore".toList).truthy := hsame.parents
      rw [b1, b2, a10]
    have a12 : (settingsOf (f.ns tests0)).fargs.depth = [] := rfl
    unfold Wanted Avoided
    simp only [a1, a2, a3, a4, a5, a6, a7, a8, a9, a10, a11, a12]
  have hp : s'.done.Perm s.collected := by
    rw [List.perm_ext_iff_of_nodup k1 g1]
    intro i
    rw [k2, hw, g2]
  unfold World.findRecords at hr
  rw [Option.map_eq_some_iff] at hr
  obtain ⟨es, hes, rfl⟩ := hr
  have hperm : es.Perm s.collected := by
    split at hes
    · cases hs : p.sort with
      | none => rw [hs, C35_unsorted] at hes; cases hes; exact List.Perm.refl _
      | some keys => rw [hs] at hes; exact (C35_permutation _ _ _ _ _ _ hes).1
    · cases hes; exact List.Perm.refl _
  have hdict : R.toDict p.output = (W.render (f.ns tests0)).toDict p.output := by
    funext i
    rw [renders_iff] at hR
    subst hR
    unfold RenderEnv.toDict RenderEnv.recordValue
    have c1 : (W.render ns).search = (W.render (f.ns tests0)).search := henv
    have c2 : (W.render ns).out = (W.render (f.ns tests0)).out := by
      show OutEnv.mk _ _ = OutEnv.mk _ _
      rw [hsame.si]
      rfl
    rw [c1, c2]
  rw [hdict]
  exact (hp.trans hperm.symm).map _

/-- C88: values are refused as documented: an unknown `case`, fields with other modifiers than `n`, a query that can not be split. -/
theorem C88_refused (M : MainEnv) (f : FindArgs) :
    (f.case ∉ ["smart".toList, "ignore".toList, "sensitive".toList] → M.find f = .valueError) ∧
    (∀ p, M.find f = .search p → ∀ x ∈ p.output, x.modifier = none ∨ x.modifier = some 'n') := by
  refine ⟨fun h => ?_, fun p hp => ?_⟩
  · unfold MainEnv.find
    rw [if_pos h]
  · obtain ⟨_, _, _, _, _, _, h⟩ := find_search hp
    exact h

/-- C88 fails with `jobs=0`: whatever there is to be found, the iteration ends without any record. -/
theorem C88_jobs_false (cfg : WalkCfg) (roots : List DirT) : ∃ s, PSteps cfg ⟨true, true⟩ (initState roots 0) s ∧ s.main = .finished ∧ s.collected = [] := by
  refine ⟨⟨roots.map (fun d => .dirs [d]), [], [], .finished, [], []⟩, ?_, rfl, rfl⟩
  have h1 : PStep cfg ⟨true, true⟩ (initState roots 0) ⟨roots.map (fun d => .dirs [d]), [], [], .waiting true, [], []⟩ :=
    .mainEmpty (fun _ => ⟨rfl, by simp⟩)
  exact .step (.step .refl h1) (.barrier (by simp) (fun _ => rfl))

/-! ### A search that meets the hypotheses -/

/-- `Find("depth=1", output=["path", "size"], hide=True, absolute_path=True)`. -/
def demoFind : FindArgs :=
  { query := .text "depth=1".toList, directories := [".".toList], exclude := [], output := ["path".toList, "size".toList], sort := [], reverse := false, hide := true,
    ignore := false, ignoreFiles := [".ignore".toList], oneFileSystem := false, case := "smart".toList, si := false, followSymlinks := false, absolutePath := true, jobs := 2 }

set_option maxRecDepth 50000 in
set_option maxHeartbeats 4000000 in
theorem demoFind_search : ∃ p, demoWorld.main.find demoFind = .search p ∧ demoFind.query.tests = some ["depth=1".toList] ∧
    processDirectories demoWorld.main.isdir demoWorld.main.cwd ["depth=1".toList] demoFind.directories = some (["depth=1".toList], [".".toList]) ∧
    outputFields demoWorld.main.reg (expandFile demoWorld.main.reg demoFind.output) = some p.output :=
  ⟨_, rfl, rfl, rfl, rfl⟩

set_option maxRecDepth 50000 in
set_option maxHeartbeats 4000000 in
/-- `ff depth=1 -H --ignore-files .ignore --jsonl -o path,size`. -/
theorem demoFind_run : ∃ p w ns, demoWorld.main.run (["depth=1", "-H", "-D", ".", "--ignore-files", ".ignore", "--jsonl", "-o", "path,size"].map String.toList) = .search p w ∧ p.mode = .console ∧
    parseArgs (ffOptions demoWorld.main.arg) demoWorld.main.arg.maxCpu (["depth=1", "-H", "-D", ".", "--ignore-files", ".ignore", "--jsonl", "-o", "path,size"].map String.toList) = .ok ns ∧
    SameRequest ns demoFind ["depth=1".toList] :=
  ⟨_, _, _, rfl, rfl, rfl, ⟨rfl, rfl, rfl, rfl, rfl, rfl, rfl, rfl, rfl, rfl, rfl, rfl, rfl, rfl⟩⟩

/-- The hypotheses of C88 are met. -/
example : ∃ p tests0 tests dirs s records, demoWorld.main.find demoFind = .search p ∧ demoFind.query.tests = some tests0 ∧
    processDirectories demoWorld.main.isdir demoWorld.main.cwd tests0 demoFind.directories = some (tests, dirs) ∧ Proper demoWorld (demoFind.ns tests0) tests dirs ∧
    PSteps (demoWorld.cfg (demoFind.ns tests0) p) ⟨true, true⟩ (initState (demoWorld.startDirs (demoFind.ns tests0) p) demoFind.jobs.toNat) s ∧ s.main = .finished ∧
    demoWorld.findRecords (demoFind.ns tests0) p s.collected = some records ∧
    ∃ argv p' w ns k s', demoWorld.main.run argv = .search p' w ∧ p'.mode = .console ∧ parseArgs (ffOptions demoWorld.main.arg) demoWorld.main.arg.maxCpu argv = .ok ns ∧
      SameRequest ns demoFind tests0 ∧
      ASteps (demoWorld.cfg ns p') (demoWorld.imode ns p') true k (initAll (demoWorld.startDirs ns p') (ns "jobs".toList).toJobs) s' ∧ s'.finished = true := by
  obtain ⟨p, h1, h2, h3, _⟩ := demoFind_search
  have hP : Proper demoWorld (demoFind.ns ["depth=1".toList]) ["depth=1".toList] [".".toList] := demoWorld_proper rfl rfl
  obtain ⟨s, hs, hf⟩ := C86_collect_no_deadlock (demoWorld.cfg (demoFind.ns ["depth=1".toList]) p) ⟨true, true⟩ (demoWorld.roots (demoFind.ns ["depth=1".toList]) p)
    (n := demoFind.jobs.toNat) (by decide) .refl
  rw [roots_dir] at hs
  obtain ⟨p', w, ns, g1, g2, g3, g4⟩ := demoFind_run
  obtain ⟨k, s', hs', hf'⟩ := C86_no_deadlock (demoWorld.cfg ns p') (demoWorld.imode ns p') true (demoWorld.roots ns p') (jobs_pos hP.cpus g3) .refl
  rw [roots_dir] at hs'
  exact ⟨p, _, _, _, s, _, h1, h2, h3, hP, hs, hf, rfl, _, p', w, ns, k, s', g1, g2, g3, g4, hs', hf'⟩

end FF
