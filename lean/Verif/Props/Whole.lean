import Verif.Spec.Whole
import Verif.Lemmas.Namespace
import Verif.Props.Main
import Verif.Props.Search
import Verif.Props.Immediate
import Verif.Props.Print
import Mathlib.Tactic.SplitIfs
import Verif.Props.Sort
import Verif.Props.Json
import Verif.Props.Limit
import Verif.Props.Field
/-! Property C87: from the command line to the output. -/
namespace FF
open Spec

/-! ### Settings for which every command line gives a proper value -/

theorem ffOptions_jobs (env : ArgEnv) : ∀ o ∈ ffOptions env, o.dest = "jobs".toList → o.action = .store ∧ o.type = .jobs := by
  intro o ho hd
  exact opt_all (fun x => x.1 = "jobs".toList → x.2.1 = .store ∧ x.2.2 = .jobs) (by intro d; cases d <;> decide) env ho hd

theorem ffOptions_depth (env : ArgEnv) : ∀ o ∈ ffOptions env, o.dest = "depth".toList → o.action = .store ∧ o.type = .ranges := by
  intro o ho hd
  exact opt_all (fun x => x.1 = "depth".toList → x.2.1 = .store ∧ x.2.2 = .ranges) (by intro d; cases d <;> decide) env ho hd

theorem splitOn_parts (c : Char) (s : Str) : (∀ p ∈ splitOn c s, c ∉ p) ∧ splitOn c s ≠ [] ∧ s = joinWith c (splitOn c s) := by
  induction s with
  | nil => simp [splitOn, joinWith]
  | cons x s ih =>
    obtain ⟨i1, i2, i3⟩ := ih
    simp only [splitOn]
    by_cases hx : x = c
    · subst hx
      simp only [if_true]
      refine ⟨?_, by simp, ?_⟩
      · intro p hp; rcases List.mem_cons.1 hp with rfl | hp
        · simp
        · exact i1 p hp
      · cases hq : splitOn x s with
        | nil => exact absurd hq i2
        | cons w ws => rw [hq] at i3; simp [joinWith, ← i3]
    · simp only [hx, if_false]
      cases hq : splitOn c s with
      | nil => exact absurd hq i2
      | cons w ws =>
        rw [hq] at i3 i1
        simp only
        refine ⟨?_, by simp, ?_⟩
        · intro p hp; rcases List.mem_cons.1 hp with rfl | hp
          · simp only [List.mem_cons, not_or]; exact ⟨Ne.symm hx, i1 w (by simp)⟩
          · exact i1 p (by simp [hp])
        · cases ws with
          | nil => simp only [joinWith] at i3 ⊢; rw [i3]
          | cons v vs => simp only [joinWith] at i3 ⊢; rw [i3]; rfl

theorem all2_right {α β : Type} {R : α → β → Prop} {as : List α} {bs : List β} (h : All2 R as bs) : ∀ b ∈ bs, ∃ a ∈ as, R a b := by
  induction h with
  | nil => intro b hb; cases hb
  | cons hr _ ih =>
    intro b hb
    rcases List.mem_cons.1 hb with rfl | hb
    · exact ⟨_, by simp, hr⟩
    · obtain ⟨a, ha, h⟩ := ih b hb
      exact ⟨a, by simp [ha], h⟩

/-- The number of processes is at least one. -/
theorem jobs_pos {env : ArgEnv} (hc : 1 ≤ env.maxCpu) {argv : List Str} {ns : NS} (h : parseArgs (ffOptions env) env.maxCpu argv = .ok ns) :
    0 < (ns "jobs".toList).toJobs := by
  refine parse_keeps (P := fun v => 0 < v.toJobs) (key := "jobs".toList) ?_ ?_ h
  · intro o ho hd
    obtain ⟨h1, h2⟩ := ffOptions_jobs env o ho hd
    unfold Stores
    rw [h1]
    simp only
    intro v x hx
    rw [h2] at hx
    simp only [OptType.conv] at hx
    split at hx
    · cases hx
    · rename_i n hn
      cases hx
      have := ((C57_jobs env.maxCpu hc v).2 n hn).1
      simp only [NVal.toJobs]
      omega
  · have : initNS (ffOptions env) "jobs".toList = .int env.maxCpu := by
      obtain ⟨d, m, c, n⟩ := env
      cases d <;> rfl
    rw [this]
    simp only [NVal.toJobs]
    omega

/-- The ranges of depths are proper ranges. -/
theorem depth_good {env : ArgEnv} {argv : List Str} {ns : NS} (h : parseArgs (ffOptions env) env.maxCpu argv = .ok ns) :
    GoodRanges (settingsOf ns).fargs.depth := by
  show GoodRanges (ns "depth".toList).toRanges
  refine parse_keeps (P := fun v => GoodRanges v.toRanges) (key := "depth".toList) ?_ ?_ h
  · intro o ho hd
    obtain ⟨h1, h2⟩ := ffOptions_depth env o ho hd
    unfold Stores
    rw [h1]
    simp only
    intro v x hx
    rw [h2] at hx
    simp only [OptType.conv] at hx
    split at hx
    · cases hx
    · rename_i l hl
      cases hx
      simp only [NVal.toRanges]
      intro r hr
      obtain ⟨s1, s2, s3⟩ := splitOn_parts ',' v
      rw [s3] at hl
      obtain ⟨p, hp, hpr⟩ := all2_right ((C58_ranges s2 s1 l).1 hl) r hr
      exact C58_ordered hpr
  · have : initNS (ffOptions env) "depth".toList = .unset := by
      obtain ⟨d, m, c, n⟩ := env
      cases d <;> rfl
    rw [this]
    intro r hr
    cases hr

/-! ### The plan -/

theorem processArguments_absolute (a : FArgs) : (processArguments a).absolutePath = (a.absolutePath || a.json.isSome) := by
  unfold processArguments
  by_cases h1 : a.json.isSome <;> by_cases h2 : a.ignore <;> by_cases h3 : a.oneFileSystem <;> by_cases h4 : a.hide <;> by_cases h5 : a.depth = [] <;>
    simp only [h1, h2, h3, h4, h5, if_true, if_false, ne_eq, not_true_eq_false, not_false_eq_true, Bool.false_eq_true] <;> split <;> simp [h1]

/-- What a run searches for. -/
theorem search_plan {M : MainEnv} {argv : List Str} {p : Plan} {w : List Warning} (hr : M.run argv = .search p w) {ns : NS}
    (hok : parseArgs (ffOptions M.arg) M.arg.maxCpu argv = .ok ns) :
    ∃ tests dirs, processDirectories M.isdir M.cwd (settingsOf ns).fargs.tests (settingsOf ns).dirs = some (tests, dirs) ∧
      let a := { (settingsOf ns).fargs with tests := tests }
      p.tests = (processArguments a).tests ∧ p.exclude = (processArguments a).exclude ∧ p.dirs = dirs ∧
      p.absolute = (a.absolutePath || a.json.isSome) := by
  obtain ⟨ns', s', hok', hp, hpl, _⟩ := run_search hr
  rw [hok] at hok'
  cases hok'
  obtain ⟨tests, dirs, hd, _, hw⟩ := process_some hp
  refine ⟨tests, dirs, hd, ?_⟩
  have h1 := collectWarnings_settings { settingsOf ns with fargs := processArguments { (settingsOf ns).fargs with tests := tests }, dirs := dirs }
  rw [hw] at h1
  simp only at h1
  subst h1
  unfold Settings.plan at hpl
  split at hpl
  · cases hpl
    exact ⟨rfl, rfl, rfl, processArguments_absolute _⟩
  · cases hpl

/-! ### What is asked for -/

theorem holds_iff (S : SearchEnv) (i : EntInfo) (w : Str) : holds S i w = true ↔ ∃ t, S.parseTest w = .ok t ∧ S.outcome i t = some true := by
  unfold holds
  cases S.parseTest w with
  | ok t => simp
  | error e => simp

theorem holds_eq (S : SearchEnv) (i : EntInfo) : holds S i = wordTrue S.parseTest (S.outcome i) := by
  funext w
  unfold holds wordTrue
  cases S.parseTest w with
  | ok t => rw [Bool.eq_iff_iff]; simp
  | error e => rfl

theorem kept_iff {S : SearchEnv} {ts : List Str} (h : GoodExpression S ts) (i : EntInfo) : S.kept ts i = true ↔ Meets S ts i := by
  unfold SearchEnv.kept Meets
  rcases h with rfl | ⟨f, hf, ha⟩
  · rw [C01_empty]; simp
  · rw [C01_boolean_semantics S.parseTest S.speed _ _ hf ha, holds_eq]
    constructor
    · intro h; exact .inr ⟨f, hf, h⟩
    · rintro (h | ⟨g, hg, h⟩)
      · exact absurd h (derives_ne_nil hf)
      · rw [C01_unambiguous ts f g hf hg]; exact h

/-- What the excluder refuses, for an entry with this name. -/
theorem excl_iff {S : SearchEnv} (hS : S.Ok) {s : Settings} {tests : List Str} (hex : GoodExclude S s.fargs) (isIgn : Str → Bool) (jobs : Nat) (slow : Bool)
    {i : EntInfo} {name : Str} (hn : i.entry.name = name) :
    (S.search isIgn jobs slow { s.fargs with tests := tests, depth := [] }).excl i = true ↔ Avoided S s i name := by
  have hhide : S.attr i ("file".toList, "hide".toList) = some (.bool true) ↔ ∃ r, name = '.' :: r := by
    have : S.attr i ("file".toList, "hide".toList) = (i.entry.hide).map .bool := rfl
    rw [this]
    unfold Entry.hide
    rw [hn]
    cases name with
    | nil => simp
    | cons c cs => simp
  have hsame : S.attr i ("file".toList, "samedev".toList) = S.stat i "samedev".toList := rfl
  have hg : GoodTests S s.fargs.exclude ∧ GoodTests S (if s.fargs.ignore then ["ignored=yes".toList] else []) := goodTests_append.1 hex
  rw [search_excl hS (a := { s.fargs with tests := tests, depth := [] }) hex (by intro r hr; cases hr), hhide, hsame, excluded_append hg.1 hg.2, Bool.or_eq_true,
    excluded_iff hg.1, excluded_iff hg.2]
  unfold Avoided
  simp only [holds_iff, ne_eq, not_true_eq_false, false_and, or_false]
  have e : (∃ t ∈ (if s.fargs.ignore = true then ["ignored=yes".toList] else []), ∃ x, S.parseTest t = .ok x ∧ S.outcome i x = some true) ↔
      (s.fargs.ignore = true ∧ ∃ x, S.parseTest "ignored=yes".toList = .ok x ∧ S.outcome i x = some true) := by
    split
    · rename_i h; simp [h]
    · rename_i h; simp [h]
  rw [e]
  constructor
  · rintro (((h | h) | h) | h)
    · exact .inl h
    · exact .inr (.inl h)
    · exact .inr (.inr (.inr h))
    · exact .inr (.inr (.inl h))
  · rintro (h | h | h | h)
    · exact .inl (.inl (.inl h))
    · exact .inl (.inl (.inr h))
    · exact .inr h
    · exact .inl (.inr h)

/-- The entries a search selects in a tree are those that are asked for. -/
theorem selected_wanted {S : SearchEnv} (hS : S.Ok) {s : Settings} {tests : List Str} (hex : GoodExclude S s.fargs) (hr : GoodRanges s.fargs.depth)
    (ht : GoodExpression S tests) (isIgn : Str → Bool) (jobs : Nat) (slow : Bool) {start : Start} (hroot : start.root ≠ []) (base : List Str)
    {kids : List FNode} (hg : GoodTree kids) (i : EntInfo) :
    Selected (S.search isIgn jobs slow { s.fargs with tests := tests }) start base kids i ↔
      ∃ p, Chain kids p ∧ i = entryAt isIgn start base kids p ∧ Meets S tests i ∧
        (s.fargs.depth = [] ∨ ∃ r ∈ s.fargs.depth, InRange ((p.length : Int) - 1) r) ∧
        ∀ q n, q ++ [n] <+: p → ¬ Avoided S s (entryAt isIgn start base kids (q ++ [n])) n.name := by
  have hlen : ∀ p, Chain kids p → (splitOn '/' (entryAt isIgn start base kids p).relpath).length = p.length := by
    intro p hp
    rw [show splitOn '/' (entryAt isIgn start base kids p).relpath = p.map FNode.name from splitOn_pathOf (by simpa using chain_ne_nil hp) (by
      intro x hx; obtain ⟨m, hm, rfl⟩ := List.mem_map.1 hx; exact (goodTree_chain hg hp m hm).2), List.length_map]
  have main : Selected (S.search isIgn jobs slow { s.fargs with tests := tests, depth := [] }) start base kids i ↔
      ∃ p, Chain kids p ∧ i = entryAt isIgn start base kids p ∧ Meets S tests i ∧
        ∀ q n, q ++ [n] <+: p → ¬ Avoided S s (entryAt isIgn start base kids (q ++ [n])) n.name := by
    have hk : (S.search isIgn jobs slow { s.fargs with tests := tests, depth := [] }).keep i = true ↔ Meets S tests i := by
      show S.kept _ i = true ↔ _
      rw [processArguments_tests]
      simp only [ne_eq, not_true_eq_false, if_false]
      exact kept_iff ht i
    have he : ∀ p, Chain kids p → ∀ q n, q ++ [n] <+: p →
        ((S.search isIgn jobs slow { s.fargs with tests := tests, depth := [] }).excl (entryAt isIgn start base kids (q ++ [n])) = true ↔
          Avoided S s (entryAt isIgn start base kids (q ++ [n])) n.name) := by
      intro p hp q n hq
      exact excl_iff hS hex isIgn jobs slow (entryAt_entry_name hroot base kids isIgn (fun m hm => goodTree_chain hg hp m (hq.subset hm)))
    unfold Selected
    constructor
    · rintro ⟨p, hp, hi, h1, h2⟩
      refine ⟨p, hp, hi, hk.1 h1, fun q n hq hav => ?_⟩
      have := h2 (q ++ [n]) (by simp) hq
      rw [← Bool.not_eq_true] at this
      exact this ((he p hp q n hq).2 hav)
    · rintro ⟨p, hp, hi, h1, h2⟩
      refine ⟨p, hp, hi, hk.2 h1, fun q hq0 hq => ?_⟩
      obtain ⟨u, n, rfl⟩ : ∃ u n, q = u ++ [n] := ⟨q.dropLast, q.getLast hq0, (List.dropLast_concat_getLast hq0).symm⟩
      rw [← Bool.not_eq_true]
      intro hx
      exact h2 u n hq ((he p hp u n hq).1 hx)
  by_cases hd : s.fargs.depth = []
  · have : ({ s.fargs with tests := tests } : FArgs) = { s.fargs with tests := tests, depth := [] } := by
      cases hf : s.fargs; rw [hf] at hd; simp only at hd; subst hd; rfl
    rw [this, main]
    simp only [hd, true_or, true_and]
  · have := C10_depth hS { s.fargs with tests := tests } hex hd hr ht isIgn jobs slow start base hg i
    have e : ({ ({ s.fargs with tests := tests } : FArgs) with depth := s.fargs.depth }) = { s.fargs with tests := tests } := rfl
    rw [e] at this
    rw [this]
    have e' : ({ ({ s.fargs with tests := tests } : FArgs) with depth := [] }) = { s.fargs with tests := tests, depth := [] } := rfl
    rw [e', main]
    simp only [hd, false_or]
    constructor
    · rintro ⟨⟨p, hp, rfl, h1, h2⟩, r, hrm, hin⟩
      rw [hlen p hp] at hin
      exact ⟨p, hp, rfl, h1, ⟨r, hrm, hin⟩, h2⟩
    · rintro ⟨p, hp, rfl, h1, ⟨r, hrm, hin⟩, h2⟩
      refine ⟨⟨p, hp, rfl, h1, h2⟩, r, hrm, ?_⟩
      rw [hlen p hp]; exact hin

/-! ### The directories -/

/-- What is assumed of a run: at least one CPU, an absolute working directory, accepted tests and exclude tests, different directories, and proper
trees below them. -/
structure Proper (W : World) (ns : NS) (tests dirs : List Str) : Prop where
  cpus : 1 ≤ W.main.arg.maxCpu
  cwd : ∃ r, W.main.cwd = '/' :: r
  cwd2 : ¬ TwoSlashes W.main.cwd
  env : (W.env ns).Ok
  exclude : GoodExclude (W.env ns) (settingsOf ns).fargs
  tests : GoodExpression (W.env ns) tests
  different : dirs.Nodup
  named : ∀ d ∈ dirs, d ≠ [] ∧ ¬ TwoSlashes d
  trees : ∀ f d, GoodTree (W.tree f d)

theorem join_target_not_two (cwd d : Str) : ¬ TwoSlashes ('/' :: joinWith '/' (target cwd d)) := by
  rintro ⟨r, hr, _⟩
  have hc := target_comps cwd d
  cases ht : target cwd d with
  | nil => rw [ht] at hr; simp [joinWith] at hr
  | cons c cs =>
    rw [ht] at hr hc
    obtain ⟨h1, _, h3⟩ := hc c (by simp)
    cases c with
    | nil => exact h1 rfl
    | cons x xs =>
      have hx : x ≠ '/' := fun e => h3 (by simp [e])
      cases cs with
      | nil => simp [joinWith] at hr; exact hx hr.1
      | cons y ys => simp [joinWith] at hr; exact hx hr.1

/-- The search directories. -/
def World.roots (W : World) (ns : NS) (p : Plan) : List Root :=
  p.dirs.map (fun d => ⟨W.start p.absolute d, W.outerIgnores ns (W.start p.absolute d).root,
    W.tree (ns "follow_symlinks".toList).truthy (W.start p.absolute d).root⟩)

theorem roots_dir (W : World) (ns : NS) (p : Plan) : (W.roots ns p).map Root.dir = W.startDirs ns p := by
  unfold World.roots World.startDirs
  rw [List.map_map]
  rfl

theorem roots_ok {W : World} {ns : NS} {tests : List Str} {p : Plan} (h : Proper W ns tests p.dirs) : ∀ r ∈ W.roots ns p, r.Ok := by
  intro r hr
  obtain ⟨d, hd, rfl⟩ := List.mem_map.1 hr
  have hne : ∀ x, ¬ TwoSlashes x → absNorm W.main.cwd x ≠ [] := by
    intro x hx
    rw [absNorm_target h.cwd h.cwd2 hx]
    simp
  obtain ⟨h1, h2⟩ := h.named d hd
  refine ⟨?_, ?_, h.trees _ _⟩
  · show startRoot _ _ _ ≠ []
    unfold startRoot
    split
    · exact hne d h2
    · exact h1
  · show absNorm _ (startRoot _ _ _) ≠ []
    unfold startRoot
    split
    · refine hne _ ?_
      rw [absNorm_target h.cwd h.cwd2 h2]
      exact join_target_not_two _ _
    · exact hne d h2

theorem roots_different {W : World} {ns : NS} {tests0 dirs0 tests : List Str} {p : Plan} (h : Proper W ns tests p.dirs)
    (hd : processDirectories W.main.isdir W.main.cwd tests0 dirs0 = some (tests, p.dirs)) : ((W.roots ns p).map Root.start).Nodup := by
  have hp := C56_disjoint_partial h.cwd h.cwd2 hd (fun d hd => (h.named d hd).2) h.different
  unfold World.roots
  rw [List.map_map]
  unfold List.Nodup
  rw [List.pairwise_map]
  refine (List.Pairwise.and_mem.1 (hp.and h.different)).imp ?_
  rintro a b ⟨ha, hb, ⟨h1, _⟩, h3⟩ he
  have he : startRoot p.absolute W.main.cwd a = startRoot p.absolute W.main.cwd b := congrArg Start.root he
  unfold startRoot at he
  split at he
  · rw [absNorm_target h.cwd h.cwd2 (h.named a ha).2, absNorm_target h.cwd h.cwd2 (h.named b hb).2] at he
    simp only [List.cons.injEq, true_and] at he
    have := joinWith_inj (target_comps _ _) (target_comps _ _) he
    exact h1 (by rw [this]; exact List.prefix_rfl)
  · exact h3 he

theorem foldl_follow_no_dots : ∀ (cs : List Str) (acc : List Str), (∀ c ∈ acc, c ≠ ['.', '.']) → ∀ c ∈ cs.foldl follow acc, c ≠ ['.', '.'] := by
  intro cs
  induction cs with
  | nil => intro acc h; exact h
  | cons c cs ih =>
    intro acc h
    refine ih _ ?_
    intro x hx
    unfold follow at hx
    split_ifs at hx with h1 h2
    · exact h x hx
    · exact h x (List.dropLast_subset _ hx)
    · rcases List.mem_append.1 hx with hx | hx
      · exact h x hx
      · simp only [List.mem_singleton] at hx; subst hx; exact h2

theorem target_no_dots (cwd path : Str) : ∀ c ∈ target cwd path, c ≠ ['.', '.'] := by
  unfold target
  split
  · exact foldl_follow_no_dots _ [] (by simp)
  · exact foldl_follow_no_dots _ _ (foldl_follow_no_dots _ [] (by simp))

theorem foldl_follow_plain : ∀ (cs acc : List Str), (∀ c ∈ cs, c ≠ [] ∧ c ≠ ['.'] ∧ c ≠ ['.', '.']) → cs.foldl follow acc = acc ++ cs := by
  intro cs
  induction cs with
  | nil => intro acc _; simp
  | cons c cs ih =>
    intro acc h
    obtain ⟨h1, h2, h3⟩ := h c (by simp)
    rw [List.foldl_cons, ih _ (fun x hx => h x (by simp [hx]))]
    simp [follow, h1, h2, h3]

/-- The absolute path of a directory leads to it. -/
theorem target_absolute (cwd d : Str) : target cwd ('/' :: joinWith '/' (target cwd d)) = target cwd d := by
  have hc := target_comps cwd d
  have hd := target_no_dots cwd d
  generalize target cwd d = cs at hc hd
  unfold target
  simp only
  cases cs with
  | nil => rfl
  | cons c cs =>
    have h1 : splitOn '/' ('/' :: joinWith '/' (c :: cs)) = [] :: c :: cs := by
      have := splitOn_append_sep '/' [] (joinWith '/' (c :: cs)) (by simp)
      rw [splitOn_joinWith (by simp) (fun x hx => (hc x hx).2.2)] at this
      exact this
    rw [h1, List.foldl_cons]
    exact foldl_follow_plain _ _ (fun x hx => ⟨(hc x hx).1, (hc x hx).2.1, hd x hx⟩)

theorem env_asked (W : World) (ns : NS) : W.env ns = asked W ns := by
  unfold World.env asked caseMeant caseOf
  cases h : ns "case".toList <;> simp

theorem outerIgnores_outside (W : World) (ns : NS) (root : Str) : W.outerIgnores ns root = outside W ns root := by
  unfold World.outerIgnores outside
  cases (ns "ignore".toList).truthy <;> cases (ns "no_parent_ignore".toList).truthy <;> simp

theorem start_beginning {W : World} {ns : NS} {tests dirs : List Str} (h : Proper W ns tests dirs) {d : Str} (hd : d ∈ dirs) (absolute : Bool) :
    W.start absolute d = beginning W absolute d := by
  obtain ⟨_, h2⟩ := h.named d hd
  unfold World.start beginning startRoot
  cases absolute with
  | false => simp only [Bool.false_eq_true, if_false]; rw [absNorm_target h.cwd h.cwd2 h2]
  | true =>
    simp only [if_true]
    rw [absNorm_target h.cwd h.cwd2 h2, absNorm_target h.cwd h.cwd2 (join_target_not_two _ _), target_absolute]

/-- What is selected in the search directories is what is asked for. -/
theorem selected_roots {W : World} {ns : NS} {p : Plan} {tests : List Str}
    (h1 : p.tests = (processArguments { (settingsOf ns).fargs with tests := tests }).tests)
    (h2 : p.exclude = (processArguments { (settingsOf ns).fargs with tests := tests }).exclude)
    (h4 : p.absolute = ((settingsOf ns).fargs.absolutePath || (settingsOf ns).fargs.json.isSome))
    (hdepth : GoodRanges (settingsOf ns).fargs.depth) (hP : Proper W ns tests p.dirs) (i : EntInfo) :
    (∃ r ∈ W.roots ns p, Selected (W.cfg ns p) r.start r.base r.kids i) ↔ Wanted W ns tests p.dirs i := by
  have hcfg : W.cfg ns p = (W.env ns).search (isIgnoreName ns) (ns "jobs".toList).toJobs W.slow { (settingsOf ns).fargs with tests := tests } := by
    unfold World.cfg SearchEnv.search
    rw [h1, h2]
  rw [hcfg]
  have hok' := roots_ok hP
  have key : ∀ d ∈ p.dirs, Selected ((W.env ns).search (isIgnoreName ns) (ns "jobs".toList).toJobs W.slow { (settingsOf ns).fargs with tests := tests })
      (W.start p.absolute d) (W.outerIgnores ns (W.start p.absolute d).root) (W.tree (ns "follow_symlinks".toList).truthy (W.start p.absolute d).root) i ↔ _ :=
    fun d hdm => selected_wanted hP.env hP.exclude hdepth hP.tests (isIgnoreName ns) _ W.slow
      (hok' ⟨W.start p.absolute d, W.outerIgnores ns (W.start p.absolute d).root, W.tree (ns "follow_symlinks".toList).truthy (W.start p.absolute d).root⟩
        (List.mem_map.2 ⟨d, hdm, rfl⟩)).1 _ (hP.trees _ _) i
  unfold Wanted
  simp only
  rw [← h4]
  simp only [← env_asked, ← outerIgnores_outside]
  constructor
  · rintro ⟨r, hrm, hs⟩
    obtain ⟨d, hdm, rfl⟩ := List.mem_map.1 hrm
    refine ⟨d, hdm, ?_⟩
    rw [← start_beginning hP hdm]
    exact (key d hdm).1 hs
  · rintro ⟨d, hdm, hs⟩
    rw [← start_beginning hP hdm] at hs
    exact ⟨_, List.mem_map.2 ⟨d, hdm, rfl⟩, (key d hdm).2 hs⟩

theorem roots_wanted {W : World} {argv : List Str} {p : Plan} {w : List Warning} (hr : W.main.run argv = .search p w) {ns : NS}
    (hok : parseArgs (ffOptions W.main.arg) W.main.arg.maxCpu argv = .ok ns) {tests dirs : List Str}
    (hd : processDirectories W.main.isdir W.main.cwd (settingsOf ns).fargs.tests (settingsOf ns).dirs = some (tests, dirs)) (hP : Proper W ns tests dirs) :
    p.dirs = dirs ∧ ∀ i, (∃ r ∈ W.roots ns p, Selected (W.cfg ns p) r.start r.base r.kids i) ↔ Wanted W ns tests dirs i := by
  obtain ⟨t', d', hd', h1, h2, h3, h4⟩ := search_plan hr hok
  rw [hd] at hd'
  cases hd'
  subst h3
  exact ⟨rfl, fun i => selected_roots h1 h2 h4 (depth_good hok) hP i⟩

theorem renders_iff (W : World) (ns : NS) (R : RenderEnv) : RenderAs W ns R ↔ R = W.render ns := by
  unfold RenderAs World.render
  rw [env_asked]
  constructor
  · rintro ⟨h1, h2, h3, h4⟩
    obtain ⟨s, ⟨si, z⟩, a⟩ := R
    simp only at h1 h2 h3 h4
    subst h1 h3
    rw [Bool.eq_iff_iff.2 h2, Bool.eq_iff_iff.2 h4]
  · rintro rfl
    simp

theorem fieldSeparator_unescaped (s : Str) : fieldSeparator s = unescaped s := by
  unfold fieldSeparator
  induction s using unescaped.induct with
  | case1 s ih => rw [unescaped, ← ih]; simp only [replace2, and_self, if_true]; cases replace2 '\\' 't' '\t' s <;> simp [replace2]
  | case2 s ih =>
    rw [unescaped, ← ih]
    have h1 : ∀ s, replace2 '\\' 't' '\t' ('n' :: s) = 'n' :: replace2 '\\' 't' '\t' s := by intro s; cases s <;> simp [replace2]
    simp [replace2, h1]
  | case3 c s h1 h2 ih =>
    rw [unescaped, ← ih]
    · cases s with
      | nil => simp [replace2]
      | cons y rest =>
        have hn : ¬ (c = '\\' ∧ y = 't') := fun ⟨e1, e2⟩ => h1 rest e1 (by rw [e2])
        rw [replace2, if_neg hn]
        have hm : ∀ z zs, replace2 '\\' 't' '\t' (y :: rest) = z :: zs → ¬ (c = '\\' ∧ z = 'n') := by
          rintro z zs hz ⟨e1, e2⟩
          cases rest with
          | nil => simp [replace2] at hz; exact h2 [] e1 (by rw [hz.1, e2])
          | cons w ws =>
            rw [replace2] at hz
            split_ifs at hz with hh
            · simp only [List.cons.injEq] at hz; rw [e2] at hz; exact absurd hz.1 (by decide)
            · simp only [List.cons.injEq] at hz; exact h2 (w :: ws) e1 (by rw [hz.1, e2])
        cases hr : replace2 '\\' 't' '\t' (y :: rest) with
        | nil => simp [replace2]
        | cons z zs => rw [replace2, if_neg (hm z zs hr)]
    · exact h1
    · exact h2
  | case4 => rfl

theorem prints_iff (W : World) (ns : NS) (C : ConsoleEnv) : PrintAs W ns C ↔ C = W.console ns := by
  unfold PrintAs World.console
  rw [renders_iff, fieldSeparator_unescaped]
  unfold NVal.toText
  constructor
  · rintro ⟨h1, h2, h3, h4, h5, h6, h7, h8⟩
    obtain ⟨r, a, b, c, d, e, f, g⟩ := C
    simp only at h1 h2 h3 h4 h5 h6 h7 h8
    subst h1 h2 h3 h4 h5 h7 h8
    rw [Bool.eq_iff_iff.2 h6]
  · rintro rfl
    simp

/-! ### C87 -/

/-- C87, results that are printed immediately: when the program ends, exactly the entries that are asked for have been printed, each once; and the
exit status with `--fail` is 1 if and only if there are none. Missing: the timing assumption about queues (see `C85_false`). -/
theorem C87_console_partial (W : World) {argv : List Str} {p : Plan} {w : List Warning} (hr : W.main.run argv = .search p w) (hm : p.mode = .console) {ns : NS}
    (hok : parseArgs (ffOptions W.main.arg) W.main.arg.maxCpu argv = .ok ns) {tests dirs : List Str}
    (hd : processDirectories W.main.isdir W.main.cwd (settingsOf ns).fargs.tests (settingsOf ns).dirs = some (tests, dirs)) (hP : Proper W ns tests dirs)
    {k : Nat} {s : IAll} (h : ASteps (W.cfg ns p) (W.imode ns p) true k (initAll (W.startDirs ns p) (ns "jobs".toList).toJobs) s) (hfin : s.finished = true) :
    s.done.Nodup ∧ (∀ i, i ∈ s.done ↔ Wanted W ns tests dirs i) ∧
    (exitStatus (ns "fail".toList).truthy { Ctx.init with hasResult := s.hasResult } = 1 ↔ (ns "fail".toList).truthy = true ∧ ∀ i, ¬ Wanted W ns tests dirs i) := by
  obtain ⟨rfl, hw⟩ := roots_wanted hr hok hd hP
  rw [← roots_dir] at h
  obtain ⟨h1, h2, h3⟩ := C85_complete_partial (W.cfg ns p) (W.imode ns p) (roots_ok hP) (roots_different hP hd) (jobs_pos hP.cpus hok) h hfin
  simp only [hw] at h2 h3
  refine ⟨h1, fun i => ?_, ?_⟩
  · rw [h2]
    simp [ToDo, World.imode, hm]
  · have : (¬ s.hasResult = true) ↔ ∀ i, ¬ Wanted W ns tests p.dirs i := by
      rw [h3]; simp
    rw [← this]
    unfold exitStatus Ctx.init
    cases (ns "fail".toList).truthy <;> cases s.hasResult <;> simp

/-- C87, commands that are run immediately: when the program ends, commands have been run for exactly the entries that are asked for and for which
a command can be made, each once. Missing: as above; `--halt`. -/
theorem C87_exec_partial (W : World) {argv : List Str} {p : Plan} {w : List Warning} (hr : W.main.run argv = .search p w) (hm : p.mode = .exec) {ns : NS}
    (hok : parseArgs (ffOptions W.main.arg) W.main.arg.maxCpu argv = .ok ns) {tests dirs : List Str}
    (hd : processDirectories W.main.isdir W.main.cwd (settingsOf ns).fargs.tests (settingsOf ns).dirs = some (tests, dirs)) (hP : Proper W ns tests dirs)
    {k : Nat} {s : IAll} (h : ASteps (W.cfg ns p) (W.imode ns p) true k (initAll (W.startDirs ns p) (ns "jobs".toList).toJobs) s) (hfin : s.finished = true) :
    s.done.Nodup ∧ ∀ i, i ∈ s.done ↔ Wanted W ns tests dirs i ∧
      ∃ R parts c, RenderAs W ns R ∧ execFields W.main.reg ((settingsOf ns).exec.getD []) = some parts ∧ R.execRender parts i = some c := by
  obtain ⟨rfl, hw⟩ := roots_wanted hr hok hd hP
  rw [← roots_dir] at h
  obtain ⟨h1, h2, h3⟩ := C85_complete_partial (W.cfg ns p) (W.imode ns p) (roots_ok hP) (roots_different hP hd) (jobs_pos hP.cpus hok) h hfin
  simp only [hw] at h2
  refine ⟨h1, fun i => ?_⟩
  rw [h2]
  obtain ⟨ns', hok', _, hmode, _, _, _, hex, _⟩ := search_settings hr
  rw [hok] at hok'
  cases hok'
  have hgiven : ∃ ws, (settingsOf ns).exec = some ws := by
    rw [hm] at hmode
    cases he : (settingsOf ns).exec with
    | some ws => exact ⟨ws, rfl⟩
    | none =>
      rw [he] at hmode
      exfalso
      revert hmode
      unfold setupProcessing
      have : given none = false := rfl
      rw [this]
      split_ifs <;> simp_all
  obtain ⟨ws, hws⟩ := hgiven
  rw [hws] at hex ⊢
  simp only [optFields, Option.map_eq_some_iff] at hex
  obtain ⟨parts, hp1, hp2⟩ := hex
  simp only [ToDo, World.imode, hm, World.command, renders_iff, Option.getD_some, ← hp2, hp1]
  simp [Option.isSome_iff_exists]

/-- C87, results that are collected first: exactly the entries that are asked for are collected, each once. Missing: as above. -/
theorem C87_collect_partial (W : World) {argv : List Str} {p : Plan} {w : List Warning} (hr : W.main.run argv = .search p w) {ns : NS}
    (hok : parseArgs (ffOptions W.main.arg) W.main.arg.maxCpu argv = .ok ns) {tests dirs : List Str}
    (hd : processDirectories W.main.isdir W.main.cwd (settingsOf ns).fargs.tests (settingsOf ns).dirs = some (tests, dirs)) (hP : Proper W ns tests dirs)
    {s : PState} (h : PSteps (W.cfg ns p) ⟨true, true⟩ (initState (W.startDirs ns p) (ns "jobs".toList).toJobs) s) (hfin : s.main = .finished) :
    s.collected.Nodup ∧ ∀ i, i ∈ s.collected ↔ Wanted W ns tests dirs i := by
  obtain ⟨rfl, hw⟩ := roots_wanted hr hok hd hP
  rw [← roots_dir] at h
  obtain ⟨_, h1, h2⟩ := C11_complete_partial (W.cfg ns p) ⟨true, true⟩ rfl rfl (roots_ok hP) (roots_different hP hd) (jobs_pos hP.cpus hok) h hfin
  exact ⟨h1, fun i => by rw [h2, hw]⟩

/-! ### The text -/

theorem processArguments_color (a : FArgs) : (processArguments a).color = if a.json.isSome then "never".toList else a.color := by
  unfold processArguments
  by_cases h1 : a.json.isSome <;> by_cases h2 : a.ignore <;> by_cases h3 : a.oneFileSystem <;> by_cases h4 : a.hide <;> by_cases h5 : a.depth = [] <;>
    simp only [h1, h2, h3, h4, h5, if_true, if_false, ne_eq, not_true_eq_false, not_false_eq_true, Bool.false_eq_true] <;> split <;> simp

theorem processArguments_uncounted {a : FArgs} (h : a.count = none) : (processArguments a).count = none := by
  unfold processArguments
  by_cases h1 : a.json.isSome <;> by_cases h2 : a.ignore <;> by_cases h3 : a.oneFileSystem <;> by_cases h4 : a.hide <;> by_cases h5 : a.depth = [] <;>
    simp [h, h1, h2, h3, h4, h5]

/-- Without `--output`, `--count` and `--json` a run prints paths. -/
theorem plain_plan {W : World} {argv : List Str} {p : Plan} {w : List Warning} (hr : W.main.run argv = .search p w) {ns : NS}
    (hok : parseArgs (ffOptions W.main.arg) W.main.arg.maxCpu argv = .ok ns) (hS : (W.env ns).Ok)
    (ho : (settingsOf ns).output = ["path".toList]) (hj : (settingsOf ns).fargs.json = none) (hc : (settingsOf ns).fargs.count = none) :
    (∃ f, p.output = [f] ∧ IsPathField f) ∧ p.json = none ∧ p.count = none ∧ p.color = (settingsOf ns).fargs.color ∧ p.limit = (settingsOf ns).limit ∧
      p.reverse = (settingsOf ns).reverse ∧ optFields (outputFields W.main.reg) (settingsOf ns).sort = some p.sort := by
  obtain ⟨ns', s', hok', hp, hpl, _⟩ := run_search hr
  rw [hok] at hok'
  cases hok'
  obtain ⟨tests, dirs, hd, _, hw⟩ := process_some hp
  have h1 := collectWarnings_settings { settingsOf ns with fargs := processArguments { (settingsOf ns).fargs with tests := tests }, dirs := dirs }
  rw [hw] at h1
  simp only at h1
  subst h1
  have hcount : (processArguments { (settingsOf ns).fargs with tests := tests }).count = none := processArguments_uncounted hc
  obtain ⟨h1, h2⟩ := setup_file hS (a := "path".toList) (ty := .path) (by decide) (by decide)
  have h3 : outputFields W.main.reg (expandFile W.main.reg ["path".toList]) = some [⟨("file".toList, "path".toList), "path".toList, .path, none, none⟩] := by
    have h4 : splitField "path".toList = some ("path".toList, none, none) := by decide
    have h5 : makeField W.main.reg "path".toList = some ⟨("file".toList, "path".toList), "path".toList, .path, none, none⟩ := by
      unfold makeField
      rw [h4]
      simp only
      rw [show setupAttribute W.main.reg "path".toList = some _ from h1]
      simp only
      rw [show attributeType W.main.reg _ = some _ from h2]
    have h6 : expandFile W.main.reg ["path".toList] = ["path".toList] := by
      unfold expandFile
      rw [if_neg (by decide)]
      rfl
    rw [h6]
    unfold outputFields mapOption
    rw [h5]
    rfl
  have ho' : (if (false || given (settingsOf ns).exec || given (settingsOf ns).execBatch) = true
      then ["path".toList] else (settingsOf ns).output) = ["path".toList] := by
    rw [ho]; split <;> rfl
  have hn : given (none : Option (List Str)) = false := rfl
  unfold Settings.plan at hpl
  simp only [hcount, hn, Bool.false_and] at hpl
  rw [ho', h3] at hpl
  split at hpl
  · rename_i g1 g2 g3 g4 g5
    cases hpl
    cases g1
    cases g3
    refine ⟨⟨_, rfl, rfl, rfl, rfl⟩, ?_, rfl, ?_, rfl, rfl, g2⟩
    · rw [processArguments_json]; exact hj
    · rw [processArguments_color]; simp [hj]
  · cases hpl

/-- C87, the text: without `--output`, `--count` and `--json` and without colors one path after the other is printed, each followed by a newline (or NUL).
Missing: files directly in "/", see `C29_root_false`. -/
theorem C87_text_partial (W : World) {argv : List Str} {p : Plan} {w : List Warning} (hr : W.main.run argv = .search p w) {ns : NS}
    (hok : parseArgs (ffOptions W.main.arg) W.main.arg.maxCpu argv = .ok ns) (hS : (W.env ns).Ok)
    (ho : (settingsOf ns).output = ["path".toList]) (hj : (settingsOf ns).fargs.json = none) (hc : (settingsOf ns).fargs.count = none)
    (hcolor : (settingsOf ns).fargs.color = "never".toList ∨ (settingsOf ns).fargs.color = "auto".toList ∧ W.isatty = false)
    (entries : List EntInfo) (he : ∀ i ∈ entries, i.isDir = true ∨ i.entry.dir ≠ ['/']) :
    W.printed ns p entries = entries.flatMap (fun i => i.entry.path ++ (ns "newline".toList).toText) := by
  obtain ⟨⟨f, hf, h1, h2, h3⟩, h4, h5, h6, _⟩ := plain_plan hr hok hS ho hj hc
  have hpal : W.palette p = plainPalette := by
    unfold World.palette
    rw [h6]
    rcases hcolor with h | ⟨h, h'⟩
    · rw [h]; rfl
    · rw [h, h']; rfl
  have line : ∀ i ∈ entries, (W.console ns).line plainPalette [f] i = some i.entry.path := by
    intro i hi
    have hp : Provided (W.console ns) i f := .inr (.inr (by rw [h1, attr_path]; rfl))
    unfold ConsoleEnv.line
    rw [(plain_columns (W.console ns) i [f]).1 (by simpa using hp)]
    simp [joinStr, columnText, fieldText, h1, h2, h3, pathText_path (W.console ns) (he i hi)]
  unfold World.printed
  rw [h4, h5, hpal, hf]
  simp only [Option.isSome_none, Bool.false_eq_true, if_false, reduceCtorEq]
  unfold ConsoleEnv.output
  clear he
  induction entries with
  | nil => rfl
  | cons i es ih =>
    rw [List.filterMap_cons_some (line i (by simp)), List.flatMap_cons, List.flatMap_cons, ih (fun i hi => line i (by simp [hi]))]
    rfl

/-- What is printed without `--count` and commands. -/
theorem print_plan {W : World} {argv : List Str} {p : Plan} {w : List Warning} (hr : W.main.run argv = .search p w) {ns : NS}
    (hok : parseArgs (ffOptions W.main.arg) W.main.arg.maxCpu argv = .ok ns) (hc : (settingsOf ns).fargs.count = none)
    (hx : given (settingsOf ns).exec = false ∧ given (settingsOf ns).execBatch = false) :
    p.json = (settingsOf ns).fargs.json ∧ p.count = none ∧ p.color = (if (settingsOf ns).fargs.json.isSome then "never".toList else (settingsOf ns).fargs.color) ∧
      outputFields W.main.reg (expandFile W.main.reg (settingsOf ns).output) = some p.output := by
  obtain ⟨ns', s', hok', hp, hpl, _⟩ := run_search hr
  rw [hok] at hok'
  cases hok'
  obtain ⟨tests, dirs, hd, _, hw⟩ := process_some hp
  have h1 := collectWarnings_settings { settingsOf ns with fargs := processArguments { (settingsOf ns).fargs with tests := tests }, dirs := dirs }
  rw [hw] at h1
  simp only at h1
  subst h1
  have hcount : (processArguments { (settingsOf ns).fargs with tests := tests }).count = none := processArguments_uncounted hc
  have hn : given (none : Option (List Str)) = false := rfl
  unfold Settings.plan at hpl
  simp only [hcount, hn, hx.1, hx.2, Bool.or_self, Bool.false_and, Bool.false_eq_true, if_false] at hpl
  split at hpl
  · rename_i g1 g2 g3 g4 g5
    cases hpl
    cases g3
    refine ⟨?_, rfl, ?_, g1⟩
    · rw [processArguments_json]
    · rw [processArguments_color]
  · cases hpl

/-- C87, the text with `--output`: without `--count` and `--json` and without colors there is a line for every entry that has all the attributes or all entries
with `--all`; the columns are separated by `--sep`. -/
theorem C87_fields (W : World) {argv : List Str} {p : Plan} {w : List Warning} (hr : W.main.run argv = .search p w) {ns : NS}
    (hok : parseArgs (ffOptions W.main.arg) W.main.arg.maxCpu argv = .ok ns) (hj : (settingsOf ns).fargs.json = none) (hc : (settingsOf ns).fargs.count = none)
    (hx : given (settingsOf ns).exec = false ∧ given (settingsOf ns).execBatch = false)
    (hcolor : (settingsOf ns).fargs.color = "never".toList ∨ (settingsOf ns).fargs.color = "auto".toList ∧ W.isatty = false) :
    ∃ fields, outputFields W.main.reg (expandFile W.main.reg (settingsOf ns).output) = some fields ∧ ∀ C, PrintAs W ns C → ∀ entries,
      W.printed ns p entries = (entries.filter (fun i => C.render.all = true ∨ ∀ f ∈ fields, f.modifier = some 'n' ∨ (C.render.search.attr i f.attr).isSome = true)).flatMap
        (fun i => joinStr C.separator (fields.map (columnText C i)) ++ C.newline) := by
  obtain ⟨h4, h5, h6, hout⟩ := print_plan hr hok hc hx
  rw [hj] at h4 h6
  simp only [Option.isSome_none, Bool.false_eq_true, if_false] at h6
  refine ⟨_, hout, fun C hC entries => ?_⟩
  rw [prints_iff] at hC
  subst hC
  have hpal : W.palette p = plainPalette := by
    unfold World.palette
    rw [h6]
    rcases hcolor with h | ⟨h, h'⟩
    · rw [h]; rfl
    · rw [h, h']; rfl
  unfold World.printed
  rw [h4, h5, hpal]
  simp only [Option.isSome_none, Bool.false_eq_true, if_false, reduceCtorEq]
  unfold ConsoleEnv.output
  generalize W.console ns = C
  induction entries with
  | nil => rfl
  | cons i es ih =>
    obtain ⟨l1, l2⟩ := C31_line C i p.output
    by_cases h : C.render.all = true ∨ ∀ f ∈ p.output, f.modifier = some 'n' ∨ (C.render.search.attr i f.attr).isSome = true
    · obtain ⟨l, hl⟩ := Option.isSome_iff_exists.1 (l1.2 h)
      rw [List.filterMap_cons_some hl, List.filter_cons_of_pos (by simpa using h), List.flatMap_cons, List.flatMap_cons, ih, l2 l hl]
    · have hl : C.line plainPalette p.output i = none := by
        cases hl : C.line plainPalette p.output i with
        | none => rfl
        | some l => exact absurd (l1.1 (by rw [hl]; rfl)) h
      rw [List.filterMap_cons_none hl, List.filter_cons_of_neg (by simpa using h), ih]

/-- C87, the text with `--json` and `--jsonl`: one list of the records of all entries, or a line with the record of each entry. -/
theorem C87_json (W : World) {argv : List Str} {p : Plan} {w : List Warning} (hr : W.main.run argv = .search p w) {ns : NS}
    (hok : parseArgs (ffOptions W.main.arg) W.main.arg.maxCpu argv = .ok ns) (hc : (settingsOf ns).fargs.count = none)
    (hx : given (settingsOf ns).exec = false ∧ given (settingsOf ns).execBatch = false) :
    ∃ fields, outputFields W.main.reg (expandFile W.main.reg (settingsOf ns).output) = some fields ∧ ∀ R, RenderAs W ns R → ∀ entries,
      ((settingsOf ns).fargs.json = some "json".toList →
        ∃ t, W.printed ns p entries = t ++ ['\n'] ∧ JText (.arr (entries.map (fun i => recordJV (R.toDict fields i)))) t) ∧
      ((settingsOf ns).fargs.json = some "jsonl".toList →
        ∃ lines : List Str, splitOn '\n' (W.printed ns p entries) = lines ++ [[]] ∧ All2 (fun i l => JText (recordJV (R.toDict fields i)) l) entries lines) := by
  obtain ⟨h4, h5, _, hout⟩ := print_plan hr hok hc hx
  refine ⟨_, hout, fun R hR entries => ?_⟩
  rw [renders_iff] at hR
  subst hR
  unfold World.printed
  rw [h4, h5]
  simp only [Option.isSome_none, Bool.false_eq_true, if_false]
  constructor
  · intro hj
    rw [if_pos hj]
    exact C30_json _ _ _
  · intro hj
    rw [if_neg (by rw [hj]; decide), if_pos hj]
    exact C30_jsonl _ _ _

/-- C87, the text for sorting and limits: what is printed at the end are the paths of the part of the entries asked for that `--limit` allows; they are in the order
of `--sort`, if it is given. Missing: as in `C87_collect_partial` and `C87_text_partial`. -/
theorem C87_output_partial (W : World) {argv : List Str} {p : Plan} {w : List Warning} (hr : W.main.run argv = .search p w) {ns : NS}
    (hok : parseArgs (ffOptions W.main.arg) W.main.arg.maxCpu argv = .ok ns) {tests dirs : List Str}
    (hd : processDirectories W.main.isdir W.main.cwd (settingsOf ns).fargs.tests (settingsOf ns).dirs = some (tests, dirs)) (hP : Proper W ns tests dirs)
    (ho : (settingsOf ns).output = ["path".toList]) (hj : (settingsOf ns).fargs.json = none) (hc : (settingsOf ns).fargs.count = none)
    (hcolor : (settingsOf ns).fargs.color = "never".toList ∨ (settingsOf ns).fargs.color = "auto".toList ∧ W.isatty = false)
    {s : PState} (h : PSteps (W.cfg ns p) ⟨true, true⟩ (initState (W.startDirs ns p) (ns "jobs".toList).toJobs) s) (hfin : s.main = .finished)
    (hw : ∀ i, Wanted W ns tests dirs i → i.isDir = true ∨ i.entry.dir ≠ ['/']) {out : Str} (hout : W.collective ns p s.collected = some out) :
    ∃ es : List EntInfo, es.Nodup ∧ (∀ i, i ∈ es ↔ Wanted W ns tests dirs i) ∧
      out = (limited (settingsOf ns).limit es).flatMap (fun i => i.entry.path ++ (ns "newline".toList).toText) ∧
      ∀ R fields, RenderAs W ns R → (settingsOf ns).sort.bind (outputFields W.main.reg) = some fields → (∀ f ∈ fields, f.modifier ≠ some 'v') →
        (∀ e, Wanted W ns tests dirs e → ∀ f ∈ fields, ∀ v, R.search.attr e f.attr = some v → HasType f.type v) →
        es.Pairwise (fun a b => if (settingsOf ns).reverse then ¬ Lex SortVal.Before (sortVals R fields a) (sortVals R fields b)
          else ¬ Lex SortVal.Before (sortVals R fields b) (sortVals R fields a)) := by
  obtain ⟨h1, h2⟩ := C87_collect_partial W hr hok hd hP h hfin
  obtain ⟨_, _, hcnt, _, hlim, hrev, hsort⟩ := plain_plan hr hok hP.env ho hj hc
  unfold World.collective at hout
  have hcounted : W.counted ns p s.collected = some [] := by unfold World.counted; rw [hcnt]
  rw [hcounted] at hout
  cases hes : (W.render ns).finalizeEntries W.digits p.sort p.reverse s.collected with
  | none => rw [hes] at hout; cases hout
  | some es =>
    rw [hes] at hout
    simp only [Option.map_some, List.append_nil, Option.some.injEq] at hout
    have hperm : es.Perm s.collected := by
      cases hs : p.sort with
      | none => rw [hs, C35_unsorted] at hes; cases hes; exact List.Perm.refl _
      | some fields => rw [hs] at hes; exact (C35_permutation _ _ _ _ _ _ hes).1
    have hmem : ∀ i, i ∈ es ↔ Wanted W ns tests dirs i := fun i => by rw [hperm.mem_iff, h2]
    refine ⟨es, hperm.nodup_iff.2 h1, hmem, ?_, ?_⟩
    · have hsub : ∀ i ∈ entriesRange p.limit es, i ∈ es := by
        intro i hi
        unfold entriesRange at hi
        split at hi
        · exact hi
        · exact List.mem_of_mem_take (List.mem_of_mem_drop hi)
      rw [← hout, C87_text_partial W hr hok hP.env ho hj hc hcolor _ (fun i hi => hw i ((hmem i).1 (hsub i hi))), hlim]
      congr 1
      unfold limited
      split
      · rename_i e; rw [e]; rfl
      · rename_i e; rw [e]; exact entriesRange_eq _ _ _
    · intro R fields hR hf hm ht
      rw [renders_iff] at hR
      subst hR
      have hs : p.sort = some fields := by
        cases hso : (settingsOf ns).sort with
        | none => rw [hso] at hf; cases hf
        | some ws =>
          rw [hso] at hf hsort
          simp only [Option.bind_some] at hf
          simp only [optFields, hf, Option.map_some, Option.some.injEq] at hsort
          exact hsort.symm
      obtain ⟨out', g1, _, g3, _⟩ := C35_sorted (W.render ns) W.digits fields p.reverse s.collected hm (fun e he => ht e ((h2 e).1 he))
      rw [hs, g1] at hes
      cases hes
      rw [hrev] at g3
      exact g3

/-! ### A world that meets the hypotheses -/

/-- Every directory contains `a` and `a/b`; the plugins are those of ff. -/
def demoWorld : World :=
  { main := { arg := demoArgEnv, isdir := fun _ => false, cwd := "/h".toList, reg := demoReg }, base := demoSearch, zone := fun _ => 0, digits := asciiDigits,
    isSymlink := fun _ => false, broken := fun _ => false, isExecutable := fun _ => false, link := fun _ => [], isatty := false, lsColors := [],
    tree := fun _ _ => demoRoot.kids, pathExists := fun _ => false, slow := false }

theorem demoWorld_env (ns : NS) : (demoWorld.env ns).Ok := ⟨demoSearch_ok.file, demoSearch_ok.regular, demoSearch_ok.low⟩

set_option maxRecDepth 50000 in
set_option maxHeartbeats 4000000 in
/-- `ff depth=1 -H`, `ff depth=1 -H -S` and `ff depth=1 -H -x ls`. -/
theorem demoWorld_run (argv : List String) (mode : Mode) (h : (argv, mode) ∈ [(["depth=1", "-H"], .console), (["depth=1", "-H", "-S"], .collectiveConsole),
    (["depth=1", "-H", "-x", "ls"], .exec)]) :
    ∃ p w ns, demoWorld.main.run (argv.map String.toList) = .search p w ∧ p.mode = mode ∧
      parseArgs (ffOptions demoWorld.main.arg) demoWorld.main.arg.maxCpu (argv.map String.toList) = .ok ns ∧
      processDirectories demoWorld.main.isdir demoWorld.main.cwd (settingsOf ns).fargs.tests (settingsOf ns).dirs = some (["depth=1".toList], [".".toList]) ∧
      (settingsOf ns).fargs.exclude = [] ∧ (settingsOf ns).fargs.ignore = false ∧ (settingsOf ns).output = ["path".toList] ∧ (settingsOf ns).fargs.json = none ∧
      (settingsOf ns).fargs.count = none ∧ (settingsOf ns).fargs.color = "auto".toList := by
  simp only [List.mem_cons, List.not_mem_nil, or_false, Prod.mk.injEq] at h
  rcases h with ⟨rfl, rfl⟩ | ⟨rfl, rfl⟩ | ⟨rfl, rfl⟩
  · exact ⟨_, _, _, rfl, rfl, rfl, rfl, rfl, rfl, rfl, rfl, rfl, rfl⟩
  · exact ⟨_, _, _, rfl, rfl, rfl, rfl, rfl, rfl, rfl, rfl, rfl, rfl⟩
  · exact ⟨_, _, _, rfl, rfl, rfl, rfl, rfl, rfl, rfl, rfl, rfl, rfl⟩

theorem demoWorld_proper {ns : NS} (h1 : (settingsOf ns).fargs.exclude = []) (h2 : (settingsOf ns).fargs.ignore = false) :
    Proper demoWorld ns ["depth=1".toList] [".".toList] := by
  refine ⟨by decide, ⟨"h".toList, rfl⟩, ?_, demoWorld_env ns, ?_, .inr ?_, by simp, ?_, fun _ _ => demoRoot_ok.2.2⟩
  · rintro ⟨r, hr, _⟩
    simp [demoWorld] at hr
  · simp [GoodExclude, GoodTests, h1, h2]
  · obtain ⟨x, hx, hw, _⟩ := parse_depth (demoWorld_env ns) (op := ['=']) (denoted := ['=']) (by decide) (by decide) 1 (by decide)
    refine ⟨.atom "depth=1".toList, .single (.item (.prim (.atom hw))), ?_⟩
    intro t ht
    simp only [Formula.atoms, List.mem_singleton] at ht
    subst ht
    exact ⟨x, hx⟩
  · intro d hd
    simp only [List.mem_singleton] at hd
    subst hd
    refine ⟨by decide, ?_⟩
    rintro ⟨r, hr, _⟩
    simp at hr

/-- The hypotheses of C87 are met, by results that are printed immediately, collected and passed to a command. -/
example : (∃ argv p w ns tests dirs k s, demoWorld.main.run argv = .search p w ∧ p.mode = .console ∧
      parseArgs (ffOptions demoWorld.main.arg) demoWorld.main.arg.maxCpu argv = .ok ns ∧
      processDirectories demoWorld.main.isdir demoWorld.main.cwd (settingsOf ns).fargs.tests (settingsOf ns).dirs = some (tests, dirs) ∧ Proper demoWorld ns tests dirs ∧
      ASteps (demoWorld.cfg ns p) (demoWorld.imode ns p) true k (initAll (demoWorld.startDirs ns p) (ns "jobs".toList).toJobs) s ∧ s.finished = true) ∧
    (∃ argv p w ns tests dirs k s, demoWorld.main.run argv = .search p w ∧ p.mode = .exec ∧
      parseArgs (ffOptions demoWorld.main.arg) demoWorld.main.arg.maxCpu argv = .ok ns ∧
      processDirectories demoWorld.main.isdir demoWorld.main.cwd (settingsOf ns).fargs.tests (settingsOf ns).dirs = some (tests, dirs) ∧ Proper demoWorld ns tests dirs ∧
      ASteps (demoWorld.cfg ns p) (demoWorld.imode ns p) true k (initAll (demoWorld.startDirs ns p) (ns "jobs".toList).toJobs) s ∧ s.finished = true) ∧
    ∃ argv p w ns tests dirs s, demoWorld.main.run argv = .search p w ∧ p.mode = .collectiveConsole ∧
      parseArgs (ffOptions demoWorld.main.arg) demoWorld.main.arg.maxCpu argv = .ok ns ∧
      processDirectories demoWorld.main.isdir demoWorld.main.cwd (settingsOf ns).fargs.tests (settingsOf ns).dirs = some (tests, dirs) ∧ Proper demoWorld ns tests dirs ∧
      (settingsOf ns).output = ["path".toList] ∧ (settingsOf ns).fargs.json = none ∧ (settingsOf ns).fargs.count = none ∧
      ((settingsOf ns).fargs.color = "auto".toList ∧ demoWorld.isatty = false) ∧
      PSteps (demoWorld.cfg ns p) ⟨true, true⟩ (initState (demoWorld.startDirs ns p) (ns "jobs".toList).toJobs) s ∧ s.main = .finished := by
  refine ⟨?_, ?_, ?_⟩
  · obtain ⟨p, w, ns, hr, hm, hok, hd, h1, h2, _⟩ := demoWorld_run _ .console (List.mem_cons_self ..)
    have hP := demoWorld_proper h1 h2
    obtain ⟨k, s, hs, hf⟩ := C86_no_deadlock (demoWorld.cfg ns p) (demoWorld.imode ns p) true (demoWorld.roots ns p) (jobs_pos hP.cpus hok) .refl
    rw [roots_dir] at hs
    exact ⟨_, p, w, ns, _, _, k, s, hr, hm, hok, hd, hP, hs, hf⟩
  · obtain ⟨p, w, ns, hr, hm, hok, hd, h1, h2, _⟩ := demoWorld_run _ .exec (List.mem_cons_of_mem _ (List.mem_cons_of_mem _ (List.mem_cons_self ..)))
    have hP := demoWorld_proper h1 h2
    obtain ⟨k, s, hs, hf⟩ := C86_no_deadlock (demoWorld.cfg ns p) (demoWorld.imode ns p) true (demoWorld.roots ns p) (jobs_pos hP.cpus hok) .refl
    rw [roots_dir] at hs
    exact ⟨_, p, w, ns, _, _, k, s, hr, hm, hok, hd, hP, hs, hf⟩
  · obtain ⟨p, w, ns, hr, hm, hok, hd, h1, h2, h3, h4, h5, h6⟩ := demoWorld_run _ .collectiveConsole (List.mem_cons_of_mem _ (List.mem_cons_self ..))
    have hP := demoWorld_proper h1 h2
    obtain ⟨s, hs, hf⟩ := C86_collect_no_deadlock (demoWorld.cfg ns p) ⟨true, true⟩ (demoWorld.roots ns p) (jobs_pos hP.cpus hok) .refl
    rw [roots_dir] at hs
    exact ⟨_, p, w, ns, _, _, s, hr, hm, hok, hd, hP, h3, h4, h5, ⟨h6, rfl⟩, hs, hf⟩

end FF
