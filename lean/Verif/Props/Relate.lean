import Verif.Spec.Relate
import Verif.Props.Whole
/-! Property C102: results of several runs compared with each other. -/
namespace FF
open Spec

/-- The program has been run with these arguments and its results are these entries: they are printed as they are found, or collected first. Processes find a queue empty only
when nothing is under way, see C85. -/
def Results (W : World) (argv : List Str) (ns : NS) (tests dirs : List Str) (results : List EntInfo) : Prop :=
  ∃ p w, W.main.run argv = .search p w ∧ parseArgs (ffOptions W.main.arg) W.main.arg.maxCpu argv = .ok ns ∧
    processDirectories W.main.isdir W.main.cwd (settingsOf ns).fargs.tests (settingsOf ns).dirs = some (tests, dirs) ∧ Proper W ns tests dirs ∧
    ((p.mode = .console ∧ ∃ k s, ASteps (W.cfg ns p) (W.imode ns p) true k (initAll (W.startDirs ns p) (ns "jobs".toList).toJobs) s ∧ s.finished = true ∧ s.done = results) ∨
     ∃ s, PSteps (W.cfg ns p) ⟨true, true⟩ (initState (W.startDirs ns p) (ns "jobs".toList).toJobs) s ∧ s.main = .finished ∧ s.collected = results)

theorem Results.spec {W : World} {argv : List Str} {ns : NS} {tests dirs : List Str} {results : List EntInfo} (h : Results W argv ns tests dirs results) :
    results.Nodup ∧ ∀ i, i ∈ results ↔ Wanted W ns tests dirs i := by
  obtain ⟨p, w, hr, hok, hd, hP, ⟨hm, k, s, hs, hf, rfl⟩ | ⟨s, hs, hf, rfl⟩⟩ := h
  · obtain ⟨h1, h2, _⟩ := C87_console_partial W hr hm hok hd hP hs hf
    exact ⟨h1, h2⟩
  · exact C87_collect_partial W hr hok hd hP hs hf

theorem Results.good {W : World} {argv : List Str} {ns : NS} {tests dirs : List Str} {results : List EntInfo} (h : Results W argv ns tests dirs results) :
    Proper W ns tests dirs := by
  obtain ⟨p, w, hr, hok, hd, hP, _⟩ := h
  exact hP

/-- The entry is asked for if it meets the tests and is asked for without tests. -/
theorem wanted_tests {W : World} {ns : NS} {tests dirs : List Str} {i : EntInfo} : Wanted W ns tests dirs i ↔ Meets (asked W ns) tests i ∧ Wanted W ns [] dirs i := by
  unfold Wanted
  constructor
  · rintro ⟨d, hd, p, h1, h2, h3, h4, h5⟩
    exact ⟨h3, d, hd, p, h1, h2, .inl rfl, h4, h5⟩
  · rintro ⟨h3, d, hd, p, h1, h2, _, h4, h5⟩
    exact ⟨d, hd, p, h1, h2, h3, h4, h5⟩

theorem Spec.SameButExclude.wanted {ns ns' : NS} (h : SameButExclude ns ns') (he : ∀ t ∈ (ns "exclude".toList).toWords, t ∈ (ns' "exclude".toList).toWords)
    {W : World} {tests dirs : List Str} {i : EntInfo} (hw : Wanted W ns' tests dirs i) : Wanted W ns tests dirs i := by
  have ha : ((settingsOf ns).fargs.absolutePath || (settingsOf ns).fargs.json.isSome) = ((settingsOf ns').fargs.absolutePath || (settingsOf ns').fargs.json.isSome) := h.absolute
  have hd : (settingsOf ns).fargs.depth = (settingsOf ns').fargs.depth := h.depth
  have hask : asked W ns = asked W ns' := by unfold Spec.asked; rw [h.case]
  have hout : outside W ns = outside W ns' := by funext r; unfold Spec.outside; rw [h.ignore, h.parents, h.ignoreFiles]
  obtain ⟨d, hd', p, h1, h2, h3, h4, h5⟩ := hw
  refine ⟨d, hd', p, ?_⟩
  simp only [ha, hd, h.follow, h.ignoreFiles, hout, hask]
  refine ⟨h1, h2, h3, h4, fun q n hq hav => h5 q n hq ?_⟩
  rcases hav with ⟨t, ht, hv⟩ | ⟨hi, hv⟩ | ⟨hh, hv⟩ | ⟨ho, hv⟩
  · exact .inl ⟨t, he t ht, hv⟩
  · exact .inr (.inl ⟨h.ignore.symm.trans hi, hv⟩)
  · exact .inr (.inr (.inl ⟨h.hide.symm.trans hh, hv⟩))
  · exact .inr (.inr (.inr ⟨h.oneFileSystem.symm.trans ho, hv⟩))

theorem Spec.SameButExclude.symm {ns ns' : NS} (h : SameButExclude ns ns') : SameButExclude ns' ns :=
  ⟨h.ignore.symm, h.parents.symm, h.ignoreFiles.symm, h.hide.symm, h.oneFileSystem.symm, h.depth.symm, h.case.symm, h.follow.symm, h.absolute.symm⟩

theorem Spec.SameChoice.wanted {ns ns' : NS} (h : SameChoice ns ns') {W : World} {tests dirs : List Str} {i : EntInfo} :
    Wanted W ns tests dirs i ↔ Wanted W ns' tests dirs i :=
  ⟨h.1.symm.wanted (fun t ht => h.2 ▸ ht), h.1.wanted (fun t ht => h.2 ▸ ht)⟩

theorem wanted_dirs {W : World} {ns : NS} {tests dirs : List Str} {i : EntInfo} : Wanted W ns tests dirs i ↔ ∃ d ∈ dirs, Wanted W ns tests [d] i := by
  unfold Wanted
  simp

theorem meets_iff {S : SearchEnv} {tests : List Str} {f : Formula} (hf : Derives .disj tests f) {i : EntInfo} : Meets S tests i ↔ f.eval (holds S i) = true := by
  unfold Meets
  constructor
  · rintro (rfl | ⟨g, hg, h⟩)
    · exact absurd rfl (derives_ne_nil hf)
    · rw [C01_unambiguous tests f g hf hg]; exact h
  · exact fun h => .inr ⟨f, hf, h⟩

/-- C102: two searches with the same tests, directories and options about what to leave out have the same results, whatever the number of processes, the output, the order and
so on; at most in another order. -/
theorem C102_same_partial {W : World} {argv argv' : List Str} {ns ns' : NS} {tests dirs dirs' : List Str} {es es' : List EntInfo}
    (h : Results W argv ns tests dirs es) (h' : Results W argv' ns' tests dirs' es') (hd : ∀ d, d ∈ dirs ↔ d ∈ dirs') (hc : SameChoice ns ns') : es.Perm es' := by
  refine (List.perm_ext_iff_of_nodup h.spec.1 h'.spec.1).2 fun i => ?_
  rw [h.spec.2, h'.spec.2, hc.wanted, wanted_dirs, wanted_dirs (dirs := dirs')]
  simp only [hd]

/-- C102: the results for a conjunction are those that are among the results for both parts. -/
theorem C102_and_partial {W : World} {a1 a2 a3 : List Str} {n1 n2 n3 : NS} {t1 t2 t3 dirs : List Str} {e1 e2 e3 : List EntInfo} {f g : Formula}
    (h1 : Results W a1 n1 t1 dirs e1) (h2 : Results W a2 n2 t2 dirs e2) (h3 : Results W a3 n3 t3 dirs e3) (c2 : SameChoice n1 n2) (c3 : SameChoice n1 n3)
    (f1 : Derives .disj t1 f) (f2 : Derives .disj t2 g) (f3 : Derives .disj t3 (.conj f g)) (i : EntInfo) : i ∈ e3 ↔ i ∈ e1 ∧ i ∈ e2 := by
  rw [h1.spec.2, h2.spec.2, h3.spec.2, ← c2.wanted, ← c3.wanted, wanted_tests, wanted_tests (tests := t1), wanted_tests (tests := t2), meets_iff f1, meets_iff f2, meets_iff f3]
  simp only [Formula.eval, Bool.and_eq_true]
  exact ⟨fun h => ⟨⟨h.1.1, h.2⟩, h.1.2, h.2⟩, fun h => ⟨⟨h.1.1, h.2.1⟩, h.1.2⟩⟩

/-- C102: the results for a disjunction are those that are among the results for one of the parts. -/
theorem C102_or_partial {W : World} {a1 a2 a3 : List Str} {n1 n2 n3 : NS} {t1 t2 t3 dirs : List Str} {e1 e2 e3 : List EntInfo} {f g : Formula}
    (h1 : Results W a1 n1 t1 dirs e1) (h2 : Results W a2 n2 t2 dirs e2) (h3 : Results W a3 n3 t3 dirs e3) (c2 : SameChoice n1 n2) (c3 : SameChoice n1 n3)
    (f1 : Derives .disj t1 f) (f2 : Derives .disj t2 g) (f3 : Derives .disj t3 (.disj f g)) (i : EntInfo) : i ∈ e3 ↔ i ∈ e1 ∨ i ∈ e2 := by
  rw [h1.spec.2, h2.spec.2, h3.spec.2, ← c2.wanted, ← c3.wanted, wanted_tests, wanted_tests (tests := t1), wanted_tests (tests := t2), meets_iff f1, meets_iff f2, meets_iff f3]
  simp only [Formula.eval, Bool.or_eq_true]
  exact ⟨fun h => h.1.imp (fun x => ⟨x, h.2⟩) (fun x => ⟨x, h.2⟩), fun h => h.elim (fun x => ⟨.inl x.1, x.2⟩) (fun x => ⟨.inr x.1, x.2⟩)⟩

/-- C102: the results for a negation are those of a search without tests that are not among the results for the part. -/
theorem C102_not_partial {W : World} {a1 a2 a3 : List Str} {n1 n2 n3 : NS} {t1 t3 dirs : List Str} {e1 e2 e3 : List EntInfo} {f : Formula}
    (h1 : Results W a1 n1 t1 dirs e1) (h2 : Results W a2 n2 [] dirs e2) (h3 : Results W a3 n3 t3 dirs e3) (c2 : SameChoice n1 n2) (c3 : SameChoice n1 n3)
    (f1 : Derives .disj t1 f) (f3 : Derives .disj t3 (.neg f)) (i : EntInfo) : i ∈ e3 ↔ i ∈ e2 ∧ i ∉ e1 := by
  rw [h1.spec.2, h2.spec.2, h3.spec.2, ← c2.wanted, ← c3.wanted, wanted_tests, wanted_tests (tests := t1), meets_iff f1, meets_iff f3]
  simp only [Formula.eval, Bool.not_eq_true', not_and]
  constructor
  · rintro ⟨h, hw⟩; exact ⟨hw, fun h' => by rw [h] at h'; exact absurd h' (by simp)⟩
  · rintro ⟨hw, h⟩
    refine ⟨?_, hw⟩
    cases he : f.eval (holds (asked W n1) i) with
    | false => rfl
    | true => exact absurd hw (h he)

/-- C102: a search in several directories has the results of the searches in each of them. -/
theorem C102_dirs_partial {W : World} {a1 a2 a3 : List Str} {n1 n2 n3 : NS} {tests d1 d2 d3 : List Str} {e1 e2 e3 : List EntInfo}
    (h1 : Results W a1 n1 tests d1 e1) (h2 : Results W a2 n2 tests d2 e2) (h3 : Results W a3 n3 tests d3 e3) (c2 : SameChoice n1 n2) (c3 : SameChoice n1 n3)
    (hd : ∀ d, d ∈ d3 ↔ d ∈ d1 ∨ d ∈ d2) (i : EntInfo) : i ∈ e3 ↔ i ∈ e1 ∨ i ∈ e2 := by
  rw [h1.spec.2, h2.spec.2, h3.spec.2, ← c2.wanted, ← c3.wanted, wanted_dirs, wanted_dirs (dirs := d1), wanted_dirs (dirs := d2)]
  simp only [hd]
  constructor
  · rintro ⟨d, h | h, hw⟩
    · exact .inl ⟨d, h, hw⟩
    · exact .inr ⟨d, h, hw⟩
  · rintro (⟨d, h, hw⟩ | ⟨d, h, hw⟩)
    · exact ⟨d, .inl h, hw⟩
    · exact ⟨d, .inr h, hw⟩

/-- C102: further `--exclude` tests only take results away, and nothing that is left meets one of them. -/
theorem C102_exclude_partial {W : World} {a a' : List Str} {ns ns' : NS} {tests dirs : List Str} {es es' : List EntInfo}
    (h : Results W a ns tests dirs es) (h' : Results W a' ns' tests dirs es') (hm : MoreExcluded ns ns') :
    ∀ i ∈ es', i ∈ es ∧ ∀ t ∈ (ns' "exclude".toList).toWords, holds (asked W ns') i t = false := by
  intro i hi
  rw [h'.spec.2] at hi
  refine ⟨(h.spec.2 i).2 (hm.1.wanted hm.2 hi), ?_⟩
  obtain ⟨d, hd, p, h1, h2, h3, h4, h5⟩ := hi
  intro t ht
  rcases List.eq_nil_or_concat p with rfl | ⟨q, n, rfl⟩
  · exact absurd h1 (by simp [Chain])
  · rw [List.concat_eq_append] at *
    cases hh : holds (asked W ns') i t with
    | false => rfl
    | true => exact absurd (.inl ⟨t, ht, by rw [← h2]; exact hh⟩) (h5 q n (List.prefix_refl _))

/-! ### Runs that meet the hypotheses -/

theorem Spec.SameChoice.via {n0 n1 n2 : NS} (h1 : SameChoice n0 n1) (h2 : SameChoice n0 n2) : SameChoice n1 n2 :=
  ⟨⟨h1.1.ignore.symm.trans h2.1.ignore, h1.1.parents.symm.trans h2.1.parents, h1.1.ignoreFiles.symm.trans h2.1.ignoreFiles, h1.1.hide.symm.trans h2.1.hide,
    h1.1.oneFileSystem.symm.trans h2.1.oneFileSystem, h1.1.depth.symm.trans h2.1.depth, h1.1.case.symm.trans h2.1.case, h1.1.follow.symm.trans h2.1.follow,
    h1.1.absolute.symm.trans h2.1.absolute⟩, h1.2.symm.trans h2.2⟩

theorem demo_atoms {ns : NS} (t : Str) (ht : t ∈ ["depth=0".toList, "depth=1".toList]) : Word t ∧ ∃ x, (demoWorld.env ns).parseTest t = .ok x := by
  simp only [List.mem_cons, List.not_mem_nil, or_false] at ht
  rcases ht with rfl | rfl
  · obtain ⟨x, hx, hw, _⟩ := parse_depth (demoWorld_env ns) (op := ['=']) (denoted := ['=']) (by decide) (by decide) 0 (by decide)
    exact ⟨hw, x, hx⟩
  · obtain ⟨x, hx, hw, _⟩ := parse_depth (demoWorld_env ns) (op := ['=']) (denoted := ['=']) (by decide) (by decide) 1 (by decide)
    exact ⟨hw, x, hx⟩

/-- The readings of some expressions. -/
theorem demo_derives : let d0 := Formula.atom "depth=0".toList; let d1 := Formula.atom "depth=1".toList
    Derives .disj ["depth=0".toList] d0 ∧ Derives .disj ["depth=1".toList] d1 ∧ Derives .disj ["depth=0".toList, "depth=1".toList] (.conj d0 d1) ∧
    Derives .disj ["depth=0".toList, "or".toList, "depth=1".toList] (.disj d0 d1) ∧ Derives .disj ["not".toList, "depth=0".toList] (.neg d0) := by
  have h0 := (demo_atoms (ns := fun _ => .unset) "depth=0".toList (by simp)).1
  have h1 := (demo_atoms (ns := fun _ => .unset) "depth=1".toList (by simp)).1
  exact ⟨.single (.item (.prim (.atom h0))), .single (.item (.prim (.atom h1))), .single (.conj (ts := ["depth=0".toList]) (.item (.prim (.atom h0))) (.item (.prim (.atom h1)))),
    .disj (ts := ["depth=0".toList]) (.single (.item (.prim (.atom h0)))) (by unfold Kw; decide) (.single (.item (.prim (.atom h1)))),
    .single (.item (.neg (by unfold Kw; decide) (.atom h0)))⟩

/-- The arguments of some runs, with their tests. -/
def demoRuns : List (List Str × List Str) :=
  [([], []), (["depth=0".toList], ["depth=0".toList]), (["depth=1".toList], ["depth=1".toList]),
   (["depth=0".toList, "depth=1".toList], ["depth=0".toList, "depth=1".toList]), (["depth=0".toList, "or".toList, "depth=1".toList], ["depth=0".toList, "or".toList, "depth=1".toList]),
   (["not".toList, "depth=0".toList], ["not".toList, "depth=0".toList]), (["depth=0".toList, "-j".toList, "1".toList], ["depth=0".toList])]

theorem demo_good {ns : NS} : ∀ r ∈ demoRuns, GoodExpression (demoWorld.env ns) r.2 := by
  have hd := demo_derives
  simp only at hd
  obtain ⟨h0, h1, h2, h3, h4⟩ := hd
  have a0 := fun (t : Str) (ht : t ∈ ["depth=0".toList, "depth=1".toList]) => (demo_atoms (ns := ns) t ht).2
  intro r hr
  simp only [demoRuns, List.mem_cons, List.not_mem_nil, or_false] at hr
  rcases hr with rfl | rfl | rfl | rfl | rfl | rfl | rfl
  · exact .inl rfl
  · exact .inr ⟨_, h0, fun t ht => a0 t (by simp only [Formula.atoms, List.mem_singleton] at ht; subst ht; simp)⟩
  · exact .inr ⟨_, h1, fun t ht => a0 t (by simp only [Formula.atoms, List.mem_singleton] at ht; subst ht; simp)⟩
  · exact .inr ⟨_, h2, fun t ht => a0 t (by simpa only [Formula.atoms, List.cons_append, List.nil_append] using ht)⟩
  · exact .inr ⟨_, h3, fun t ht => a0 t (by simpa only [Formula.atoms, List.cons_append, List.nil_append] using ht)⟩
  · exact .inr ⟨_, h4, fun t ht => a0 t (by simp only [Formula.atoms, List.mem_singleton] at ht; subst ht; simp)⟩
  · exact .inr ⟨_, h0, fun t ht => a0 t (by simp only [Formula.atoms, List.mem_singleton] at ht; subst ht; simp)⟩

set_option maxRecDepth 50000 in
set_option maxHeartbeats 4000000 in
theorem demo_parsed : ∃ ns0, ∀ r ∈ demoRuns, ∃ p w ns, demoWorld.main.run r.1 = .search p w ∧ p.mode = .console ∧
    parseArgs (ffOptions demoWorld.main.arg) demoWorld.main.arg.maxCpu r.1 = .ok ns ∧
    processDirectories demoWorld.main.isdir demoWorld.main.cwd (settingsOf ns).fargs.tests (settingsOf ns).dirs = some (r.2, [".".toList]) ∧
    (settingsOf ns).fargs.exclude = [] ∧ (settingsOf ns).fargs.ignore = false ∧ SameChoice ns0 ns := by
  refine ⟨match parseArgs (ffOptions demoWorld.main.arg) demoWorld.main.arg.maxCpu [] with | .ok ns => ns | .error _ => fun _ => .unset, fun r hr => ?_⟩
  simp only [demoRuns, List.mem_cons, List.not_mem_nil, or_false] at hr
  rcases hr with rfl | rfl | rfl | rfl | rfl | rfl | rfl
  · exact ⟨_, _, _, rfl, rfl, rfl, rfl, rfl, rfl, ⟨⟨rfl, rfl, rfl, rfl, rfl, rfl, rfl, rfl, rfl⟩, rfl⟩⟩
  · exact ⟨_, _, _, rfl, rfl, rfl, rfl, rfl, rfl, ⟨⟨rfl, rfl, rfl, rfl, rfl, rfl, rfl, rfl, rfl⟩, rfl⟩⟩
  · exact ⟨_, _, _, rfl, rfl, rfl, rfl, rfl, rfl, ⟨⟨rfl, rfl, rfl, rfl, rfl, rfl, rfl, rfl, rfl⟩, rfl⟩⟩
  · exact ⟨_, _, _, rfl, rfl, rfl, rfl, rfl, rfl, ⟨⟨rfl, rfl, rfl, rfl, rfl, rfl, rfl, rfl, rfl⟩, rfl⟩⟩
  · exact ⟨_, _, _, rfl, rfl, rfl, rfl, rfl, rfl, ⟨⟨rfl, rfl, rfl, rfl, rfl, rfl, rfl, rfl, rfl⟩, rfl⟩⟩
  · exact ⟨_, _, _, rfl, rfl, rfl, rfl, rfl, rfl, ⟨⟨rfl, rfl, rfl, rfl, rfl, rfl, rfl, rfl, rfl⟩, rfl⟩⟩
  · exact ⟨_, _, _, rfl, rfl, rfl, rfl, rfl, rfl, ⟨⟨rfl, rfl, rfl, rfl, rfl, rfl, rfl, rfl, rfl⟩, rfl⟩⟩

/-- `ff`, `ff depth=0`, `ff depth=1`, `ff depth=0 depth=1`, `ff depth=0 or depth=1`, `ff not depth=0` and `ff depth=0 -j 1` end with results, and the hypotheses of the theorems
hold for them. -/
example : ∃ ns0, ∀ r ∈ demoRuns, ∃ ns es, Results demoWorld r.1 ns r.2 [".".toList] es ∧ SameChoice ns0 ns := by
  obtain ⟨ns0, h⟩ := demo_parsed
  refine ⟨ns0, fun r hr' => ?_⟩
  obtain ⟨p, w, ns, hr, hm, hok, hd, h1, h2, hc⟩ := h r hr'
  have hP : Proper demoWorld ns r.2 [".".toList] := by
    have := demoWorld_proper h1 h2
    exact ⟨this.cpus, this.cwd, this.cwd2, this.env, this.exclude, demo_good r hr', this.different, this.named, this.trees⟩
  obtain ⟨k, s, hs, hf⟩ := C86_no_deadlock (demoWorld.cfg ns p) (demoWorld.imode ns p) true (demoWorld.roots ns p) (jobs_pos hP.cpus hok) .refl
  rw [roots_dir] at hs
  exact ⟨ns, s.done, ⟨p, w, hr, hok, hd, hP, .inl ⟨hm, k, s, hs, hf, rfl⟩⟩, hc⟩

end FF
