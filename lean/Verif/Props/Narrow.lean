import Verif.Spec.Narrow
import Verif.Props.Absolute
/-! Property C138: options that leave out files add none. -/
namespace FF
open Spec

theorem Spec.Narrower.found {ns ns' : NS} (h : Narrower ns ns') (hout : SameOutside ns ns') (W : World) (d : Str) : beneath W ns' d = beneath W ns d ∧ ∀ p, found W ns' d p = found W ns d p := by
  have hb : beneath W ns' d = beneath W ns d := by unfold beneath; rw [h.follow, h.absolute]
  have ho : ∀ r, Spec.outside W ns' r = Spec.outside W ns r := by
    intro r
    unfold Spec.outside
    rw [← h.parents, ← h.ignoreFiles]
    rcases hout with e | e
    · rw [e]
    · rw [if_neg (by rintro ⟨_, h2⟩; rw [e] at h2; cases h2), if_neg (by rintro ⟨_, h2⟩; rw [e] at h2; cases h2)]
  refine ⟨hb, fun p => ?_⟩
  unfold Spec.found
  rw [hb, ho, ← h.absolute, h.ignoreFiles]

theorem Spec.Narrower.avoided {ns ns' : NS} (h : Narrower ns ns') {S : SearchEnv} {i : EntInfo} {name : Str} (ha : Avoided S (settingsOf ns) i name) : Avoided S (settingsOf ns') i name := by
  rcases ha with ⟨t, h1, h2⟩ | ⟨h1, h2⟩ | ⟨h1, h2⟩ | ⟨h1, h2⟩
  · exact .inl ⟨t, h.exclude t h1, h2⟩
  · exact .inr (.inl ⟨h.ignore h1, h2⟩)
  · exact .inr (.inr (.inl ⟨h.hide h1, h2⟩))
  · exact .inr (.inr (.inr ⟨h.oneFileSystem h1, h2⟩))

/-- **C138**: with further options that leave out files, no other files are found. -/
theorem C138_fewer_partial {W : World} {a a' : List Str} {ns ns' : NS} {tests dirs : List Str} {es es' : List EntInfo} (h : Results W a ns tests dirs es) (h' : Results W a' ns' tests dirs es')
    (hn : Narrower ns ns') (ho : SameOutside ns ns') : ∀ i ∈ es', i ∈ es := by
  intro i hi
  obtain ⟨d, hd, p, hp, rfl, h1, h2, h3⟩ := wanted_at.1 ((h'.spec.2 i).1 hi)
  obtain ⟨hb, hf⟩ := hn.found ho W d
  have ha : asked W ns' = asked W ns := by unfold asked; rw [hn.case]
  rw [hb] at hp
  rw [hf p] at h1 ⊢
  refine (h.spec.2 _).2 (wanted_at.2 ⟨d, hd, p, hp, rfl, ha ▸ h1, ?_, ?_⟩)
  · rcases hn.depth with e | e
    · rw [e]; exact h2
    · exact .inl e
  · intro q n hq hav
    refine h3 q n hq ?_
    rw [hf, ha]
    exact hn.avoided hav

/-- **C138**: and whatever is missing is at another depth, or the options leave out the file or a directory on the way to it. -/
theorem C138_reason_partial {W : World} {a a' : List Str} {ns ns' : NS} {tests dirs : List Str} {es es' : List EntInfo} (h : Results W a ns tests dirs es) (h' : Results W a' ns' tests dirs es')
    (hn : Narrower ns ns') (ho : SameOutside ns ns') {i : EntInfo} (hi : i ∈ es) : i ∉ es' ↔ ∀ d ∈ dirs, ∀ p, Chain (beneath W ns' d) p → i = found W ns' d p → TooFar ns' p ∨ LeftOut W ns' d p := by
  have ha : asked W ns' = asked W ns := by unfold asked; rw [hn.case]
  obtain ⟨_, _, _, _, _, hm, _, _⟩ := wanted_at.1 ((h.spec.2 i).1 hi)
  constructor
  · intro hni d hd p hp he
    refine Classical.byContradiction fun hc => hni ((h'.spec.2 i).2 (wanted_at.2 ⟨d, hd, p, hp, he, ha ▸ hm, ?_, ?_⟩))
    · refine Classical.byContradiction fun hr => hc (.inl ⟨fun e => hr (.inl e), fun r hr1 hr2 => hr (.inr ⟨r, hr1, hr2⟩)⟩)
    · intro q n hq hav
      exact hc (.inr ⟨q, n, hq, hav⟩)
  · intro hall hin
    obtain ⟨d, hd, p, hp, he, _, h2, h3⟩ := wanted_at.1 ((h'.spec.2 i).1 hin)
    rcases hall d hd p hp he with ⟨t1, t2⟩ | ⟨q, n, hq, hav⟩
    · rcases h2 with h2 | ⟨r, hr, hr2⟩
      · exact t1 h2
      · exact t2 r hr hr2
    · exact h3 q n hq hav

/-- **C138**: also with `-I` alone, which makes the ignore files above the search directories count, no other files are found, if the tests and the exclude tests of the first command line are not
about ignore files. -/
theorem C138_ignore_partial {W : World} {a a' : List Str} {ns ns' : NS} {tests dirs : List Str} {es es' : List EntInfo} (h : Results W a ns tests dirs es) (h' : Results W a' ns' tests dirs es')
    (hn : Narrower ns ns') (hi : (ns "ignore".toList).truthy = false) (ht : ∀ t ∈ tests ++ (ns "exclude".toList).toWords, Unignoring (asked W ns) t)
    (hs : ∀ i l, (asked W ns).stat { i with ignorePaths := l } "samedev".toList = (asked W ns).stat i "samedev".toList) :
    ∀ i ∈ es', ∃ l, { i with ignorePaths := l } ∈ es := by
  intro i hin
  obtain ⟨d, hd, p, hp, rfl, h1, h2, h3⟩ := wanted_at.1 ((h'.spec.2 i).1 hin)
  have ha : asked W ns' = asked W ns := by unfold asked; rw [hn.case]
  have hb : beneath W ns' d = beneath W ns d := by unfold beneath; rw [hn.follow, hn.absolute]
  have hf : ∀ p, found W ns d p = { found W ns' d p with ignorePaths := (found W ns d p).ignorePaths } := by
    intro p
    unfold Spec.found entryAt
    simp only [hn.absolute]
  rw [hb] at hp
  refine ⟨(found W ns d p).ignorePaths, ?_⟩
  rw [← hf p]
  refine (h.spec.2 _).2 (wanted_at.2 ⟨d, hd, p, hp, rfl, ?_, ?_, ?_⟩)
  · rw [ha] at h1
    rw [hf p]
    unfold Meets at h1 ⊢
    refine h1.imp id ?_
    rintro ⟨f, hd1, hd2⟩
    exact ⟨f, hd1, by rw [← hd2]; exact eval_same hd1 fun t hm => ht t (List.mem_append.2 (.inl hm)) _ _⟩
  · rcases hn.depth with e | e
    · rw [e]; exact h2
    · exact .inl e
  · intro q n hq hav
    refine h3 q n hq ?_
    rw [ha]
    refine hn.avoided ?_
    rw [hf] at hav
    rcases hav with ⟨t, e1, e2⟩ | ⟨e1, _⟩ | e | ⟨e1, e2⟩
    · exact .inl ⟨t, e1, by rw [← ht t (List.mem_append.2 (.inr e1)) _ (found W ns d (q ++ [n])).ignorePaths]; exact e2⟩
    · have : (ns "ignore".toList).truthy = true := e1
      rw [hi] at this; cases this
    · exact .inr (.inr (.inl e))
    · exact .inr (.inr (.inr ⟨e1, by rw [← hs _ (found W ns d (q ++ [n])).ignorePaths]; exact e2⟩))

/-! ### Searches that meet the hypotheses -/

set_option maxRecDepth 50000 in
set_option maxHeartbeats 4000000 in
theorem demoNarrow_runs : ∃ p w p' w' ns ns', demoWorld.main.run ["name=b".toList] = .search p w ∧ p.mode = .console ∧
    demoWorld.main.run (["name=b", "-H", "--one-file-system", "-d", "1"].map String.toList) = .search p' w' ∧ p'.mode = .console ∧
    parseArgs (ffOptions demoWorld.main.arg) demoWorld.main.arg.maxCpu ["name=b".toList] = .ok ns ∧
    parseArgs (ffOptions demoWorld.main.arg) demoWorld.main.arg.maxCpu (["name=b", "-H", "--one-file-system", "-d", "1"].map String.toList) = .ok ns' ∧
    processDirectories demoWorld.main.isdir demoWorld.main.cwd (settingsOf ns).fargs.tests (settingsOf ns).dirs = some (["name=b".toList], [".".toList]) ∧
    processDirectories demoWorld.main.isdir demoWorld.main.cwd (settingsOf ns').fargs.tests (settingsOf ns').dirs = some (["name=b".toList], [".".toList]) ∧
    (settingsOf ns).fargs.exclude = [] ∧ (settingsOf ns).fargs.ignore = false ∧ (settingsOf ns').fargs.exclude = [] ∧ (settingsOf ns').fargs.ignore = false ∧
    (ns' "hide".toList).truthy = true ∧ (ns' "one_file_system".toList).truthy = true ∧ (ns' "depth".toList).toRanges ≠ [] ∧
    (ns "depth".toList).toRanges = [] ∧ (ns "hide".toList).truthy = false ∧ (ns "one_file_system".toList).truthy = false ∧
    (ns "no_parent_ignore".toList).truthy = (ns' "no_parent_ignore".toList).truthy ∧ (ns "ignore_files".toList).toWords = (ns' "ignore_files".toList).toWords ∧
    ns "case".toList = ns' "case".toList ∧ (ns "follow_symlinks".toList).truthy = (ns' "follow_symlinks".toList).truthy ∧ absolutely ns = absolutely ns' ∧
    (∃ t, (demoWorld.env ns).parseTest "name=b".toList = .ok (("file".toList, "name".toList), t)) ∧ (∃ t, (demoWorld.env ns').parseTest "name=b".toList = .ok (("file".toList, "name".toList), t)) :=
  ⟨_, _, _, _, _, _, rfl, rfl, rfl, rfl, rfl, rfl, rfl, rfl, rfl, rfl, rfl, rfl, rfl, rfl, (fun h => by cases h), rfl, rfl, rfl, rfl, rfl, rfl, rfl, rfl, ⟨_, rfl⟩, ⟨_, rfl⟩⟩

/-- `ff name=b` and `ff name=b -H --one-file-system -d 1`: the hypotheses hold. -/
example : ∃ ns ns' es es', Results demoWorld ["name=b".toList] ns ["name=b".toList] [".".toList] es ∧
    Results demoWorld (["name=b", "-H", "--one-file-system", "-d", "1"].map String.toList) ns' ["name=b".toList] [".".toList] es' ∧ Narrower ns ns' ∧ SameOutside ns ns' ∧ (settingsOf ns').fargs.hide = true := by
  obtain ⟨p, w, p', w', ns, ns', hr, hm, hr', hm', hok, hok', hd, hd', h1, h2, h1', h2', k1, k2, k3, k4, k5, k6, k7, k8, k9, k10, k11, ht, ht'⟩ := demoNarrow_runs
  have hP := demoPart_proper (.inl rfl) h1 h2 ht
  have hP' := demoPart_proper (.inl rfl) h1' h2' ht'
  obtain ⟨k, s, hs, hf⟩ := C86_no_deadlock (demoWorld.cfg ns p) (demoWorld.imode ns p) true (demoWorld.roots ns p) (jobs_pos hP.cpus hok) .refl
  obtain ⟨k', s', hs', hf'⟩ := C86_no_deadlock (demoWorld.cfg ns' p') (demoWorld.imode ns' p') true (demoWorld.roots ns' p') (jobs_pos hP'.cpus hok') .refl
  rw [roots_dir] at hs hs'
  have g1 : (ns "exclude".toList).toWords = [] := h1
  have g2 : (ns "ignore".toList).truthy = false := h2
  have g3 : (ns' "ignore".toList).truthy = false := h2'
  exact ⟨ns, ns', s.done, s'.done, ⟨p, w, hr, hok, hd, hP, .inl ⟨hm, k, s, hs, hf, rfl⟩⟩, ⟨p', w', hr', hok', hd', hP', .inl ⟨hm', k', s', hs', hf', rfl⟩⟩,
    ⟨fun _ => k1, fun _ => k2, (by rw [g1]; intro t h; cases h), .inr k4, (fun h => by rw [g2] at h; cases h), k7, k8, k9, k10, k11⟩, .inl (g2.trans g3.symm), k1⟩

/-- The hypotheses about the tests are met, too. -/
example (ns : NS) (i : EntInfo) (l : List Str) : (asked demoWorld ns).stat { i with ignorePaths := l } "samedev".toList = (asked demoWorld ns).stat i "samedev".toList := rfl

example {S : SearchEnv} {word : Str} (h : ∀ x, S.parseTest word = .ok x → x.1 = ("file".toList, "name".toList)) : Unignoring S word := by
  intro i l
  exact about_name h word (by simp) _ _ ⟨rfl, rfl, rfl⟩

end FF
