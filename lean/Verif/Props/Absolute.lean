import Verif.Spec.Absolute
import Verif.Props.Part
import Verif.Props.Natural
import Verif.Props.PathGlob
import Verif.Props.Os
/-! Property C137: `--absolute-path` changes how paths are shown and nothing else. -/
namespace FF
open Spec

/-- What `splitext` does with a path is what it does with its last part. -/
theorem splitext_dir {z n : Str} (hn : '/' ∉ n) (hz : z = [] ∨ ∃ y, z = y ++ ['/']) : splitext (z ++ n) = (z ++ (splitext n).1, (splitext n).2) := by
  have h := C59_splitext_spec n
  generalize (splitext n).1 = a at h ⊢
  generalize (splitext n).2 = b at h ⊢
  refine splitext_iff.1 ?_
  cases h with
  | ext d lead e h1 h2 h3 hd hx =>
    have : d = [] := by
      rcases hd with h | ⟨y, rfl⟩
      · exact h
      · simp at hn
    subst this
    have := StemExt.ext z lead e h1 h2 h3 hz hx
    simpa [List.append_assoc] using this
  | none d k w h1 h2 hd =>
    have : d = [] := by
      rcases hd with h | ⟨y, rfl⟩
      · exact h
      · simp at hn
    subst this
    have := StemExt.none z k w h1 h2 hz
    simpa [List.append_assoc] using this

/-- A path is shown as something in front of the name. -/
theorem shown_path {root absroot : Str} (hr : root ≠ []) {dir : List Str} {n : Str} (hd : ∀ x ∈ dir, IsFileName x) (hn : IsFileName n) :
    ∃ z, (mkEntry root absroot (pathOf (dir ++ [n]))).path = z ++ n ∧ (z = [] ∨ ∃ y, z = y ++ ['/']) := by
  have hall : ∀ x ∈ dir ++ [n], IsFileName x := by
    intro x hx
    rcases List.mem_append.1 hx with h | h
    · exact hd x h
    · simp only [List.mem_singleton] at h; subst h; exact hn
  have hrel : ∃ z, pathOf (dir ++ [n]) = z ++ n ∧ (z = [] ∨ ∃ y, z = y ++ ['/']) := by
    by_cases h : dir = []
    · subst h; exact ⟨[], rfl, .inl rfl⟩
    · refine ⟨pathOf dir ++ ['/'], ?_, .inr ⟨_, rfl⟩⟩
      rw [pathOf_append_two h (by simp)]
      simp [pathOf]
  obtain ⟨z, hz, hz'⟩ := hrel
  show ∃ z, (if root ≠ ['.'] then pathJoin root (pathOf (dir ++ [n])) else pathOf (dir ++ [n])) = z ++ n ∧ _
  split
  · rw [pathJoin_root hr hall (by simp)]
    unfold Spec.absOf
    rw [hz]
    split
    · refine ⟨'/' :: z, rfl, .inr ?_⟩
      rcases hz' with rfl | ⟨y, rfl⟩
      · exact ⟨[], rfl⟩
      · exact ⟨'/' :: y, rfl⟩
    · refine ⟨root ++ '/' :: z, by simp, .inr ?_⟩
      rcases hz' with rfl | ⟨y, rfl⟩
      · exact ⟨root, rfl⟩
      · exact ⟨root ++ '/' :: y, by simp⟩
  · exact ⟨z, hz, hz'⟩

/-- **C137**: the attributes of a file that are not about the path as it is shown are the same. -/
theorem C137_attributes {S : SearchEnv} (hf : Faithful S) {i j : EntInfo} (h : SameFile i j) {a : Attr} (ha : a ∉ shownAttributes) : S.attr i a = S.attr j a := by
  obtain ⟨names, hne, hn, hrel⟩ := h.names
  obtain ⟨dir, n, rfl⟩ : ∃ q n, names = q ++ [n] := by
    rcases List.eq_nil_or_concat names with h | ⟨q, n, h⟩
    · exact absurd h hne
    · exact ⟨q, n, by rw [h, List.concat_eq_append]⟩
  have hd : ∀ x ∈ dir, IsFileName x := fun x hx => hn x (by simp [hx])
  have hn' : IsFileName n := hn n (by simp)
  have key : ∀ k : EntInfo, k.start.root ≠ [] → k.relpath = pathOf (dir ++ [n]) → k.entry.name = n ∧ k.entry.ext = (splitext n).2.drop 1 ∧ k.entry.namex = (splitext n).1 := by
    intro k hk hkr
    obtain ⟨z, hz, hz'⟩ := shown_path (absroot := k.start.absroot) hk hd hn'
    have hp : k.entry.path = z ++ n := by unfold EntInfo.entry; rw [hkr]; exact hz
    refine ⟨?_, ?_, ?_⟩
    · unfold EntInfo.entry
      rw [hkr]
      exact entry_name (start := k.start) hk hd hn'
    · unfold Entry.ext
      rw [hp, splitext_dir hn'.2 hz']
    · unfold Entry.namex Entry.pathx
      rw [hp, splitext_dir hn'.2 hz']
      refine (IsName.unique (basename_isName _) ?_)
      exact ⟨z, rfl, fun hm => hn'.2 (splitext_mem (.inl hm)), hz'⟩
  obtain ⟨i1, i2, i3⟩ := key i h.written.1 hrel
  obtain ⟨j1, j2, j3⟩ := key j h.written.2 (h.relpath ▸ hrel)
  have e1 : i.entry.name = j.entry.name := i1.trans j1.symm
  have e2 : i.entry.ext = j.entry.ext := i2.trans j2.symm
  have e3 : i.entry.namex = j.entry.namex := i3.trans j3.symm
  have e4 : i.entry.relpath = j.entry.relpath := h.relpath
  have e5 : i.entry.hide = j.entry.hide := by unfold Entry.hide; rw [e1]
  have e6 : i.entry.depth = j.entry.depth := by unfold Entry.depth; rw [e4]
  obtain ⟨f1, f2⟩ := hf i j h
  unfold SearchEnv.attr
  split
  · rename_i hfile
    obtain ⟨a1, a2⟩ := a
    simp only at hfile
    subst hfile
    simp only [shownAttributes, List.map_cons, List.map_nil, List.mem_cons, Prod.mk.injEq, true_and, List.not_mem_nil, or_false, not_or] at ha
    obtain ⟨h1, h2, h3, h4, h5⟩ := ha
    unfold SearchEnv.fileAttr
    simp only [h1, h2, h3, h4, h5, if_false, e1, e2, e3, e4, e5, e6, f1]
  · exact f2 _ _

theorem Spec.SameFile.name {i j : EntInfo} (h : SameFile i j) : i.entry.name = j.entry.name := by
  obtain ⟨names, hne, hn, hrel⟩ := h.names
  obtain ⟨dir, n, rfl⟩ : ∃ q n, names = q ++ [n] := by
    rcases List.eq_nil_or_concat names with h | ⟨q, n, h⟩
    · exact absurd h hne
    · exact ⟨q, n, by rw [h, List.concat_eq_append]⟩
  have key : ∀ k : EntInfo, k.start.root ≠ [] → k.relpath = pathOf (dir ++ [n]) → k.entry.name = n := by
    intro k hk hkr
    unfold EntInfo.entry
    rw [hkr]
    exact entry_name (start := k.start) hk (fun x hx => hn x (by simp [hx])) (hn n (by simp))
  rw [key i h.written.1 hrel, key j h.written.2 (h.relpath ▸ hrel)]

theorem Spec.SameFile.abspath {i j : EntInfo} (h : SameFile i j) : i.entry.abspath = j.entry.abspath := by
  unfold EntInfo.entry mkEntry
  simp only [h.start, h.relpath]

/-- **C137**: tests for such attributes have the same outcome. -/
theorem C137_tests {S : SearchEnv} (hf : Faithful S) {i j : EntInfo} (h : SameFile i j) {word : Str} (hw : NotShown S word) : holds S i word = holds S j word := by
  unfold holds
  split
  · rename_i x hx
    have : S.outcome i x = S.outcome j x := by
      unfold SearchEnv.outcome
      rw [C137_attributes hf h (hw x hx), h.name, h.isDir]
    rw [this]
  · rfl

theorem Spec.SameFile.meets {S : SearchEnv} (hf : Faithful S) {i j : EntInfo} (h : SameFile i j) {tests : List Str} (ht : ∀ t ∈ tests, NotShown S t) : Meets S tests i ↔ Meets S tests j := by
  unfold Meets
  refine or_congr Iff.rfl (exists_congr fun f => and_congr_right fun hd => ?_)
  rw [eval_same hd fun t hm => C137_tests hf h (ht t hm)]

theorem Spec.SameFile.avoided {S : SearchEnv} (hf : Faithful S) {i j : EntInfo} (h : SameFile i j) {ns ns' : NS} (ho : ShownOnly ns ns')
    (ht : ∀ t ∈ (ns "exclude".toList).toWords ++ (if (ns "ignore".toList).truthy then ["ignored=yes".toList] else []), NotShown S t) (name : Str) : Avoided S (settingsOf ns) i name ↔ Avoided S (settingsOf ns') j name := by
  have e1 : (settingsOf ns).fargs.exclude = (settingsOf ns').fargs.exclude := ho.exclude
  have e2 : (settingsOf ns).fargs.ignore = (settingsOf ns').fargs.ignore := ho.ignore
  have e3 : (settingsOf ns).fargs.hide = (settingsOf ns').fargs.hide := ho.hide
  have e4 : (settingsOf ns).fargs.oneFileSystem = (settingsOf ns').fargs.oneFileSystem := ho.oneFileSystem
  unfold Avoided
  rw [← e1, ← e2, ← e3, ← e4, (hf i j h).1]
  refine or_congr (exists_congr fun t => and_congr_right fun hm => ?_) (or_congr (and_congr_right fun hg => ?_) Iff.rfl)
  · rw [C137_tests hf h (ht t (List.mem_append.2 (.inl hm)))]
  · have hg' : (ns "ignore".toList).truthy = true := hg
    rw [C137_tests hf h (ht _ (List.mem_append.2 (.inr (by rw [if_pos hg']; exact List.mem_singleton.2 rfl))))]

/-- Where a directory is. -/
def fullPath (W : World) (d : Str) : Str := '/' :: joinWith '/' (target W.main.cwd d)

theorem sameFile_found {W : World} {ns ns' : NS} (ho : ShownOnly ns ns') {d : Str} (hd : d ≠ []) (hg : GoodTree (beneath W ns d))
    (htree : W.tree (ns "follow_symlinks".toList).truthy (fullPath W d) = W.tree (ns "follow_symlinks".toList).truthy d)
    (hi : (ns "ignore".toList).truthy = false ∨ (ns "no_parent_ignore".toList).truthy = true) :
    beneath W ns' d = beneath W ns d ∧ ∀ p, Chain (beneath W ns d) p → SameFile (found W ns d p) (found W ns' d p) ∧ (found W ns' d p).entry.path = (found W ns d p).entry.abspath := by
  have hon : absolutely ns' = true := ho.on
  have hb : beneath W ns' d = beneath W ns d := by
    unfold beneath
    rw [← ho.follow, hon, ho.off]
    exact htree
  have out1 : ∀ r, outside W ns r = [] := by
    intro r; unfold outside
    rw [if_neg]
    rintro ⟨h1, h2⟩
    rcases hi with h | h
    · rw [h] at h1; cases h1
    · rw [h] at h2; cases h2
  have out2 : ∀ r, outside W ns' r = [] := by
    intro r; unfold outside
    rw [if_neg]
    rw [← ho.ignore, ← ho.parents]
    rintro ⟨h1, h2⟩
    rcases hi with h | h
    · rw [h] at h1; cases h1
    · rw [h] at h2; cases h2
  refine ⟨hb, fun p hp => ⟨⟨?_, ?_, ?_, ?_, ?_, ?_⟩, ?_⟩⟩
  · rfl
  · constructor
    · show (beginning W (absolutely ns) d).root ≠ []
      rw [ho.off]; exact hd
    · show (beginning W (absolutely ns') d).root ≠ []
      rw [hon]; simp [beginning]
  · rfl
  · refine ⟨p.map FNode.name, by simp [chain_ne_nil hp], ?_, rfl⟩
    intro x hx
    obtain ⟨m, hm, rfl⟩ := List.mem_map.1 hx
    exact goodTree_chain hg hp m hm
  · rfl
  · show outside W ns _ ++ ignoresOn _ _ [] (beneath W ns d) p = outside W ns' _ ++ ignoresOn _ _ [] (beneath W ns' d) p
    rw [out1, out2, hb, ho.ignoreFiles]
    rfl
  · have : (beginning W (absolutely ns') d).root = fullPath W d := by rw [hon]; rfl
    show (if (beginning W (absolutely ns') d).root ≠ ['.'] then pathJoin (beginning W (absolutely ns') d).root (pathOf (p.map FNode.name)) else pathOf (p.map FNode.name)) =
      pathJoin (fullPath W d) (pathOf (p.map FNode.name))
    rw [this, if_pos (by simp [fullPath])]

/-- What is asked for. -/
theorem wanted_at {W : World} {ns : NS} {tests dirs : List Str} {i : EntInfo} : Wanted W ns tests dirs i ↔ ∃ d ∈ dirs, ∃ p, Chain (beneath W ns d) p ∧ i = found W ns d p ∧
    Meets (asked W ns) tests i ∧ ((ns "depth".toList).toRanges = [] ∨ ∃ r ∈ (ns "depth".toList).toRanges, InRange ((p.length : Int) - 1) r) ∧ Clear W ns d p := Iff.rfl

/-- **C137**: with `--absolute-path` the same files are found, and the path of each is its absolute path, unless there are tests for attributes that are about the path as it is shown.
With `--ignore` this needs `--no-parent-ignore`. -/
theorem C137_same_partial {W : World} {a a' : List Str} {ns ns' : NS} {tests dirs : List Str} {es es' : List EntInfo} (h : Results W a ns tests dirs es) (h' : Results W a' ns' tests dirs es')
    (ho : ShownOnly ns ns') (hf : Faithful (asked W ns)) (htree : ∀ d ∈ dirs, ∀ follow, W.tree follow (fullPath W d) = W.tree follow d)
    (hi : (ns "ignore".toList).truthy = false ∨ (ns "no_parent_ignore".toList).truthy = true)
    (ht : ∀ t ∈ tests ++ ((ns "exclude".toList).toWords ++ (if (ns "ignore".toList).truthy then ["ignored=yes".toList] else [])), NotShown (asked W ns) t) :
    (∀ i ∈ es, ∃ j ∈ es', SameFile i j ∧ j.entry.path = i.entry.abspath) ∧ ∀ j ∈ es', ∃ i ∈ es, SameFile i j ∧ j.entry.path = i.entry.abspath := by
  have ha : asked W ns' = asked W ns := by unfold asked; rw [ho.case]
  have key : ∀ d ∈ dirs, beneath W ns' d = beneath W ns d ∧ ∀ p, Chain (beneath W ns d) p → SameFile (found W ns d p) (found W ns' d p) ∧
      (found W ns' d p).entry.path = (found W ns d p).entry.abspath :=
    fun d hd => sameFile_found ho (h.good.named d hd).1 (h.good.trees _ _) (htree d hd _) hi
  have hclear : ∀ d ∈ dirs, ∀ p, Chain (beneath W ns d) p → (Clear W ns d p ↔ Clear W ns' d p) := by
    intro d hd p hp
    unfold Clear
    refine forall_congr' fun q => forall_congr' fun n => forall_congr' fun hq => not_congr ?_
    rw [ha]
    exact ((key d hd).2 _ (chain_prefix hp (by simp) hq)).1.avoided hf ho (fun t hm => ht t (List.mem_append.2 (.inr hm))) _
  have hm : ∀ d ∈ dirs, ∀ p, Chain (beneath W ns d) p → (Meets (asked W ns) tests (found W ns d p) ↔ Meets (asked W ns') tests (found W ns' d p)) := by
    intro d hd p hp
    rw [ha]
    exact ((key d hd).2 p hp).1.meets hf fun t hm => ht t (List.mem_append.2 (.inl hm))
  constructor
  · intro i hi'
    obtain ⟨d, hd, p, hp, rfl, h1, h2, h3⟩ := wanted_at.1 ((h.spec.2 i).1 hi')
    refine ⟨found W ns' d p, (h'.spec.2 _).2 (wanted_at.2 ⟨d, hd, p, (key d hd).1 ▸ hp, rfl, (hm d hd p hp).1 h1, ho.depth ▸ h2, (hclear d hd p hp).1 h3⟩), (key d hd).2 p hp⟩
  · intro j hj
    obtain ⟨d, hd, p, hp, rfl, h1, h2, h3⟩ := wanted_at.1 ((h'.spec.2 j).1 hj)
    rw [(key d hd).1] at hp
    refine ⟨found W ns d p, (h.spec.2 _).2 (wanted_at.2 ⟨d, hd, p, hp, rfl, (hm d hd p hp).2 h1, ho.depth ▸ h2, (hclear d hd p hp).2 h3⟩), (key d hd).2 p hp⟩

/-- Different search directories are in different places. -/
theorem Results.apart {W : World} {a : List Str} {ns : NS} {tests dirs : List Str} {es : List EntInfo} (h : Results W a ns tests dirs es) {d e : Str} (hd : d ∈ dirs) (he : e ∈ dirs)
    (hf : fullPath W d = fullPath W e) : d = e := by
  obtain ⟨p, w, _, _, hpd, hP, _⟩ := h
  have hp := C56_disjoint_partial hP.cwd hP.cwd2 hpd (fun d hd => (hP.named d hd).2) hP.different
  have ht : target W.main.cwd d = target W.main.cwd e := by
    unfold fullPath at hf
    rw [List.cons.injEq] at hf
    exact joinWith_inj (target_comps _ _) (target_comps _ _) hf.2
  clear hpd hP
  induction dirs with
  | nil => cases hd
  | cons x xs ih =>
    rw [List.pairwise_cons] at hp
    rcases List.mem_cons.1 hd with rfl | hd' <;> rcases List.mem_cons.1 he with rfl | he'
    · rfl
    · exact absurd (by rw [ht]; exact List.prefix_rfl) (hp.1 e he').2
    · exact absurd (by rw [ht]; exact List.prefix_rfl) (hp.1 d hd').1
    · exact ih hd' he' hp.2

/-- An entry with its absolute path as path. -/
def shownAbsolutely (i : EntInfo) : EntInfo := { i with start := ⟨i.start.absroot, i.start.absroot⟩ }

/-- **C137**: so the paths with `--absolute-path` are the absolute paths without, each as often, in some order. -/
theorem C137_paths_partial {W : World} {a a' : List Str} {ns ns' : NS} {tests dirs : List Str} {es es' : List EntInfo} (h : Results W a ns tests dirs es) (h' : Results W a' ns' tests dirs es')
    (ho : ShownOnly ns ns') (hf : Faithful (asked W ns)) (htree : ∀ d ∈ dirs, ∀ follow, W.tree follow (fullPath W d) = W.tree follow d)
    (hi : (ns "ignore".toList).truthy = false ∨ (ns "no_parent_ignore".toList).truthy = true)
    (ht : ∀ t ∈ tests ++ ((ns "exclude".toList).toWords ++ (if (ns "ignore".toList).truthy then ["ignored=yes".toList] else [])), NotShown (asked W ns) t) :
    (es'.map fun i => i.entry.path).Perm (es.map fun i => i.entry.abspath) := by
  obtain ⟨k1, k2⟩ := C137_same_partial h h' ho hf htree hi ht
  have hon : absolutely ns' = true := ho.on
  have start : ∀ i ∈ es, ∃ d ∈ dirs, i.start = ⟨d, fullPath W d⟩ := by
    intro i hm
    obtain ⟨d, hd, p, hp, rfl, _⟩ := wanted_at.1 ((h.spec.2 i).1 hm)
    refine ⟨d, hd, ?_⟩
    show beginning W (absolutely ns) d = _
    rw [ho.off]; rfl
  have start' : ∀ j ∈ es', ∃ d ∈ dirs, j.start = ⟨fullPath W d, fullPath W d⟩ := by
    intro j hm
    obtain ⟨d, hd, p, hp, rfl, _⟩ := wanted_at.1 ((h'.spec.2 j).1 hm)
    refine ⟨d, hd, ?_⟩
    show beginning W (absolutely ns') d = _
    rw [hon]; rfl
  have same : ∀ i j, j ∈ es' → SameFile i j → j = shownAbsolutely i := by
    intro i j hj hs
    obtain ⟨d, hd, e⟩ := start' j hj
    obtain ⟨⟨r1, r2⟩, rel, dir, ign⟩ := i
    obtain ⟨⟨s1, s2⟩, rel', dir', ign'⟩ := j
    obtain ⟨g1, _, g2, _, g3, g4⟩ := hs
    simp only [Start.mk.injEq] at e g1 g2 g3 g4
    subst g1 g2 g3 g4
    simp only [shownAbsolutely, EntInfo.mk.injEq, Start.mk.injEq, and_true]
    rw [e.1, e.2]
  have hp : es'.Perm (es.map shownAbsolutely) := by
    refine (List.perm_ext_iff_of_nodup h'.spec.1 ?_).2 fun j => ⟨fun hj => ?_, fun hj => ?_⟩
    · unfold List.Nodup
      rw [List.pairwise_map]
      refine (List.Pairwise.and_mem.1 h.spec.1).imp ?_
      rintro x y ⟨hx, hy, hne⟩ hxy
      refine hne ?_
      obtain ⟨d, hd, e⟩ := start x hx
      obtain ⟨d2, hd2, e2⟩ := start y hy
      obtain ⟨⟨r1, r2⟩, rel, dir, ign⟩ := x
      obtain ⟨⟨s1, s2⟩, rel', dir', ign'⟩ := y
      simp only [shownAbsolutely, EntInfo.mk.injEq, Start.mk.injEq, and_self] at hxy e e2
      obtain ⟨g1, g2, g3, g4⟩ := hxy
      have : d = d2 := h.apart hd hd2 (by rw [← e.2, ← e2.2, g1])
      rw [e.1, e2.1, g1, g2, g3, g4, this]
    · obtain ⟨i, hi', hs, _⟩ := k2 j hj
      exact List.mem_map.2 ⟨i, hi', (same i j hj hs).symm⟩
    · obtain ⟨i, hi', rfl⟩ := List.mem_map.1 hj
      obtain ⟨j, hj', hs, _⟩ := k1 i hi'
      rw [← same i j hj' hs]
      exact hj'
  have e : (es.map shownAbsolutely).map (fun i => i.entry.path) = es.map fun i => i.entry.abspath := by
    rw [List.map_map]
    refine List.map_congr_left fun i hi' => ?_
    obtain ⟨d, hd, e⟩ := start i hi'
    show (if i.start.absroot ≠ ['.'] then pathJoin i.start.absroot i.relpath else i.relpath) = pathJoin i.start.absroot i.relpath
    rw [e, if_pos (by simp [fullPath])]
  rw [← e]
  exact hp.map _

/-! ### What is not the same -/

/-- C137 fails for tests for `hidden`: if the current directory is hidden, then no file in it is with relative paths and all are with absolute ones. -/
theorem C137_hidden_false : (foundEntry false "/home/u/.config".toList ".".toList "x.c".toList).hidden = false ∧
    (foundEntry true "/home/u/.config".toList ".".toList "x.c".toList).hidden = true := by decide

set_option maxRecDepth 50000 in
set_option maxHeartbeats 4000000 in
/-- C137 fails for `-I` alone: in `/w/x/y`, `ff -I` uses the ignore file of `/w/x`, `ff -I -a` does not, see C18. -/
theorem C137_ignore_false : ∃ (W : World) (ns ns' : NS), parseArgs (ffOptions W.main.arg) W.main.arg.maxCpu ["-I".toList] = .ok ns ∧
    parseArgs (ffOptions W.main.arg) W.main.arg.maxCpu ["-I".toList, "-a".toList] = .ok ns' ∧ ShownOnly ns ns' ∧
    outside W ns (beginning W (absolutely ns) ".".toList).root = ["/w/x/.gitignore".toList] ∧ outside W ns' (beginning W (absolutely ns') ".".toList).root = [] := by
  refine ⟨{ demoWorld with main := { demoWorld.main with cwd := "/w/x/y".toList }, pathExists := fun p => p = "/w/x/.gitignore".toList }, _, _, rfl, rfl,
    ⟨rfl, rfl, rfl, rfl, rfl, rfl, rfl, rfl, rfl, rfl, rfl⟩, ?_, ?_⟩
  · decide +kernel
  · decide +kernel

/-! ### Searches that meet the hypotheses -/

theorem demoWorld_faithful (ns : NS) : Faithful (asked demoWorld ns) := by
  intro i j h
  refine ⟨fun name => ?_, fun plugin name => rfl⟩
  show (if name = "samedev".toList then some (Val.bool (i.relpath ≠ "mnt".toList)) else none) = if name = "samedev".toList then some (Val.bool (j.relpath ≠ "mnt".toList)) else none
  rw [h.relpath]

set_option maxRecDepth 50000 in
set_option maxHeartbeats 4000000 in
theorem demoAbsolute_runs : ∃ p w p' w' ns ns', demoWorld.main.run ["name=b".toList] = .search p w ∧ p.mode = .console ∧ demoWorld.main.run ["name=b".toList, "-a".toList] = .search p' w' ∧ p'.mode = .console ∧
    parseArgs (ffOptions demoWorld.main.arg) demoWorld.main.arg.maxCpu ["name=b".toList] = .ok ns ∧
    parseArgs (ffOptions demoWorld.main.arg) demoWorld.main.arg.maxCpu ["name=b".toList, "-a".toList] = .ok ns' ∧
    processDirectories demoWorld.main.isdir demoWorld.main.cwd (settingsOf ns).fargs.tests (settingsOf ns).dirs = some (["name=b".toList], [".".toList]) ∧
    processDirectories demoWorld.main.isdir demoWorld.main.cwd (settingsOf ns').fargs.tests (settingsOf ns').dirs = some (["name=b".toList], [".".toList]) ∧
    (settingsOf ns).fargs.exclude = [] ∧ (settingsOf ns).fargs.ignore = false ∧ ShownOnly ns ns' ∧
    (∃ t, (demoWorld.env ns).parseTest "name=b".toList = .ok (("file".toList, "name".toList), t)) ∧ (∃ t, (demoWorld.env ns').parseTest "name=b".toList = .ok (("file".toList, "name".toList), t)) :=
  ⟨_, _, _, _, _, _, rfl, rfl, rfl, rfl, rfl, rfl, rfl, rfl, rfl, rfl, ⟨rfl, rfl, rfl, rfl, rfl, rfl, rfl, rfl, rfl, rfl, rfl⟩, ⟨_, rfl⟩, ⟨_, rfl⟩⟩

set_option maxRecDepth 50000 in
set_option maxHeartbeats 4000000 in
/-- `ff` and `ff --json`. -/
example : ∃ ns ns', parseArgs (ffOptions demoWorld.main.arg) demoWorld.main.arg.maxCpu ["name=b".toList] = .ok ns ∧
    parseArgs (ffOptions demoWorld.main.arg) demoWorld.main.arg.maxCpu ["name=b".toList, "--json".toList] = .ok ns' ∧ ShownOnly ns ns' :=
  ⟨_, _, rfl, rfl, ⟨rfl, rfl, rfl, rfl, rfl, rfl, rfl, rfl, rfl, rfl, rfl⟩⟩

/-- `ff name=b` and `ff name=b -a`: the hypotheses hold. -/
example : ∃ ns ns' es es', Results demoWorld ["name=b".toList] ns ["name=b".toList] [".".toList] es ∧
    Results demoWorld ["name=b".toList, "-a".toList] ns' ["name=b".toList] [".".toList] es' ∧ ShownOnly ns ns' ∧ Faithful (asked demoWorld ns) ∧
    (∀ d ∈ [".".toList], ∀ follow, demoWorld.tree follow (fullPath demoWorld d) = demoWorld.tree follow d) ∧
    ((ns "ignore".toList).truthy = false ∨ (ns "no_parent_ignore".toList).truthy = true) ∧
    ∀ t ∈ ["name=b".toList] ++ ((ns "exclude".toList).toWords ++ (if (ns "ignore".toList).truthy then ["ignored=yes".toList] else [])), NotShown (asked demoWorld ns) t := by
  obtain ⟨p, w, p', w', ns, ns', hr, hm, hr', hm', hok, hok', hd, hd', h1, h2, ho, ht, ht'⟩ := demoAbsolute_runs
  have h1' : (settingsOf ns').fargs.exclude = [] := ho.exclude.symm.trans h1
  have h2' : (settingsOf ns').fargs.ignore = false := ho.ignore.symm.trans h2
  have hP := demoPart_proper (.inl rfl) h1 h2 ht
  have hP' := demoPart_proper (.inl rfl) h1' h2' ht'
  obtain ⟨k, s, hs, hf⟩ := C86_no_deadlock (demoWorld.cfg ns p) (demoWorld.imode ns p) true (demoWorld.roots ns p) (jobs_pos hP.cpus hok) .refl
  obtain ⟨k', s', hs', hf'⟩ := C86_no_deadlock (demoWorld.cfg ns' p') (demoWorld.imode ns' p') true (demoWorld.roots ns' p') (jobs_pos hP'.cpus hok') .refl
  rw [roots_dir] at hs hs'
  have g1 : (ns "exclude".toList).toWords = [] := h1
  have g2 : (ns "ignore".toList).truthy = false := h2
  refine ⟨ns, ns', s.done, s'.done, ⟨p, w, hr, hok, hd, hP, .inl ⟨hm, k, s, hs, hf, rfl⟩⟩, ⟨p', w', hr', hok', hd', hP', .inl ⟨hm', k', s', hs', hf', rfl⟩⟩, ho,
    demoWorld_faithful ns, fun _ _ _ => rfl, .inl g2, ?_⟩
  intro t hmem x hx
  rw [g1, g2] at hmem
  simp only [Bool.false_eq_true, if_false, List.append_nil, List.mem_singleton] at hmem
  subst hmem
  obtain ⟨t, ht⟩ := ht
  rw [← env_asked, ht] at hx
  cases hx
  show (("file".toList, "name".toList) : Attr) ∉ shownAttributes
  decide

end FF
