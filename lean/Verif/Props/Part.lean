import Verif.Spec.Part
import Verif.Props.Relate
import Verif.Props.Ignore
/-! Property C116: a search in a part of a tree. -/
namespace FF
open Spec

theorem pathOf_joinWith : ∀ ns : List Str, pathOf ns = joinWith '/' ns
  | [] => rfl
  | [_] => rfl
  | a :: b :: ns => by rw [pathOf, joinWith, pathOf_joinWith (b :: ns)] <;> simp

theorem pathOf_append_two : ∀ {a b : List Str}, a ≠ [] → b ≠ [] → pathOf (a ++ b) = pathOf a ++ '/' :: pathOf b
  | [], _, h, _ => absurd rfl h
  | [x], b, _, hb => by
    cases b with
    | nil => exact absurd rfl hb
    | cons y b => rfl
  | x :: y :: a, b, _, hb => by
    have := pathOf_append_two (a := y :: a) (b := b) (by simp) hb
    show x ++ '/' :: pathOf ((y :: a) ++ b) = (x ++ '/' :: pathOf (y :: a)) ++ '/' :: pathOf b
    rw [this]
    simp

theorem target_names (cwd d : Str) : ∀ c ∈ target cwd d, IsFileName c := fun c hc => ⟨(target_comps cwd d c hc).1, (target_comps cwd d c hc).2.2⟩

theorem absOf_target (cwd d : Str) {ns : List Str} (h : ns ≠ []) : absOf ('/' :: joinWith '/' (target cwd d)) ns = '/' :: pathOf (target cwd d ++ ns) := by
  rw [← pathOf_joinWith]
  unfold absOf
  by_cases ht : target cwd d = []
  · rw [ht]; rfl
  · have := pathOf_ne_nil ht (target_names cwd d)
    rw [if_neg (by simpa using this), pathOf_append_two ht h]
    rfl

theorem found_abspath {W : World} {ns : NS} {d : Str} (hg : GoodTree (beneath W ns d)) {p : List FNode} (hp : Chain (beneath W ns d) p) :
    (found W ns d p).entry.abspath = '/' :: pathOf (target W.main.cwd d ++ p.map FNode.name) := by
  have hf := goodTree_chain hg hp
  obtain ⟨q, n, rfl⟩ : ∃ q n, p = q ++ [n] := by
    rcases List.eq_nil_or_concat p with h | ⟨q, n, h⟩
    · exact absurd h (chain_ne_nil hp)
    · exact ⟨q, n, by rw [h, List.concat_eq_append]⟩
  have := entry_abspath (start := beginning W (absolutely ns) d) (by simp [beginning]) (dir := q.map FNode.name) (n := n.name)
    (fun x hx => by obtain ⟨m, hm, rfl⟩ := List.mem_map.1 hx; exact hf m (by simp [hm])) (hf n (by simp))
  rw [← absOf_target _ _ (by simp), List.map_append]
  unfold found EntInfo.entry entryAt
  simp only [List.map_append]
  exact this

theorem down_chain : ∀ {p kids kids' : List FNode}, Down kids p kids' → ∀ {q}, Chain kids' q → Chain kids (p ++ q)
  | [], _, _, h, _, hq => by
    have : _ = _ := h
    subst this
    exact hq
  | n :: p, kids, kids', h, q, hq => by
    obtain ⟨h1, h2, h3⟩ := h
    rw [List.cons_append, chain_cons (by simp [chain_ne_nil hq])]
    exact ⟨h1, h2, down_chain h3 hq⟩

theorem nodup_names : ∀ {kids : List FNode}, (kids.map FNode.name).Nodup → ∀ {m n : FNode}, m ∈ kids → n ∈ kids → m.name = n.name → m = n
  | [], _, _, _, h, _, _ => absurd h (by simp)
  | k :: kids, hd, m, n, hm, hn, e => by
    rw [List.map_cons, List.nodup_cons] at hd
    rcases List.mem_cons.1 hm with rfl | hm' <;> rcases List.mem_cons.1 hn with rfl | hn'
    · rfl
    · exact absurd (List.mem_map.2 ⟨n, hn', e.symm⟩) hd.1
    · exact absurd (List.mem_map.2 ⟨m, hm', e⟩) hd.1
    · exact nodup_names hd.2 hm' hn' e

theorem chain_down : ∀ {p kids kids' : List FNode}, Down kids p kids' → GoodTree kids → ∀ {r}, Chain kids r → ∀ {ns : List Str}, ns ≠ [] → r.map FNode.name = p.map FNode.name ++ ns →
    ∃ q, r = p ++ q ∧ Chain kids' q
  | [], _, _, h, _, r, hr, _, _, _ => by
    have : _ = _ := h
    subst this
    exact ⟨r, rfl, hr⟩
  | n :: p, kids, kids', h, hg, r, hr, ns, hne, hn => by
    obtain ⟨h1, h2, h3⟩ := h
    cases r with
    | nil => simp at hn
    | cons m r =>
      rw [List.map_cons, List.map_cons, List.cons_append, List.cons.injEq] at hn
      have hr0 : r ≠ [] := by
        rintro rfl
        have := hn.2
        simp [hne] at this
      rw [chain_cons hr0] at hr
      have hmn : m = n := by
        cases hg with
        | mk _ hd _ => exact nodup_names hd hr.1 h1 hn.1
      subst hmn
      have hg' : GoodTree m.kids := by
        cases hg with
        | mk _ _ hk => exact hk m h1
      obtain ⟨q, rfl, hq⟩ := chain_down h3 hg' hr.2.2 hne hn.2
      exact ⟨q, rfl, hq⟩

theorem eval_same {g h : Str → Bool} {l : Level} {ts : List Str} {f : Formula} (hd : Derives l ts f) (e : ∀ t ∈ ts, g t = h t) : f.eval g = f.eval h := by
  induction hd <;> simp_all [Formula.eval]

theorem Spec.AboutFiles.meets {S : SearchEnv} {tests : List Str} (h : AboutFiles S tests) {i j : EntInfo} (hs : SamePlace i j) : Meets S tests i ↔ Meets S tests j := by
  unfold Meets
  refine or_congr Iff.rfl (exists_congr fun f => and_congr_right fun hd => ?_)
  rw [eval_same hd fun t ht => h t ht i j hs]

/-- What is asked for with such options. -/
theorem wanted_found {W : World} {ns : NS} (hd : (ns "depth".toList).toRanges = []) {tests : List Str} {d : Str} {i : EntInfo} :
    Wanted W ns tests [d] i ↔ ∃ p, Chain (beneath W ns d) p ∧ i = found W ns d p ∧ Meets (asked W ns) tests i ∧ Clear W ns d p := by
  have hd' : (settingsOf ns).fargs.depth = [] := hd
  unfold Wanted
  simp only [List.mem_singleton, exists_eq_left, hd', true_or, true_and]
  exact Iff.rfl

/-- Two searches, the second one in a directory to which the names of `p` lead from that of the first, or in the same one if there are none. The second one may have been started in another
directory, so that names are different. -/
structure Parts (W W' : World) (ns ns' : NS) (tests : List Str) (d d' : Str) (p : List FNode) : Prop where
  plugins : W'.main.reg = W.main.reg
  base : W'.base = W.base
  options : SameSearch ns ns'
  /-- the second directory is that to which `p` leads -/
  there : target W'.main.cwd d' = target W.main.cwd d ++ p.map FNode.name
  same : Down (beneath W ns d) p (beneath W' ns' d')
  about : AboutFiles (asked W ns) (tests ++ (ns "exclude".toList).toWords)

theorem Parts.asked {W W' : World} {ns ns' : NS} {tests : List Str} {d d' : Str} {p : List FNode} (h : Parts W W' ns ns' tests d d' p) : Spec.asked W' ns' = Spec.asked W ns := by
  unfold Spec.asked
  rw [h.plugins, h.base, h.options.case]

theorem Parts.tests {W W' : World} {ns ns' : NS} {tests : List Str} {d d' : Str} {p : List FNode} (h : Parts W W' ns ns' tests d d' p) : AboutFiles (Spec.asked W ns) tests :=
  fun t ht => h.about t (List.mem_append.2 (.inl ht))

theorem found_name {W : World} {ns : NS} {d : Str} (hd : d ≠ []) (hg : GoodTree (beneath W ns d)) {q : List FNode} {n : FNode} (hp : Chain (beneath W ns d) (q ++ [n])) :
    (found W ns d (q ++ [n])).entry.name = n.name :=
  entryAt_entry_name (by unfold beginning; split <;> simp [hd]) _ _ _ (goodTree_chain hg hp)

theorem Parts.place {W W' : World} {ns ns' : NS} {tests : List Str} {d d' : Str} {p : List FNode} (h : Parts W W' ns ns' tests d d' p) (hd : d ≠ []) (hd' : d' ≠ [])
    (hg : GoodTree (beneath W ns d)) (hg' : GoodTree (beneath W' ns' d')) {q : List FNode} (hq : Chain (beneath W' ns' d') q) : SamePlace (found W' ns' d' q) (found W ns d (p ++ q)) := by
  have hc := down_chain h.same hq
  refine ⟨?_, ?_, ?_⟩
  · rw [found_abspath hg' hq, found_abspath hg hc, h.there, List.map_append, List.append_assoc]
  · rcases List.eq_nil_or_concat q with e | ⟨r, n, e⟩
    · exact absurd e (chain_ne_nil hq)
    · rw [List.concat_eq_append] at e
      subst e
      rw [found_name hd' hg' hq]
      rw [← List.append_assoc] at hc ⊢
      rw [found_name hd hg hc]
  · show (q.getLast?.map FNode.isDir).getD false = ((p ++ q).getLast?.map FNode.isDir).getD false
    rw [List.getLast?_append, List.getLast?_eq_some_getLast (chain_ne_nil hq)]
    rfl

theorem Parts.avoided {W W' : World} {ns ns' : NS} {tests : List Str} {d d' : Str} {p : List FNode} (h : Parts W W' ns ns' tests d d' p) {i j : EntInfo} (hs : SamePlace i j) (n : Str) :
    Avoided (Spec.asked W' ns') (settingsOf ns') i n ↔ Avoided (Spec.asked W ns) (settingsOf ns) j n := by
  rw [h.asked]
  have e1 : (settingsOf ns').fargs.exclude = (settingsOf ns).fargs.exclude := h.options.exclude.symm
  have e2 : (settingsOf ns').fargs.hide = (settingsOf ns).fargs.hide := h.options.hide.symm
  have e3 : (settingsOf ns').fargs.ignore = false := h.options.ignore.2
  have e4 : (settingsOf ns).fargs.ignore = false := h.options.ignore.1
  have e5 : (settingsOf ns').fargs.oneFileSystem = false := h.options.oneFileSystem.2
  have e6 : (settingsOf ns).fargs.oneFileSystem = false := h.options.oneFileSystem.1
  unfold Avoided
  rw [e1, e2, e3, e4, e5, e6]
  refine or_congr (exists_congr fun t => and_congr_right fun ht => ?_) (by simp)
  rw [h.about t (List.mem_append.2 (.inr ht)) i j hs]

theorem Parts.clear {W W' : World} {ns ns' : NS} {tests : List Str} {d d' : Str} {p : List FNode} (h : Parts W W' ns ns' tests d d' p) (hd : d ≠ []) (hd' : d' ≠ [])
    (hg : GoodTree (beneath W ns d)) (hg' : GoodTree (beneath W' ns' d')) {q : List FNode} (hq : Chain (beneath W' ns' d') q) : Clear W ns d (p ++ q) ↔ Clear W ns d p ∧ Clear W' ns' d' q := by
  have key : ∀ r n, r ++ [n] <+: q → (Avoided (Spec.asked W' ns') (settingsOf ns') (found W' ns' d' (r ++ [n])) n.name ↔
      Avoided (Spec.asked W ns) (settingsOf ns) (found W ns d (p ++ r ++ [n])) n.name) := fun r n hr => by
    rw [List.append_assoc]
    exact h.avoided (h.place hd hd' hg hg' (chain_prefix hq (by simp) hr)) _
  constructor
  · intro hc
    exact ⟨fun r n hr => hc r n (hr.trans (List.prefix_append ..)), fun r n hr hav => hc (p ++ r) n (by
      rw [List.append_assoc]; exact (List.prefix_append_right_inj p).2 hr) ((key r n hr).1 hav)⟩
  · rintro ⟨h1, h2⟩ r n hr
    rcases List.prefix_or_prefix_of_prefix hr (List.prefix_append p q) with hr' | ⟨t, ht⟩
    · exact h1 r n hr'
    · rcases List.eq_nil_or_concat t with e | ⟨r', m, e⟩
      · subst e
        rw [List.append_nil] at ht
        exact h1 r n (by rw [ht]; exact List.prefix_refl _)
      · rw [List.concat_eq_append] at e
        subst e
        rw [← List.append_assoc] at ht
        obtain ⟨e1, e2⟩ := List.append_inj' ht rfl
        simp only [List.cons.injEq, and_true] at e2
        subst e1 e2
        rw [List.append_assoc, List.prefix_append_right_inj] at hr
        exact fun hav => h2 r' m hr ((key r' m hr).2 hav)

/-- **C116**: a search in a directory finds those files of a search in one above it that are below this directory, with the same options and tests that are about files, provided that nothing
on the way to it is left out; and a search in the same directory under another name, or from elsewhere, finds the same files. -/
theorem C116_part_partial {W W' : World} {a a' : List Str} {ns ns' : NS} {tests : List Str} {d d' : Str} {es es' : List EntInfo} {p : List FNode}
    (h : Results W a ns tests [d] es) (h' : Results W' a' ns' tests [d'] es') (hp : Parts W W' ns ns' tests d d' p) (hc : Clear W ns d p) (x : Str) :
    (∃ i ∈ es', i.entry.abspath = x) ↔ Under (target W'.main.cwd d') x ∧ ∃ i ∈ es, i.entry.abspath = x := by
  have hd : d ≠ [] := (h.good.named d (by simp)).1
  have hd' : d' ≠ [] := (h'.good.named d' (by simp)).1
  have hg : GoodTree (beneath W ns d) := h.good.trees _ _
  have hg' : GoodTree (beneath W' ns' d') := h'.good.trees _ _
  simp only [h.spec.2, h'.spec.2, wanted_found hp.options.depth.1, wanted_found hp.options.depth.2]
  constructor
  · rintro ⟨i, ⟨q, hq, rfl, hm, hcl⟩, rfl⟩
    have hs := hp.place hd hd' hg hg' hq
    refine ⟨⟨q.map FNode.name, by simp [chain_ne_nil hq], ?_, found_abspath hg' hq⟩, found W ns d (p ++ q), ⟨p ++ q, down_chain hp.same hq, rfl, ?_, ?_⟩, hs.1.symm⟩
    · intro n hn
      obtain ⟨m, hm', rfl⟩ := List.mem_map.1 hn
      exact goodTree_chain hg' hq m hm'
    · rw [hp.asked] at hm
      exact (hp.tests.meets hs).1 hm
    · exact (hp.clear hd hd' hg hg' hq).2 ⟨hc, hcl⟩
  · rintro ⟨⟨names, hne, hn, hx⟩, i, ⟨r, hr, rfl, hm, hcl⟩, rfl⟩
    rw [found_abspath hg hr, hp.there, List.cons.injEq, List.append_assoc] at hx
    have := pathOf_inj (by
      intro y hy
      rcases List.mem_append.1 hy with hy | hy
      · exact target_names _ _ y hy
      · obtain ⟨m, hm', rfl⟩ := List.mem_map.1 hy
        exact goodTree_chain hg hr m hm') (by
      intro y hy
      rcases List.mem_append.1 hy with hy | hy
      · exact target_names _ _ y hy
      · rcases List.mem_append.1 hy with hy' | hy'
        · exact target_names W'.main.cwd d' y (by rw [hp.there]; exact List.mem_append.2 (.inr hy'))
        · exact hn y hy') hx.2
    obtain ⟨q, rfl, hq⟩ := chain_down hp.same hg hr hne (List.append_cancel_left this)
    have hs := hp.place hd hd' hg hg' hq
    refine ⟨found W' ns' d' q, ⟨q, hq, rfl, ?_, ((hp.clear hd hd' hg hg' hq).1 hcl).2⟩, hs.1⟩
    rw [hp.asked]
    exact (hp.tests.meets hs).2 hm

/-- **C116**: and nothing below the directory is found from above if it is left out, or something on the way to it is. -/
theorem C116_avoided_partial {W W' : World} {a : List Str} {ns ns' : NS} {tests : List Str} {d d' : Str} {es : List EntInfo} {p : List FNode}
    (h : Results W a ns tests [d] es) (hd' : d' ≠ []) (hg' : GoodTree (beneath W' ns' d')) (hp : Parts W W' ns ns' tests d d' p) (hc : ¬ Clear W ns d p) (x : Str)
    (hx : Under (target W'.main.cwd d') x) : ¬ ∃ i ∈ es, i.entry.abspath = x := by
  have hd : d ≠ [] := (h.good.named d (by simp)).1
  have hg : GoodTree (beneath W ns d) := h.good.trees _ _
  simp only [h.spec.2, wanted_found hp.options.depth.1]
  rintro ⟨i, ⟨r, hr, rfl, hm, hcl⟩, rfl⟩
  obtain ⟨names, hne, hn, hx⟩ := hx
  rw [found_abspath hg hr, hp.there, List.cons.injEq, List.append_assoc] at hx
  have := pathOf_inj (by
    intro y hy
    rcases List.mem_append.1 hy with hy | hy
    · exact target_names _ _ y hy
    · obtain ⟨m, hm', rfl⟩ := List.mem_map.1 hy
      exact goodTree_chain hg hr m hm') (by
    intro y hy
    rcases List.mem_append.1 hy with hy | hy
    · exact target_names _ _ y hy
    · rcases List.mem_append.1 hy with hy' | hy'
      · exact target_names W'.main.cwd d' y (by rw [hp.there]; exact List.mem_append.2 (.inr hy'))
      · exact hn y hy') hx.2
  obtain ⟨q, rfl, hq⟩ := chain_down hp.same hg hr hne (List.append_cancel_left this)
  exact hc ((hp.clear hd hd' hg hg' hq).1 hcl).1

/-- Tests are about files if the values of their attributes are. -/
theorem about_values {S : SearchEnv} {word : Str} (h : ∀ x, S.parseTest word = .ok x → ∀ i j, SamePlace i j → S.attr i x.1 = S.attr j x.1) : AboutFiles S [word] := by
  intro t ht i j hs
  simp only [List.mem_singleton] at ht
  subst ht
  unfold holds
  split
  · rename_i x hx
    have : S.outcome i x = S.outcome j x := by
      unfold SearchEnv.outcome
      rw [h x hx i j hs, hs.2.1, hs.2.2]
    rw [this]
  · rfl

/-- Tests for `name` are. -/
theorem about_name {S : SearchEnv} {word : Str} (h : ∀ x, S.parseTest word = .ok x → x.1 = ("file".toList, "name".toList)) : AboutFiles S [word] := by
  refine about_values fun x hx i j hs => ?_
  rw [h x hx]
  have : ∀ i, S.attr i ("file".toList, "name".toList) = some (.str i.entry.name) := fun i => rfl
  rw [this, this, hs.2.1]

/-! ### Searches that meet the hypotheses -/

/-- `demoWorld`, seen from `a`. -/
def demoPart : World := { demoWorld with main := { demoWorld.main with cwd := "/h/a".toList }, tree := fun _ _ => [.mk "b".toList false []] }

set_option maxRecDepth 50000 in
set_option maxHeartbeats 4000000 in
theorem demoPart_runs : ∃ p w p' w' ns, demoWorld.main.run ["name=b".toList] = .search p w ∧ p.mode = .console ∧ demoPart.main.run ["name=b".toList] = .search p' w' ∧ p'.mode = .console ∧
    parseArgs (ffOptions demoWorld.main.arg) demoWorld.main.arg.maxCpu ["name=b".toList] = .ok ns ∧
    processDirectories demoWorld.main.isdir demoWorld.main.cwd (settingsOf ns).fargs.tests (settingsOf ns).dirs = some (["name=b".toList], [".".toList]) ∧
    processDirectories demoPart.main.isdir demoPart.main.cwd (settingsOf ns).fargs.tests (settingsOf ns).dirs = some (["name=b".toList], [".".toList]) ∧
    (settingsOf ns).fargs.exclude = [] ∧ (settingsOf ns).fargs.ignore = false ∧ (settingsOf ns).fargs.hide = false ∧ SameSearch ns ns ∧
    ∃ t, (demoWorld.env ns).parseTest "name=b".toList = .ok (("file".toList, "name".toList), t) :=
  ⟨_, _, _, _, _, rfl, rfl, rfl, rfl, rfl, rfl, rfl, rfl, rfl, rfl, ⟨rfl, rfl, rfl, rfl, ⟨rfl, rfl⟩, ⟨rfl, rfl⟩, ⟨rfl, rfl⟩⟩, _, rfl⟩

theorem demo_word : Word "name=b".toList := by unfold Word Kw Open Close; decide

theorem demoPart_proper {W : World} (hW : W = demoWorld ∨ W = demoPart) {ns : NS} (h1 : (settingsOf ns).fargs.exclude = []) (h2 : (settingsOf ns).fargs.ignore = false)
    (ht : ∃ t, (demoWorld.env ns).parseTest "name=b".toList = .ok (("file".toList, "name".toList), t)) : Proper W ns ["name=b".toList] [".".toList] := by
  have hP := demoWorld_proper h1 h2
  have hg : GoodExpression (demoWorld.env ns) ["name=b".toList] := by
    refine .inr ⟨.atom "name=b".toList, .single (.item (.prim (.atom demo_word))), fun t h => ?_⟩
    simp only [Formula.atoms, List.mem_singleton] at h
    subst h
    obtain ⟨t, ht⟩ := ht
    exact ⟨_, ht⟩
  rcases hW with rfl | rfl
  · exact ⟨hP.cpus, hP.cwd, hP.cwd2, hP.env, hP.exclude, hg, hP.different, hP.named, hP.trees⟩
  · refine ⟨hP.cpus, ⟨"h/a".toList, rfl⟩, ?_, hP.env, hP.exclude, hg, hP.different, hP.named, fun _ _ => (?_ : GoodTree [.mk "b".toList false []])⟩
    · rintro ⟨r, hr, _⟩
      simp [demoPart] at hr
    refine .mk ?_ (by simp) ?_
    · intro n hn; simp only [List.mem_singleton] at hn; subst hn; exact ⟨by decide, by decide⟩
    · intro n hn; simp only [List.mem_singleton] at hn; subst hn; exact .mk (by simp [FNode.kids]) (by simp [FNode.kids]) (by simp [FNode.kids])

/-- `ff name=b` in `/h` and in `/h/a`: the hypotheses hold. -/
example : ∃ ns es es' p, Results demoWorld ["name=b".toList] ns ["name=b".toList] [".".toList] es ∧ Results demoPart ["name=b".toList] ns ["name=b".toList] [".".toList] es' ∧
    Parts demoWorld demoPart ns ns ["name=b".toList] ".".toList ".".toList p ∧ p ≠ [] ∧ Clear demoWorld ns ".".toList p ∧ Under (target demoPart.main.cwd ".".toList) "/h/a/b".toList := by
  obtain ⟨p, w, p', w', ns, hr, hm, hr', hm', hok, hd, hd', h1, h2, h3, h4, ht⟩ := demoPart_runs
  have hP := demoPart_proper (.inl rfl) h1 h2 ht
  have hP' := demoPart_proper (.inr rfl) h1 h2 ht
  obtain ⟨k, s, hs, hf⟩ := C86_no_deadlock (demoWorld.cfg ns p) (demoWorld.imode ns p) true (demoWorld.roots ns p) (jobs_pos hP.cpus hok) .refl
  obtain ⟨k', s', hs', hf'⟩ := C86_no_deadlock (demoPart.cfg ns p') (demoPart.imode ns p') true (demoPart.roots ns p') (jobs_pos hP'.cpus hok) .refl
  rw [roots_dir] at hs hs'
  have h5 : (settingsOf ns).fargs.oneFileSystem = false := h4.oneFileSystem.1
  have hx : (ns "exclude".toList).toWords = [] := h1
  refine ⟨ns, s.done, s'.done, [.mk "a".toList true [.mk "b".toList false []]], ⟨p, w, hr, hok, hd, hP, .inl ⟨hm, k, s, hs, hf, rfl⟩⟩,
    ⟨p', w', hr', hok, hd', hP', .inl ⟨hm', k', s', hs', hf', rfl⟩⟩, ⟨rfl, rfl, h4, by decide +kernel, ⟨List.mem_cons_self .., rfl, rfl⟩, ?_⟩, by simp, ?_,
    ["b".toList], by simp, by simp [IsFileName], by decide +kernel⟩
  · rw [hx, List.append_nil]
    refine about_name fun x hx' => ?_
    obtain ⟨t, ht⟩ := ht
    rw [← env_asked, ht] at hx'
    cases hx'
    rfl
  · intro q n _ hav
    unfold Avoided at hav
    simp [h1, h2, h3, h5] at hav

end FF
