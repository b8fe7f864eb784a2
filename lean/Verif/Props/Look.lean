import Verif.Spec.Look
import Verif.Props.Relate
import Verif.Props.Commands
import Verif.Props.Api
/-! Property C128: different outputs of the same search agree. -/
namespace FF
open Spec

/-- The program has been run with these arguments, its results are these entries, and this is what it has printed: line by line as results are
found, or everything in the end. Processes find a queue empty only when nothing is under way, see C85. -/
def Prints (W : World) (argv : List Str) (ns : NS) (tests dirs : List Str) (results : List EntInfo) (out : Str) : Prop :=
  ∃ p w, W.main.run argv = .search p w ∧ parseArgs (ffOptions W.main.arg) W.main.arg.maxCpu argv = .ok ns ∧
    processDirectories W.main.isdir W.main.cwd (settingsOf ns).fargs.tests (settingsOf ns).dirs = some (tests, dirs) ∧ Proper W ns tests dirs ∧
    ((p.mode = .console ∧ (∃ k s, ASteps (W.cfg ns p) (W.imode ns p) true k (initAll (W.startDirs ns p) (ns "jobs".toList).toJobs) s ∧ s.finished = true ∧ s.done = results) ∧
        out = W.printed ns p results) ∨
     (p.mode = .collectiveConsole ∧ (∃ s, PSteps (W.cfg ns p) ⟨true, true⟩ (initState (W.startDirs ns p) (ns "jobs".toList).toJobs) s ∧ s.main = .finished ∧ s.collected = results) ∧
        W.collective ns p results = some out))

theorem Prints.results {W : World} {argv : List Str} {ns : NS} {tests dirs : List Str} {es : List EntInfo} {out : Str}
    (h : Prints W argv ns tests dirs es out) : Results W argv ns tests dirs es := by
  obtain ⟨p, w, h1, h2, h3, h4, ⟨h5, ⟨k, s, h6⟩, _⟩ | ⟨_, ⟨s, h6⟩, _⟩⟩ := h
  · exact ⟨p, w, h1, h2, h3, h4, .inl ⟨h5, k, s, h6⟩⟩
  · exact ⟨p, w, h1, h2, h3, h4, .inr ⟨s, h6⟩⟩

/-- A run that prints entries prints some arrangement of the results, or the part of it `--limit` allows. -/
theorem Prints.arranged {W : World} {argv : List Str} {ns : NS} {tests dirs : List Str} {es : List EntInfo} {out : Str}
    (h : Prints W argv ns tests dirs es out) (hs : ShowsEntries ns) :
    ∃ p w, W.main.run argv = .search p w ∧ parseArgs (ffOptions W.main.arg) W.main.arg.maxCpu argv = .ok ns ∧
      ∃ es', es'.Perm es ∧ out = W.printed ns p (limited (settingsOf ns).limit es') := by
  obtain ⟨p, w, hr, hok, h3, h4, h5⟩ := h
  refine ⟨p, w, hr, hok, ?_⟩
  have hc : (settingsOf ns).fargs.count = none := hs.1
  have hx : given (settingsOf ns).exec = false ∧ given (settingsOf ns).execBatch = false := by
    constructor
    · show given (ns "exec".toList).toOptWords = false; rw [hs.2.1]; rfl
    · show given (ns "exec_batch".toList).toOptWords = false; rw [hs.2.2]; rfl
  obtain ⟨_, hcnt, _, _⟩ := print_plan hr hok hc hx
  obtain ⟨ns', hok', _, hmode, _, _, hlim, _⟩ := search_settings hr
  rw [hok] at hok'
  cases hok'
  rcases h5 with ⟨hm, _, rfl⟩ | ⟨hm, _, hcol⟩
  · refine ⟨es, List.Perm.refl _, ?_⟩
    have hl : (settingsOf ns).limit = none := by
      rw [hm] at hmode
      cases hl : (settingsOf ns).limit with
      | none => rfl
      | some l =>
        rw [hl] at hmode
        unfold setupProcessing at hmode
        simp only [Option.isSome_some, Bool.or_true, Bool.true_or, if_true] at hmode
        split at hmode <;> cases hmode
    rw [hl]; rfl
  · unfold World.collective at hcol
    cases hf : (W.render ns).finalizeEntries W.digits p.sort p.reverse es with
    | none => rw [hf] at hcol; cases hcol
    | some es' =>
      rw [hf] at hcol
      have hcounted : W.counted ns p es = some [] := by unfold World.counted; rw [hcnt]
      simp only [hcounted, Option.map_some, List.append_nil, Option.some.injEq] at hcol
      refine ⟨es', ?_, ?_⟩
      · cases hso : p.sort with
        | none => rw [hso, C35_unsorted] at hf; cases hf; exact List.Perm.refl _
        | some fields => rw [hso] at hf; exact (C35_permutation _ _ _ _ _ _ hf).1
      · rw [← hcol, hlim]
        unfold limited
        split
        · rename_i e; rw [e]; rfl
        · rename_i e; rw [e]; rw [entriesRange_eq]

theorem look_output {W : World} {argv argv' : List Str} {p p' : Plan} {w w' : List Warning} {ns ns' : NS}
    (hr : W.main.run argv = .search p w) (hok : parseArgs (ffOptions W.main.arg) W.main.arg.maxCpu argv = .ok ns)
    (hr' : W.main.run argv' = .search p' w') (hok' : parseArgs (ffOptions W.main.arg) W.main.arg.maxCpu argv' = .ok ns')
    (hs : ShowsEntries ns) (hs' : ShowsEntries ns') (hl : SameLook ns ns') : p.output = p'.output := by
  have hx : ∀ {n : NS}, ShowsEntries n → given (settingsOf n).exec = false ∧ given (settingsOf n).execBatch = false := by
    intro n hn
    constructor
    · show given (n "exec".toList).toOptWords = false; rw [hn.2.1]; rfl
    · show given (n "exec_batch".toList).toOptWords = false; rw [hn.2.2]; rfl
  obtain ⟨_, _, _, h1⟩ := print_plan hr hok hs.1 (hx hs)
  obtain ⟨_, _, _, h2⟩ := print_plan hr' hok' hs'.1 (hx hs')
  have : (settingsOf ns).output = (settingsOf ns').output := hl.output
  rw [this, h2] at h1
  exact (Option.some.inj h1).symm

/-- What an entry looks like is the same in both runs. -/
theorem look_printed {W : World} {argv argv' : List Str} {p p' : Plan} {w w' : List Warning} {ns ns' : NS}
    (hr : W.main.run argv = .search p w) (hok : parseArgs (ffOptions W.main.arg) W.main.arg.maxCpu argv = .ok ns)
    (hr' : W.main.run argv' = .search p' w') (hok' : parseArgs (ffOptions W.main.arg) W.main.arg.maxCpu argv' = .ok ns')
    (hs : ShowsEntries ns) (hs' : ShowsEntries ns') (hl : SameLook ns ns') (hc : SameChoice ns ns')
    (hj : (ns "json".toList).toOptStr = none) (hj' : (ns' "json".toList).toOptStr = none) :
    ∃ line : EntInfo → Option Str, (∀ entries, OfLines ((ns "newline".toList).toOptStr.getD []) (entries.filterMap line) (W.printed ns p entries)) ∧
      ∀ entries, OfLines ((ns "newline".toList).toOptStr.getD []) (entries.filterMap line) (W.printed ns' p' entries) := by
  have hx : ∀ {n : NS}, ShowsEntries n → given (settingsOf n).exec = false ∧ given (settingsOf n).execBatch = false := by
    intro n hn
    constructor
    · show given (n "exec".toList).toOptWords = false; rw [hn.2.1]; rfl
    · show given (n "exec_batch".toList).toOptWords = false; rw [hn.2.2]; rfl
  have ho := look_output hr hok hr' hok' hs hs' hl
  obtain ⟨j1, c1, k1, _⟩ := print_plan hr hok hs.1 (hx hs)
  obtain ⟨j2, c2, k2, _⟩ := print_plan hr' hok' hs'.1 (hx hs')
  rw [show (settingsOf ns).fargs.json = none from hj] at j1 k1
  rw [show (settingsOf ns').fargs.json = none from hj'] at j2 k2
  simp only [Option.isSome_none, Bool.false_eq_true, if_false] at k1 k2
  have hcol : p.color = p'.color := by
    rw [k1, k2]
    show ((ns "color".toList).toOptStr).getD [] = ((ns' "color".toList).toOptStr).getD []
    rw [hl.color]
  have hpal : W.palette p' = W.palette p := by unfold World.palette; rw [hcol]
  have hcon : W.console ns' = W.console ns := by
    unfold World.console World.render World.env NVal.toText
    rw [hl.all, hl.si, hl.separator, hl.newline, hc.1.case, hc.1.follow]
  refine ⟨(W.console ns).line (W.palette p) p.output, fun entries => ?_, fun entries => ?_⟩
  · unfold World.printed OfLines
    rw [j1, c1]
    rfl
  · unfold World.printed OfLines
    rw [j2, c2, hpal, hcon, ← ho]
    rfl

theorem sublist_rest {α : Type} {a b : List α} (h : a.Sublist b) : ∃ r, (a ++ r).Perm b := by
  induction h with
  | slnil => exact ⟨[], List.Perm.refl _⟩
  | @cons a b x _ ih =>
    obtain ⟨r, hr⟩ := ih
    exact ⟨x :: r, (List.perm_middle).trans (hr.cons x)⟩
  | @cons_cons a b x _ ih =>
    obtain ⟨r, hr⟩ := ih
    exact ⟨r, hr.cons x⟩

theorem limited_sublist {α : Type} (l : Option (Int × Option Int)) (es : List α) : (limited l es).Sublist es := by
  unfold limited
  split
  · exact List.Sublist.refl _
  · rw [← entriesRange_eq]
    unfold entriesRange
    split
    · exact List.Sublist.refl _
    · exact ((List.drop_sublist _ _).trans (List.take_sublist _ _))

/-- C128: two searches that differ in `--sort`, `--reverse` and `--jobs` only print the same lines, each as often, in their own order.
Missing: a search that ends with an exception prints nothing (`C37_missing_false`), and as in `C102_same_partial`. -/
theorem C128_sorted_partial {W : World} {argv argv' : List Str} {ns ns' : NS} {tests dirs dirs' : List Str} {es es' : List EntInfo} {out out' : Str}
    (h : Prints W argv ns tests dirs es out) (h' : Prints W argv' ns' tests dirs' es' out') (hd : ∀ d, d ∈ dirs ↔ d ∈ dirs')
    (hc : SameChoice ns ns') (hl : SameLook ns ns') (hs : ShowsEntries ns) (hs' : ShowsEntries ns')
    (hj : (ns "json".toList).toOptStr = none) (hj' : (ns' "json".toList).toOptStr = none)
    (hn : (ns "limit".toList).toSlice = none) (hn' : (ns' "limit".toList).toSlice = none) :
    ∃ lines lines' : List Str, lines.Perm lines' ∧ OfLines ((ns "newline".toList).toOptStr.getD []) lines out ∧
      OfLines ((ns "newline".toList).toOptStr.getD []) lines' out' := by
  obtain ⟨p, w, hr, hok, a, ha, rfl⟩ := h.arranged hs
  obtain ⟨p', w', hr', hok', a', ha', rfl⟩ := h'.arranged hs'
  obtain ⟨line, l1, l2⟩ := look_printed hr hok hr' hok' hs hs' hl hc hj hj'
  have e1 : limited (settingsOf ns).limit a = a := by rw [show (settingsOf ns).limit = none from hn]; rfl
  have e2 : limited (settingsOf ns').limit a' = a' := by rw [show (settingsOf ns').limit = none from hn']; rfl
  rw [e1, e2]
  have hp := C102_same_partial h.results h'.results hd hc
  exact ⟨_, _, (ha.trans (hp.trans ha'.symm)).filterMap line, l1 a, l2 a'⟩

/-- C128: with `--limit` a search prints some of the lines it prints without. Missing: as in `C128_sorted_partial`. -/
theorem C128_limited_partial {W : World} {argv argv' : List Str} {ns ns' : NS} {tests dirs dirs' : List Str} {es es' : List EntInfo} {out out' : Str}
    (h : Prints W argv ns tests dirs es out) (h' : Prints W argv' ns' tests dirs' es' out') (hd : ∀ d, d ∈ dirs ↔ d ∈ dirs')
    (hc : SameChoice ns ns') (hl : SameLook ns ns') (hs : ShowsEntries ns) (hs' : ShowsEntries ns')
    (hj : (ns "json".toList).toOptStr = none) (hj' : (ns' "json".toList).toOptStr = none) (hn : (ns "limit".toList).toSlice = none) :
    ∃ lines lines' others : List Str, (lines' ++ others).Perm lines ∧ OfLines ((ns "newline".toList).toOptStr.getD []) lines out ∧
      OfLines ((ns "newline".toList).toOptStr.getD []) lines' out' := by
  obtain ⟨p, w, hr, hok, a, ha, rfl⟩ := h.arranged hs
  obtain ⟨p', w', hr', hok', a', ha', rfl⟩ := h'.arranged hs'
  obtain ⟨line, l1, l2⟩ := look_printed hr hok hr' hok' hs hs' hl hc hj hj'
  have e1 : limited (settingsOf ns).limit a = a := by rw [show (settingsOf ns).limit = none from hn]; rfl
  rw [e1]
  have hp := C102_same_partial h.results h'.results hd hc
  obtain ⟨r, hr⟩ := sublist_rest ((limited_sublist (settingsOf ns').limit a').filterMap line)
  exact ⟨_, _, r, hr.trans ((ha'.trans (hp.symm.trans ha.symm)).filterMap line), l1 a, l2 _⟩

theorem fieldText_name {t n : Str} {w : Option Str} {m : Option Char} (h : FieldText t n w m) : FieldName n := by
  cases h <;> assumption

theorem output_label {reg : List PluginDef} {words : List Str} {fs : List Field} (h : outputFields reg words = some fs) :
    ∀ f ∈ fs, f.label ≠ "_total".toList := by
  have name : ∀ n : Str, NameWord n → ∀ r, n ++ r ≠ "_total".toList := by
    rintro n ⟨c, d, ds, rfl, hc, _⟩ r e
    have : c = '_' := by
      have := congrArg List.head? e
      simpa using this
    subst this
    exact absurd hc (by unfold Letter; decide)
  intro f hf
  obtain ⟨x, _, hx⟩ := mapOption_mem h f hf
  unfold makeField at hx
  split at hx
  · cases hx
  · rename_i n wd m hsp
    have hn : FieldName n := fieldText_name ((C64_syntax _ _ _ _).1 hsp)
    have hne : n ≠ "_total".toList := by
      rcases hn with h | ⟨q, a, hq, _, rfl⟩
      · have := name n h []; simpa using this
      · exact name q hq _
    split at hx
    · cases hx
    · split at hx
      · cases hx
      · cases hx; exact hne

/-- If the statistics are printed, the number of results is among them. -/
theorem total_line {S : SearchEnv} {D : DigitEnv} {o : OutEnv} {fields : List Field} {es : List EntInfo} (hne : es ≠ [])
    (hl : ∀ f ∈ fields, f.label ≠ "_total".toList) {lines : List Str}
    (h : printCount D (prepareCount o (collectCount S fields ⟨none, []⟩ es)) = some lines) : ("_total=".toList ++ natStr es.length) ∈ lines := by
  have htot : (collectCount S fields ⟨none, []⟩ es).total = some es.length := by
    rw [collectCount_total, if_neg hne]; simp
  have hcounted := countLoop_counted S fields [es]
  have hloop : countLoop S fields [es] = collectCount S fields ⟨none, []⟩ es := rfl
  rw [hloop] at hcounted
  have hmem : ("_total".toList, PVal.num es.length) ∈ prepareCount o (collectCount S fields ⟨none, []⟩ es) := by
    unfold prepareCount
    rw [htot]
    exact foldl_dictSet_keep (fun fv hfv => hl fv.1 (hcounted fv.1 fv.2 hfv).1) (by simp)
  have hp := pySort_perm (fun a b : Str × PVal => strLe a.1 b.1) (prepareCount o (collectCount S fields ⟨none, []⟩ es))
  unfold printCount at h
  cases hm : mapOption (fun kv => printValue D kv.1 kv.2) (pySort (fun a b => strLe a.1 b.1) (prepareCount o (collectCount S fields ⟨none, []⟩ es))) with
  | none => rw [hm] at h; cases h
  | some yss =>
    rw [hm] at h
    cases h
    have hx := mapOption_eq_some hm
    have : some ["_total=".toList ++ natStr es.length] ∈ yss.map some := by
      rw [← hx]
      refine List.mem_map.2 ⟨_, hp.symm.subset hmem, ?_⟩
      have hN : intStr (es.length : Int) = natStr es.length := by
        unfold intStr; rw [if_neg (by omega)]; rfl
      simp only [printValue, hN]
      rfl
    obtain ⟨y, hy, hy'⟩ := List.mem_map.1 this
    rw [List.mem_flatten]
    exact ⟨y, hy, by rw [Option.some.inj hy']; simp⟩

/-- With `--count` results are collected. -/
theorem count_mode {W : World} {argv : List Str} {p : Plan} {w : List Warning} (hr : W.main.run argv = .search p w) {ns : NS}
    (hok : parseArgs (ffOptions W.main.arg) W.main.arg.maxCpu argv = .ok ns) (hc : given (settingsOf ns).fargs.count = true) : p.mode = .collectiveConsole := by
  obtain ⟨ns1, hok1, hno, hmode, _⟩ := search_settings hr
  rw [hok] at hok1
  cases hok1
  rw [hmode, hc]
  rw [hc] at hno
  revert hno
  cases given (settingsOf ns).exec <;> cases given (settingsOf ns).execBatch <;> simp [setupProcessing]

theorem countFields_output {reg : List PluginDef} {words : List Str} {fs : List Field} (h : countFields reg words = some fs) : outputFields reg words = some fs := by
  unfold countFields at h
  split at h
  · cases h
  · rename_i ho
    split at h
    · cases h
    · cases h; exact ho

/-- C128: the total of `--count` is the number of results of the same search without. Missing: nothing is printed if there are no results
(`C39_false`). -/
theorem C128_count_partial {W : World} {argv argv' : List Str} {ns ns' : NS} {tests dirs dirs' : List Str} {es es' : List EntInfo} {out : Str}
    (h : Prints W argv ns tests dirs es out) (h' : Results W argv' ns' tests dirs' es') (hd : ∀ d, d ∈ dirs ↔ d ∈ dirs') (hc : SameChoice ns ns')
    (hcount : ∃ f fs, (ns "count".toList).toOptWords = some (f :: fs)) (hj : (ns "json".toList).toOptStr = none) (hne : es' ≠ []) :
    ∃ lines : List Str, OfLines ['\n'] lines out ∧ ("_total=".toList ++ natStr es'.length) ∈ lines := by
  have hp := C102_same_partial h.results h' hd hc
  have hne' : es ≠ [] := by rintro rfl; exact hne hp.symm.eq_nil
  obtain ⟨p, w, hr, hok, h3, h4, h5⟩ := h
  obtain ⟨f, fs, hf⟩ := hcount
  have hg : given (settingsOf ns).fargs.count = true := by
    show given (ns "count".toList).toOptWords = true
    rw [hf]; rfl
  have hm := count_mode hr hok hg
  obtain ⟨fields, ho, hcnt, hjs⟩ := count_plan hr hok (show (settingsOf ns).fargs.count = some (f :: fs) from hf) (by simp)
  rw [show (settingsOf ns).fargs.json = none from hj] at hjs
  rcases h5 with ⟨hm', _⟩ | ⟨_, _, hcol⟩
  · rw [hm] at hm'; cases hm'
  · unfold World.collective at hcol
    split at hcol
    · cases hcol
    · have hpr : ∀ l, W.printed ns p l = [] := fun l => by unfold World.printed; rw [hcnt]; rfl
      simp only [hpr, List.nil_append, Option.map_id'] at hcol
      unfold World.counted at hcol
      rw [hcnt, hjs] at hcol
      simp only [Option.isSome_none, Bool.false_eq_true, if_false, Option.map_eq_some_iff] at hcol
      obtain ⟨lines, hl, rfl⟩ := hcol
      refine ⟨lines, rfl, ?_⟩
      rw [← hp.length_eq]
      exact total_line hne' (output_label (countFields_output ho)) hl

/-- C128: `--json` prints the same records as `--jsonl`, each as often: one prints them as a list, the other one in a line each. Missing: as in
`C128_sorted_partial`. -/
theorem C128_json_partial {W : World} {argv argv' : List Str} {ns ns' : NS} {tests dirs dirs' : List Str} {es es' : List EntInfo} {out out' : Str}
    (h : Prints W argv ns tests dirs es out) (h' : Prints W argv' ns' tests dirs' es' out') (hd : ∀ d, d ∈ dirs ↔ d ∈ dirs')
    (hc : SameChoice ns ns') (hl : SameLook ns ns') (hs : ShowsEntries ns) (hs' : ShowsEntries ns')
    (hj : (ns "json".toList).toOptStr = some "json".toList) (hj' : (ns' "json".toList).toOptStr = some "jsonl".toList)
    (hn : (ns "limit".toList).toSlice = none) (hn' : (ns' "limit".toList).toSlice = none) :
    ∃ (records records' : List JV) (text : Str) (lines : List Str), records.Perm records' ∧ records.length = es.length ∧ out = text ++ ['\n'] ∧ JText (.arr records) text ∧
      splitOn '\n' out' = lines ++ [[]] ∧ All2 JText records' lines := by
  obtain ⟨p, w, hr, hok, a, ha, rfl⟩ := h.arranged hs
  obtain ⟨p', w', hr', hok', a', ha', rfl⟩ := h'.arranged hs'
  have e1 : limited (settingsOf ns).limit a = a := by rw [show (settingsOf ns).limit = none from hn]; rfl
  have e2 : limited (settingsOf ns').limit a' = a' := by rw [show (settingsOf ns').limit = none from hn']; rfl
  rw [e1, e2]
  have hx : ∀ {n : NS}, ShowsEntries n → given (settingsOf n).exec = false ∧ given (settingsOf n).execBatch = false := by
    intro n hn
    constructor
    · show given (n "exec".toList).toOptWords = false; rw [hn.2.1]; rfl
    · show given (n "exec_batch".toList).toOptWords = false; rw [hn.2.2]; rfl
  obtain ⟨fs, ho, k⟩ := C87_json W hr hok hs.1 (hx hs)
  obtain ⟨fs', ho', k'⟩ := C87_json W hr' hok' hs'.1 (hx hs')
  rw [show (settingsOf ns).output = (settingsOf ns').output from hl.output, ho'] at ho
  cases ho
  have hren : W.render ns' = W.render ns := by
    unfold World.render World.env
    rw [hl.all, hl.si, hc.1.case]
  obtain ⟨t, ht, hjt⟩ := (k _ ((renders_iff W ns _).2 rfl) a).1 hj
  obtain ⟨ls, hls, hall⟩ := (k' _ ((renders_iff W ns' _).2 rfl) a').2 hj'
  rw [hren] at hall
  have hp := C102_same_partial h.results h'.results hd hc
  have all2 : ∀ {as : List EntInfo} {ls : List Str} {g : EntInfo → JV}, All2 (fun i l => JText (g i) l) as ls → All2 JText (as.map g) ls := by
    intro as ls g h
    induction h with
    | nil => exact .nil
    | cons h _ ih => exact .cons h ih
  exact ⟨_, _, t, ls, (ha.trans (hp.trans ha'.symm)).map _, by rw [List.length_map]; exact ha.length_eq, ht, hjt, hls, all2 hall⟩

/-! ### Runs that meet the hypotheses -/

theorem demoWorld_proper_all {ns : NS} (h1 : (settingsOf ns).fargs.exclude = []) (h2 : (settingsOf ns).fargs.ignore = false) :
    Proper demoWorld ns [] [".".toList] := by
  have := demoWorld_proper h1 h2
  exact ⟨this.cpus, this.cwd, this.cwd2, this.env, this.exclude, .inl rfl, this.different, this.named, this.trees⟩

/-- Something is found. -/
theorem demo_found {argv : List Str} {ns : NS} {es : List EntInfo} (h : Results demoWorld argv ns [] [".".toList] es)
    (h1 : (settingsOf ns).fargs.exclude = []) (h2 : (settingsOf ns).fargs.ignore = false) (h3 : (settingsOf ns).fargs.hide = false)
    (h4 : (settingsOf ns).fargs.oneFileSystem = false) (h5 : (settingsOf ns).fargs.depth = []) : es ≠ [] := by
  rintro rfl
  refine List.not_mem_nil ((h.spec.2 _).2 ⟨".".toList, by simp, [.mk "a".toList true [.mk "b".toList false []]], ?_, rfl, .inl rfl, .inl h5, ?_⟩)
  · simp [Chain, demoWorld, demoRoot]
  · rintro q n _ (⟨t, ht, _⟩ | ⟨hi, _⟩ | ⟨hh, _⟩ | ⟨ho, _⟩)
    · rw [h1] at ht; cases ht
    · rw [h2] at hi; cases hi
    · rw [h3] at hh; cases hh
    · rw [h4] at ho; cases ho

/-- The settings of these runs. -/
def LeavesNothing (ns : NS) : Prop :=
  (settingsOf ns).fargs.exclude = [] ∧ (settingsOf ns).fargs.ignore = false ∧ (settingsOf ns).fargs.hide = false ∧
    (settingsOf ns).fargs.oneFileSystem = false ∧ (settingsOf ns).fargs.depth = []

/-- `ff`, `ff -S`, `ff -1`, and `ff --json` and `ff --jsonl`. -/
def lookRuns : List (List Str × Option Str) :=
  [([], none), (["-S".toList], none), (["-1".toList], none), (["--json".toList], some "json".toList), (["--jsonl".toList], some "jsonl".toList)]

/-- The field `file.path`. -/
def lookPath : Field := { pathField with label := "file.path".toList }

def lookNS (argv : List Str) : NS := match parseArgs (ffOptions demoWorld.main.arg) demoWorld.main.arg.maxCpu argv with | .ok ns => ns | .error _ => fun _ => .unset

set_option maxRecDepth 50000 in
set_option maxHeartbeats 4000000 in
theorem look_parsed : ∀ r ∈ lookRuns, ∃ p w, demoWorld.main.run r.1 = .search p w ∧
    (p.mode = .console ∨ p.mode = .collectiveConsole ∧ (p.sort = none ∨ p.sort = some [lookPath])) ∧ p.count = none ∧
    parseArgs (ffOptions demoWorld.main.arg) demoWorld.main.arg.maxCpu r.1 = .ok (lookNS r.1) ∧
    processDirectories demoWorld.main.isdir demoWorld.main.cwd (settingsOf (lookNS r.1)).fargs.tests (settingsOf (lookNS r.1)).dirs = some ([], [".".toList]) ∧
    LeavesNothing (lookNS r.1) ∧ ((lookNS r.1) "json".toList).toOptStr = r.2 ∧ ShowsEntries (lookNS r.1) := by
  intro r hr
  simp only [lookRuns, List.mem_cons, List.not_mem_nil, or_false] at hr
  rcases hr with rfl | rfl | rfl | rfl | rfl
  · exact ⟨_, _, rfl, .inl rfl, rfl, rfl, rfl, ⟨rfl, rfl, rfl, rfl, rfl⟩, rfl, rfl, rfl, rfl⟩
  · exact ⟨_, _, rfl, .inr ⟨rfl, .inr rfl⟩, rfl, rfl, rfl, ⟨rfl, rfl, rfl, rfl, rfl⟩, rfl, rfl, rfl, rfl⟩
  · exact ⟨_, _, rfl, .inr ⟨rfl, .inl rfl⟩, rfl, rfl, rfl, ⟨rfl, rfl, rfl, rfl, rfl⟩, rfl, rfl, rfl, rfl⟩
  · exact ⟨_, _, rfl, .inr ⟨rfl, .inl rfl⟩, rfl, rfl, rfl, ⟨rfl, rfl, rfl, rfl, rfl⟩, rfl, rfl, rfl, rfl⟩
  · exact ⟨_, _, rfl, .inl rfl, rfl, rfl, rfl, ⟨rfl, rfl, rfl, rfl, rfl⟩, rfl, rfl, rfl, rfl⟩

set_option maxRecDepth 50000 in
set_option maxHeartbeats 4000000 in
/-- `ff` and `ff -S`, `ff` and `ff -1`, `ff --json` and `ff --jsonl` differ in what they may. -/
theorem look_same : SameChoice (lookNS []) (lookNS ["-S".toList]) ∧ SameLook (lookNS []) (lookNS ["-S".toList]) ∧
    SameChoice (lookNS []) (lookNS ["-1".toList]) ∧ SameLook (lookNS []) (lookNS ["-1".toList]) ∧
    SameChoice (lookNS ["--json".toList]) (lookNS ["--jsonl".toList]) ∧ SameLook (lookNS ["--json".toList]) (lookNS ["--jsonl".toList]) ∧
    ∀ r ∈ lookRuns, r.1 ≠ ["-1".toList] → ((lookNS r.1) "limit".toList).toSlice = none := by
  refine ⟨⟨⟨rfl, rfl, rfl, rfl, rfl, rfl, rfl, rfl, rfl⟩, rfl⟩, ⟨rfl, rfl, rfl, rfl, rfl, rfl⟩, ⟨⟨rfl, rfl, rfl, rfl, rfl, rfl, rfl, rfl, rfl⟩, rfl⟩, ⟨rfl, rfl, rfl, rfl, rfl, rfl⟩,
    ⟨⟨rfl, rfl, rfl, rfl, rfl, rfl, rfl, rfl, rfl⟩, rfl⟩, ⟨rfl, rfl, rfl, rfl, rfl, rfl⟩, ?_⟩
  intro r hr hn
  simp only [lookRuns, List.mem_cons, List.not_mem_nil, or_false] at hr
  rcases hr with rfl | rfl | rfl | rfl | rfl
  · rfl
  · rfl
  · exact absurd rfl hn
  · rfl
  · rfl

/-- The hypotheses of `C128_sorted_partial`, `C128_limited_partial` and `C128_json_partial` are met, by searches that find something. -/
example : ∀ r ∈ lookRuns, ∃ es out, Prints demoWorld r.1 (lookNS r.1) [] [".".toList] es out ∧ es ≠ [] := by
  intro r hr
  obtain ⟨p, w, hrun, hm, hcnt, hok, hd, ⟨h1, h2, h3, h4, h5⟩, _, _⟩ := look_parsed r hr
  have hP := demoWorld_proper_all h1 h2
  suffices h : ∃ es out, Prints demoWorld r.1 (lookNS r.1) [] [".".toList] es out by
    obtain ⟨es, out, h⟩ := h
    exact ⟨es, out, h, demo_found h.results h1 h2 h3 h4 h5⟩
  rcases hm with hm | ⟨hm, hs⟩
  · obtain ⟨k, s, hst, hf⟩ := C86_no_deadlock (demoWorld.cfg (lookNS r.1) p) (demoWorld.imode (lookNS r.1) p) true (demoWorld.roots (lookNS r.1) p) (jobs_pos hP.cpus hok) .refl
    rw [roots_dir] at hst
    exact ⟨s.done, _, p, w, hrun, hok, hd, hP, .inl ⟨hm, ⟨k, s, hst, hf, rfl⟩, rfl⟩⟩
  · obtain ⟨s, hst, hf⟩ := C86_collect_no_deadlock (demoWorld.cfg (lookNS r.1) p) ⟨true, true⟩ (demoWorld.roots (lookNS r.1) p) (jobs_pos hP.cpus hok) .refl
    rw [roots_dir] at hst
    have hfe : ∃ es', (demoWorld.render (lookNS r.1)).finalizeEntries demoWorld.digits p.sort p.reverse s.collected = some es' := by
      rcases hs with hs | hs
      · rw [hs, C35_unsorted]; exact ⟨_, rfl⟩
      · rw [hs]
        obtain ⟨o, ho, _⟩ := C35_sorted (demoWorld.render (lookNS r.1)) demoWorld.digits [lookPath] p.reverse s.collected (by simp [lookPath, pathField]) (by
          intro e _ f hf v hv
          rw [List.mem_singleton] at hf
          subst hf
          have : ∃ t, (demoWorld.render (lookNS r.1)).search.attr e lookPath.attr = some (.str t) := ⟨_, rfl⟩
          obtain ⟨t, ht⟩ := this
          rw [ht] at hv
          cases hv
          trivial)
        exact ⟨o, ho⟩
    obtain ⟨es', hfe⟩ := hfe
    have hc0 : demoWorld.counted (lookNS r.1) p s.collected = some [] := by unfold World.counted; rw [hcnt]
    exact ⟨s.collected, _, p, w, hrun, hok, hd, hP, .inr ⟨hm, ⟨s, hst, hf, rfl⟩, by unfold World.collective; rw [hfe, hc0]; rfl⟩⟩

/-- The field `size`. -/
def lookSize : Field := ⟨("file".toList, "size".toList), "size".toList, .size, none, none⟩

set_option maxRecDepth 50000 in
set_option maxHeartbeats 4000000 in
/-- `ff --count=size`. -/
theorem lookCount_run : ∃ p w, demoWorld.main.run ["--count=size".toList] = .search p w ∧ p.mode = .collectiveConsole ∧ p.sort = none ∧ p.count = some [lookSize] ∧ p.json = none ∧
    parseArgs (ffOptions demoWorld.main.arg) demoWorld.main.arg.maxCpu ["--count=size".toList] = .ok (lookNS ["--count=size".toList]) ∧
    processDirectories demoWorld.main.isdir demoWorld.main.cwd (settingsOf (lookNS ["--count=size".toList])).fargs.tests (settingsOf (lookNS ["--count=size".toList])).dirs =
      some ([], [".".toList]) ∧
    LeavesNothing (lookNS ["--count=size".toList]) ∧ ((lookNS ["--count=size".toList]) "json".toList).toOptStr = none ∧
    ((lookNS ["--count=size".toList]) "count".toList).toOptWords = some ["size".toList] ∧ SameChoice (lookNS ["--count=size".toList]) (lookNS []) :=
  ⟨_, _, rfl, rfl, rfl, rfl, rfl, rfl, rfl, ⟨rfl, rfl, rfl, rfl, rfl⟩, rfl, rfl, ⟨⟨rfl, rfl, rfl, rfl, rfl, rfl, rfl, rfl, rfl⟩, rfl⟩⟩

/-- The hypotheses of `C128_count_partial` are met: `ff --count=size` prints something. -/
example : ∃ es out, Prints demoWorld ["--count=size".toList] (lookNS ["--count=size".toList]) [] [".".toList] es out ∧ es ≠ [] := by
  obtain ⟨p, w, hrun, hm, hs, hcnt, hj, hok, hd, ⟨h1, h2, h3, h4, h5⟩, _⟩ := lookCount_run
  revert hrun hok hd h1 h2 h3 h4 h5
  generalize lookNS ["--count=size".toList] = ns
  intro hrun hok hd h1 h2 h3 h4 h5
  have hP := demoWorld_proper_all h1 h2
  obtain ⟨s, hst, hf⟩ := C86_collect_no_deadlock (demoWorld.cfg ns p) ⟨true, true⟩ (demoWorld.roots ns p) (jobs_pos hP.cpus hok) .refl
  rw [roots_dir] at hst
  have hes : s.collected ≠ [] :=
    demo_found ⟨p, w, hrun, hok, hd, hP, .inr ⟨s, hst, hf, rfl⟩⟩ h1 h2 h3 h4 h5
  obtain ⟨lines, hl, _⟩ := C39_partial (demoWorld.env ns) demoWorld.digits (demoWorld.render ns).out [lookSize] [s.collected] (by simpa using hes) (by simp [lookSize]) (by
    intro f hf hne
    rw [List.mem_singleton] at hf
    subst hf
    exact absurd rfl hne)
  refine ⟨s.collected, lines.flatMap (· ++ ['\n']), ⟨p, w, hrun, hok, hd, hP, .inr ⟨hm, ⟨s, hst, hf, rfl⟩, ?_⟩⟩, hes⟩
  · unfold World.collective World.counted
    rw [hs, C35_unsorted, hcnt, hj]
    have hl' : printCount demoWorld.digits (prepareCount (demoWorld.render ns).out (collectCount (demoWorld.env ns) [lookSize] ⟨none, []⟩ s.collected)) = some lines := hl
    simp only [Option.isSome_none, Bool.false_eq_true, if_false, hl', Option.map_some]
    unfold World.printed
    rw [hcnt]
    rfl

end FF
