import Verif.Props.OptionOrder
import Verif.Props.Relate
/-! C125: options that stand for exclude tests. -/
namespace FF
open Spec

/-- The settings that are off until an option turns them on. -/
def switches : List Str := ["hide".toList, "ignore".toList, "one_file_system".toList, "no_parent_ignore".toList]

set_option maxRecDepth 20000 in
theorem opt_switch (env : ArgEnv) {o : ArgOpt} (ho : o ∈ ffOptions env) : o.dest ∈ switches → o.action = .storeTrue :=
  opt_all (fun x => x.1 ∈ switches → x.2.1 = .storeTrue) (by intro d; cases d <;> decide) env ho

theorem init_switches (env : ArgEnv) : ∀ k ∈ switches, initNS (ffOptions env) k = .bool false := by
  obtain ⟨d, m, c, n⟩ := env
  intro k hk
  simp only [switches, List.mem_cons, List.not_mem_nil, or_false] at hk
  rcases hk with rfl | rfl | rfl | rfl <;> cases d <;> rfl

theorem switch_item (env : ArgEnv) {args : ArgOpt} (ht : Table (ffOptions env) args) {i : CItem} (hi : ItemOk (ffOptions env) i) (hd : i.dest args ∈ switches) (m : Int) (x : NVal) :
    effect m x i = .ok (.bool true) := by
  cases hi with
  | @flag o ho hf =>
    have := opt_switch env ho hd
    simp [effect, flagVal, this]
  | @arg o v ho ha =>
    have := opt_switch env ho hd
    rcases ha with h | h | ⟨c, h⟩ <;> rw [h] at this <;> cases this
  | @bare o ho ha =>
    have := opt_switch env ho hd
    obtain ⟨c, h⟩ := ha; rw [h] at this; cases this
  | @rest o ws ho ha _ => have := opt_switch env ho hd; rw [ha] at this; cases this
  | words _ => have := opt_switch env ht.args_mem.1 hd; rw [ht.args_mem.2] at this; cases this

theorem switch_effects (env : ArgEnv) {args : ArgOpt} (ht : Table (ffOptions env) args) (m : Int) : ∀ (is : List CItem), (∀ i ∈ is, ItemOk (ffOptions env) i) →
    (∀ i ∈ is, i.dest args ∈ switches) → is ≠ [] → ∀ x, effects m x is = .ok (.bool true)
  | [], _, _, h => absurd rfl h
  | [i], hi, hd, _ => by intro x; simp only [effects, switch_item env ht (hi i (by simp)) (hd i (by simp)) m x]
  | i :: j :: is, hi, hd, _ => by
    intro x
    rw [effects, switch_item env ht (hi i (by simp)) (hd i (by simp)) m x]
    exact switch_effects env ht m (j :: is) (fun k hk => hi k (by simp [List.mem_cons.1 hk])) (fun k hk => hd k (by simp [List.mem_cons.1 hk])) (by simp) _

theorem switch_on (env : ArgEnv) {args : ArgOpt} (ht : Table (ffOptions env) args) {items : List CItem} {ws : List Str}
    (h : Spells (ffOptions env) items ws) {key : Str} (hk : key ∈ switches) (hne : about args key items ≠ []) {ns : NS}
    (hok : parseArgs (ffOptions env) env.maxCpu ws = .ok ns) : ns key = .bool true := by
  unfold parseArgs at hok
  rw [C52_spellings_partial ht _ h, meanings_effects] at hok
  have h1 := hok key
  rw [switch_effects env ht _ (about args key items) (fun i hm => spells_items h i (List.mem_filter.1 hm).1) (fun i hm => by
    have : i.dest args = key := by simpa [about] using (List.mem_filter.1 hm).2
    rw [this]; exact hk) hne] at h1
  exact (Except.ok.inj h1).symm

/-- How the settings of the two command lines are related. -/
structure Swapped (key test ex : Str) (ns ns' : NS) : Prop where
  on : ns key = .bool true
  off : ns' key = .bool false
  same : ∀ k, k ≠ key → k ≠ ex → ns' k = ns k
  exclude : ∃ l l', ns ex = .strs l ∧ ns' ex = .strs l' ∧ l'.Perm (test :: l)

theorem instead_parse (env : ArgEnv) {args : ArgOpt} (ht : Table (ffOptions env) args) {items items' : List CItem} {ws ws' : List Str}
    (h : Spells (ffOptions env) items ws) (h' : Spells (ffOptions env) items' ws') {key test : Str} (hk : key ∈ switches) (hi : Instead args key test items items') {ns : NS}
    (hok : parseArgs (ffOptions env) env.maxCpu ws = .ok ns) : ∃ ns', parseArgs (ffOptions env) env.maxCpu ws' = .ok ns' ∧ Swapped key test "exclude".toList ns ns' := by
  have hne : key ≠ "exclude".toList := by rintro rfl; revert hk; decide
  have he : "exclude".toList ∈ addingUp := by decide
  have hc := C124_collected env ht h hok (k := "exclude".toList) (by simp)
  have hx := hi.exclude
  have hs := hi.same
  generalize "exclude".toList = ex at *
  have hall := hok
  unfold parseArgs at hall
  rw [C52_spellings_partial ht _ h, meanings_effects] at hall
  obtain ⟨ns', n1, n2, n3⟩ : ∃ ns' : NS, ns' key = .bool false ∧ ns' ex = .strs (collected ex items') ∧ ∀ k, k ≠ key → k ≠ ex → ns' k = ns k := by
    refine ⟨fun k => if k = key then .bool false else if k = ex then .strs (collected ex items') else ns k, if_pos rfl, ?_, fun k h1 h2 => ?_⟩
    · simp only [if_neg hne.symm, if_true]
    · simp only [if_neg h1, if_neg h2]
  refine ⟨ns', ?_, ⟨?_, n1, n3, _, _, hc, n2, hx⟩⟩
  · unfold parseArgs
    rw [C52_spellings_partial ht _ h', meanings_effects]
    intro k
    by_cases h1 : k = key
    · subst h1
      rw [hi.absent, init_switches env _ hk, n1]
      rfl
    · by_cases h2 : k = ex
      · subst h2
        rw [init_lists env _ he, effects_collected env ht he items' [] (spells_items h'), n2]
        rfl
      · rw [← hs k h1 h2, hall k, n3 k h1 h2]
  · exact switch_on env ht h hk hi.given hok

/-- Other exclude tests, other switches. -/
def FArgs.swap (a : FArgs) (h d : Bool) (e : List Str) : FArgs := { a with hide := h, oneFileSystem := d, exclude := e }

/-- The same for all settings. -/
def Settings.swap (s : Settings) (h d : Bool) (e : List Str) : Settings := { s with fargs := s.fargs.swap h d e }

theorem swap_conflict (s : Settings) (h d : Bool) (e : List Str) : (s.swap h d e).conflict = s.conflict := rfl

theorem swap_warnings (s : Settings) (h d : Bool) (e : List Str) : collectWarnings (s.swap h d e) = ((collectWarnings s).1.swap h d e, (collectWarnings s).2) := by
  have h1 : ∀ s : Settings, warnOutputExec (s.swap h d e) = ((warnOutputExec s).1.swap h d e, (warnOutputExec s).2) := by
    intro s; unfold warnOutputExec
    by_cases hc : s.output ≠ ["path".toList] ∧ (given s.exec || given s.execBatch) = true
    · rw [if_pos hc]; exact if_pos hc
    · rw [if_neg hc]; exact if_neg hc
  have h2 : ∀ s : Settings, warnSortCount (s.swap h d e) = ((warnSortCount s).1.swap h d e, (warnSortCount s).2) := by
    intro s; unfold warnSortCount
    by_cases hc : given s.fargs.count = true ∧ given s.sort = true
    · rw [if_pos hc]; exact if_pos hc
    · rw [if_neg hc]; exact if_neg hc
  have h3 : ∀ s : Settings, warnOutputCount (s.swap h d e) = ((warnOutputCount s).1.swap h d e, (warnOutputCount s).2) := by
    intro s; unfold warnOutputCount
    by_cases hc : given s.fargs.count = true ∧ s.output ≠ ["path".toList]
    · rw [if_pos hc]; exact if_pos hc
    · rw [if_neg hc]; exact if_neg hc
  unfold collectWarnings
  simp only [h1, h2, h3]
  rfl

theorem swap_plan (reg : List PluginDef) (s : Settings) (h d : Bool) (e : List Str) : (s.swap h d e).plan reg = (s.plan reg).map (fun p => { p with exclude := e }) := by
  unfold Settings.plan Settings.swap FArgs.swap
  simp only
  generalize outputFields reg (expandFile reg s.output) = a1
  generalize optFields (outputFields reg) s.sort = a2
  generalize optFields (countFields reg) s.fargs.count = a3
  generalize optFields (execFields reg) s.exec = a4
  generalize optFields (execBatchFields reg) s.execBatch = a5
  cases a1 <;> cases a2 <;> cases a3 <;> cases a4 <;> cases a5 <;> rfl

theorem swap_process (a : FArgs) (h d : Bool) (e : List Str) :
    processArguments (a.swap h d e) = (processArguments a).swap h d (e ++ (if a.ignore then ["ignored=yes".toList] else []) ++
      (if d then ["samedev=no".toList] else []) ++ (if h then ["hide=yes".toList] else []) ++ (if a.depth ≠ [] then depthExclude a.depth else [])) := by
  have := processArguments_exclude (a.swap h d e)
  rw [show (a.swap h d e).exclude = e from rfl, show (a.swap h d e).ignore = a.ignore from rfl, show (a.swap h d e).oneFileSystem = d from rfl,
    show (a.swap h d e).hide = h from rfl, show (a.swap h d e).depth = a.depth from rfl] at this
  rw [← this]
  unfold processArguments FArgs.swap
  cases a with
  | mk t e0 j c ab ig o hi dp co =>
    by_cases h1 : j.isSome <;> by_cases h5 : dp = [] <;> cases ig <;> cases o <;> cases hi <;> cases h <;> cases d <;> simp [h1, h5] <;> split <;> simp

/-- The options that stand for exclude tests and nothing else: `-H` and `--one-file-system`. -/
def standsFor : List (Str × Str) := [("hide".toList, "hide=yes".toList), ("one_file_system".toList, "samedev=no".toList)]

theorem swapped_settings {key test : Str} (hk : (key, test) ∈ standsFor) {ns ns' : NS} (h : Swapped key test "exclude".toList ns ns') :
    ∃ h' d' e', settingsOf ns' = (settingsOf ns).swap h' d' e' ∧ ∀ a : FArgs, a.hide = (settingsOf ns).fargs.hide → a.oneFileSystem = (settingsOf ns).fargs.oneFileSystem →
      a.exclude = (settingsOf ns).fargs.exclude → (processArguments (a.swap h' d' e')).exclude.Perm (processArguments a).exclude := by
  obtain ⟨l, l', hl, hl', hp⟩ := h.exclude
  have pw : ∀ k : String, k.toList ≠ key → k.toList ≠ "exclude".toList → ns' k.toList = ns k.toList := fun k h1 h2 => h.same _ h1 h2
  have hon := h.on
  have hoff := h.off
  simp only [standsFor, List.mem_cons, Prod.mk.injEq, List.not_mem_nil, or_false] at hk
  rcases hk with ⟨rfl, rfl⟩ | ⟨rfl, rfl⟩
  · refine ⟨false, (settingsOf ns).fargs.oneFileSystem, l', ?_, ?_⟩
    · unfold settingsOf Settings.swap FArgs.swap
      rw [pw "tests" (by decide) (by decide), pw "json" (by decide) (by decide), pw "color" (by decide) (by decide), pw "absolute_path" (by decide) (by decide),
        pw "ignore" (by decide) (by decide), pw "one_file_system" (by decide) (by decide), pw "depth" (by decide) (by decide), pw "count" (by decide) (by decide),
        pw "directories" (by decide) (by decide), pw "output" (by decide) (by decide), pw "sort" (by decide) (by decide), pw "reverse" (by decide) (by decide),
        pw "limit" (by decide) (by decide), pw "exec" (by decide) (by decide), pw "exec_batch" (by decide) (by decide), pw "profile" (by decide) (by decide),
        pw "action" (by decide) (by decide), pw "help" (by decide) (by decide), hl', hoff]
      rfl
    · intro a h1 h2 h3
      have g1 : (settingsOf ns).fargs.hide = true := by show (ns "hide".toList).truthy = true; rw [hon]; rfl
      have g3 : (settingsOf ns).fargs.exclude = l := by show (ns "exclude".toList).toWords = l; rw [hl]; rfl
      rw [swap_process, processArguments_exclude, h1, h2, h3, g1, g3]
      show (l' ++ _ ++ _ ++ [] ++ _).Perm (l ++ _ ++ _ ++ ["hide=yes".toList] ++ _)
      rw [List.append_nil]
      refine List.Perm.append_right _ ?_
      refine ((hp.append_right _).append_right _).trans ?_
      simp only [List.cons_append]
      exact (List.perm_append_singleton _ _).symm
  · refine ⟨(settingsOf ns).fargs.hide, false, l', ?_, ?_⟩
    · unfold settingsOf Settings.swap FArgs.swap
      rw [pw "tests" (by decide) (by decide), pw "json" (by decide) (by decide), pw "color" (by decide) (by decide), pw "absolute_path" (by decide) (by decide),
        pw "ignore" (by decide) (by decide), pw "hide" (by decide) (by decide), pw "depth" (by decide) (by decide), pw "count" (by decide) (by decide),
        pw "directories" (by decide) (by decide), pw "output" (by decide) (by decide), pw "sort" (by decide) (by decide), pw "reverse" (by decide) (by decide),
        pw "limit" (by decide) (by decide), pw "exec" (by decide) (by decide), pw "exec_batch" (by decide) (by decide), pw "profile" (by decide) (by decide),
        pw "action" (by decide) (by decide), pw "help" (by decide) (by decide), hl', hoff]
      rfl
    · intro a h1 h2 h3
      have g1 : (settingsOf ns).fargs.oneFileSystem = true := by show (ns "one_file_system".toList).truthy = true; rw [hon]; rfl
      have g3 : (settingsOf ns).fargs.exclude = l := by show (ns "exclude".toList).toWords = l; rw [hl]; rfl
      rw [swap_process, processArguments_exclude, h1, h2, h3, g1, g3]
      show (l' ++ _ ++ [] ++ _ ++ _).Perm (l ++ _ ++ ["samedev=no".toList] ++ _ ++ _)
      rw [List.append_nil]
      refine List.Perm.append_right _ (List.Perm.append_right _ ?_)
      refine (hp.append_right _).trans ?_
      simp only [List.cons_append]
      exact (List.perm_append_singleton _ _).symm

/-- C125: `-H` does what `-e hide=yes` does, and `--one-file-system` what `-e samedev=no` does: a search with the option is a search with the exclude test in its place, in everything,
up to the order of the exclude tests. -/
theorem C125_plan (M : MainEnv) {args : ArgOpt} (ht : Table (ffOptions M.arg) args) {items items' : List CItem} {ws ws' : List Str}
    (h : Spells (ffOptions M.arg) items ws) (h' : Spells (ffOptions M.arg) items' ws') {key test : Str}
    (hk : (key, test) ∈ [("hide".toList, "hide=yes".toList), ("one_file_system".toList, "samedev=no".toList)]) (hi : Instead args key test items items')
    {p : Plan} {w : List Warning} (hr : M.run ws = .search p w) : ∃ ex, ex.Perm p.exclude ∧ M.run ws' = .search { p with exclude := ex } w := by
  have hsw : key ∈ switches := by
    simp only [List.mem_cons, Prod.mk.injEq, List.not_mem_nil, or_false] at hk
    rcases hk with ⟨rfl, rfl⟩ | ⟨rfl, rfl⟩ <;> decide
  have hhelp : "help".toList ≠ key ∧ "help".toList ≠ "exclude".toList := by
    simp only [List.mem_cons, Prod.mk.injEq, List.not_mem_nil, or_false] at hk
    rcases hk with ⟨rfl, rfl⟩ | ⟨rfl, rfl⟩ <;> decide
  unfold MainEnv.run at hr ⊢
  cases hok : parseArgs (ffOptions M.arg) M.arg.maxCpu ws with
  | error e => rw [hok] at hr; cases e <;> cases hr
  | ok ns =>
    obtain ⟨ns', hok', hns⟩ := instead_parse M.arg ht h h' hsw hi hok
    rw [hok] at hr
    rw [hok']
    simp only at hr ⊢
    rw [hns.same _ hhelp.1 hhelp.2]
    by_cases hh : ns "help".toList = .str "all".toList
    · rw [if_pos hh] at hr; cases hr
    · rw [if_neg hh] at hr ⊢
      obtain ⟨b1, b2, e', hs, hx⟩ := swapped_settings hk hns
      rw [hs]
      unfold Settings.process at hr ⊢
      rw [show ((settingsOf ns).swap b1 b2 e').fargs.tests = (settingsOf ns).fargs.tests from rfl, show ((settingsOf ns).swap b1 b2 e').dirs = (settingsOf ns).dirs from rfl]
      cases hd : processDirectories M.isdir M.cwd (settingsOf ns).fargs.tests (settingsOf ns).dirs with
      | none => rw [hd] at hr; cases hr
      | some td =>
        obtain ⟨tests, dirs⟩ := td
        rw [hd] at hr
        simp only at hr ⊢
        have hx := hx { (settingsOf ns).fargs with tests := tests } rfl rfl rfl
        have e1 : ({ ((settingsOf ns).swap b1 b2 e').fargs with tests := tests } : FArgs) = ({ (settingsOf ns).fargs with tests := tests } : FArgs).swap b1 b2 e' := rfl
        rw [e1]
        have e2 : processArguments (({ (settingsOf ns).fargs with tests := tests } : FArgs).swap b1 b2 e') = (processArguments { (settingsOf ns).fargs with tests := tests }).swap b1 b2
            (processArguments (({ (settingsOf ns).fargs with tests := tests } : FArgs).swap b1 b2 e')).exclude := by
          rw [swap_process]; rfl
        generalize (processArguments (({ (settingsOf ns).fargs with tests := tests } : FArgs).swap b1 b2 e')).exclude = ex at *
        rw [e2]
        have e3 : ({ (settingsOf ns).swap b1 b2 e' with fargs := (processArguments { (settingsOf ns).fargs with tests := tests }).swap b1 b2 ex, dirs := dirs } : Settings) =
          ({ settingsOf ns with fargs := processArguments { (settingsOf ns).fargs with tests := tests }, dirs := dirs } : Settings).swap b1 b2 ex := rfl
        rw [e3, swap_conflict, swap_warnings]
        have e4 : ({ settingsOf ns with fargs := processArguments { (settingsOf ns).fargs with tests := tests }, dirs := dirs } : Settings).fargs.exclude =
          (processArguments { (settingsOf ns).fargs with tests := tests }).exclude := rfl
        generalize hgs : ({ settingsOf ns with fargs := processArguments { (settingsOf ns).fargs with tests := tests }, dirs := dirs } : Settings) = s at *
        rw [← e4] at hx
        by_cases hcf : s.conflict = true
        · rw [if_pos hcf] at hr; cases hr
        · rw [if_neg hcf] at hr ⊢
          simp only at hr ⊢
          rw [swap_plan]
          cases hp : (collectWarnings s).1.plan M.reg with
          | none => rw [hp] at hr; cases hr
          | some q =>
            rw [hp] at hr
            simp only [Option.map_some] at hr ⊢
            rw [show ((collectWarnings s).1.swap b1 b2 ex).shows = (collectWarnings s).1.shows from rfl]
            by_cases hsh : (collectWarnings s).1.shows = true
            · rw [if_pos hsh] at hr; cases hr
            · rw [if_neg hsh] at hr ⊢
              cases hr
              refine ⟨ex, ?_, rfl⟩
              have : p.exclude = s.fargs.exclude := by
                have h1 : p.exclude = (collectWarnings s).1.fargs.exclude := by
                  unfold Settings.plan at hp
                  split at hp
                  · cases hp; rfl
                  · cases hp
                rw [h1, collectWarnings_settings s]
              rw [this]; exact hx

theorem holds_single {S : SearchEnv} {t : Str} (h : GoodTests S [t]) (i : EntInfo) : holds S i t = true ↔ S.excluded [t] i = true := by
  rw [excluded_iff h, holds_iff]
  simp

/-- What the exclude tests in place of the options say. -/
theorem holds_hide {S : SearchEnv} (hS : S.Ok) {i : EntInfo} {name : Str} (hn : i.entry.name = name) : holds S i "hide=yes".toList = true ↔ ∃ r, name = '.' :: r := by
  obtain ⟨t1, t2⟩ := excluded_bool hS (a := "hide".toList) (by decide) (b := true) "hide=yes".toList rfl
  rw [holds_single t1, t2]
  have : S.attr i ("file".toList, "hide".toList) = (i.entry.hide).map .bool := rfl
  rw [this]
  unfold Entry.hide
  rw [hn]
  cases name with
  | nil => simp
  | cons c cs => simp

theorem holds_samedev {S : SearchEnv} (hS : S.Ok) {i : EntInfo} : holds S i "samedev=no".toList = true ↔ S.stat i "samedev".toList = some (.bool false) := by
  obtain ⟨s1, s2⟩ := excluded_bool hS (a := "samedev".toList) (by decide) (b := false) "samedev=no".toList rfl
  rw [holds_single s1, s2]
  rfl

/-- C125: the results with `-H`, `--one-file-system`, or `-I` with `--no-parent-ignore`, are those with the exclude tests `hide=yes`, `samedev=no` or `ignored=yes`. -/
theorem C125_results_partial {W : World} {args : ArgOpt} (ht : Table (ffOptions W.main.arg) args) {items items' : List CItem} {ws ws' : List Str}
    (h : Spells (ffOptions W.main.arg) items ws) (h' : Spells (ffOptions W.main.arg) items' ws') {key test : Str}
    (hk : (key, test) ∈ [("hide".toList, "hide=yes".toList), ("one_file_system".toList, "samedev=no".toList)] ∨
      ((key, test) = ("ignore".toList, "ignored=yes".toList) ∧ about args "no_parent_ignore".toList items ≠ []))
    (hi : Instead args key test items items') {ns ns' : NS} {tests tests' dirs dirs' : List Str} {es es' : List EntInfo}
    (r : Results W ws ns tests dirs es) (r' : Results W ws' ns' tests' dirs' es') : es.Perm es' := by
  obtain ⟨p, w, _, hok, hd, hP, _⟩ := id r
  obtain ⟨p', w', _, hok', hd', hP', _⟩ := id r'
  have hsw : key ∈ switches := by
    simp only [List.mem_cons, Prod.mk.injEq, List.not_mem_nil, or_false] at hk
    rcases hk with (⟨rfl, rfl⟩ | ⟨rfl, rfl⟩) | ⟨⟨rfl, rfl⟩, _⟩ <;> decide
  obtain ⟨ns2, hok2, hns⟩ := instead_parse W.main.arg ht h h' hsw hi hok
  rw [hok'] at hok2
  cases hok2
  have hparents : key = "ignore".toList → (ns "no_parent_ignore".toList).truthy = true := by
    intro he
    rcases hk with hk | ⟨_, hk⟩
    · subst he; revert hk; simp
    · rw [switch_on W.main.arg ht h (by decide) hk hok]; rfl
  have hk3 : (key = "hide".toList ∧ test = "hide=yes".toList) ∨ (key = "one_file_system".toList ∧ test = "samedev=no".toList) ∨ (key = "ignore".toList ∧ test = "ignored=yes".toList) := by
    simp only [List.mem_cons, Prod.mk.injEq, List.not_mem_nil, or_false] at hk
    rcases hk with (hk | hk) | ⟨hk, _⟩
    · exact .inl hk
    · exact .inr (.inl hk)
    · exact .inr (.inr hk)
  clear hk
  obtain ⟨l, l', hl, hl', hp⟩ := hns.exclude
  have pw : ∀ k : String, (k ∉ ["hide", "one_file_system", "ignore", "exclude"]) → ns' k.toList = ns k.toList := by
    intro k hk4
    simp only [List.mem_cons, List.not_mem_nil, or_false, not_or] at hk4
    refine hns.same _ (fun e => ?_) (fun e => hk4.2.2.2 (String.toList_inj.1 e))
    rcases hk3 with ⟨rfl, _⟩ | ⟨rfl, _⟩ | ⟨rfl, _⟩
    · exact hk4.1 (String.toList_inj.1 e)
    · exact hk4.2.1 (String.toList_inj.1 e)
    · exact hk4.2.2.1 (String.toList_inj.1 e)
  have etests : (settingsOf ns').fargs.tests = (settingsOf ns).fargs.tests := by show (ns' "tests".toList).toWords = _; rw [pw "tests" (by decide)]; rfl
  have edirs : (settingsOf ns').dirs = (settingsOf ns).dirs := by show (ns' "directories".toList).toWords = _; rw [pw "directories" (by decide)]; rfl
  rw [etests, edirs, hd] at hd'
  cases hd'
  have eask : asked W ns' = asked W ns := by unfold Spec.asked; rw [pw "case" (by decide)]
  have edepth : (settingsOf ns').fargs.depth = (settingsOf ns).fargs.depth := by show (ns' "depth".toList).toRanges = _; rw [pw "depth" (by decide)]; rfl
  have eabs : ((settingsOf ns').fargs.absolutePath || (settingsOf ns').fargs.json.isSome) = ((settingsOf ns).fargs.absolutePath || (settingsOf ns).fargs.json.isSome) := by
    show ((ns' "absolute_path".toList).truthy || (ns' "json".toList).toOptStr.isSome) = _
    rw [pw "absolute_path" (by decide), pw "json" (by decide)]; rfl
  have eout : outside W ns' = outside W ns := by
    funext x
    unfold Spec.outside
    rw [pw "no_parent_ignore" (by decide), pw "ignore_files" (by decide)]
    by_cases he : key = "ignore".toList
    · rw [hparents he]; simp
    · rw [hns.same "ignore".toList (fun e => he e.symm) (by decide)]
  have hS : (asked W ns).Ok := by rw [← env_asked]; exact hP.env
  have eav : ∀ (i : EntInfo) (name : Str), i.entry.name = name → (Avoided (asked W ns) (settingsOf ns') i name ↔ Avoided (asked W ns) (settingsOf ns) i name) := by
    intro i name hn
    have hex : (∃ t ∈ (settingsOf ns').fargs.exclude, holds (asked W ns) i t = true) ↔
        holds (asked W ns) i test = true ∨ ∃ t ∈ (settingsOf ns).fargs.exclude, holds (asked W ns) i t = true := by
      show (∃ t ∈ (ns' "exclude".toList).toWords, _) ↔ _ ∨ ∃ t ∈ (ns "exclude".toList).toWords, _
      rw [hl, hl']
      constructor
      · rintro ⟨t, ht, hh⟩
        rcases List.mem_cons.1 (hp.mem_iff.1 ht) with rfl | h
        · exact .inl hh
        · exact .inr ⟨t, h, hh⟩
      · rintro (hh | ⟨t, ht, hh⟩)
        · exact ⟨test, hp.mem_iff.2 (by simp), hh⟩
        · exact ⟨t, hp.mem_iff.2 (List.mem_cons_of_mem _ ht), hh⟩
    have hon := hns.on
    have hoff := hns.off
    unfold Avoided
    rw [hex]
    have v1 : (settingsOf ns').fargs.ignore = (ns' "ignore".toList).truthy := rfl
    have v2 : (settingsOf ns').fargs.hide = (ns' "hide".toList).truthy := rfl
    have v3 : (settingsOf ns').fargs.oneFileSystem = (ns' "one_file_system".toList).truthy := rfl
    have u1 : (settingsOf ns).fargs.ignore = (ns "ignore".toList).truthy := rfl
    have u2 : (settingsOf ns).fargs.hide = (ns "hide".toList).truthy := rfl
    have u3 : (settingsOf ns).fargs.oneFileSystem = (ns "one_file_system".toList).truthy := rfl
    rw [v1, v2, v3, u1, u2, u3]
    rcases hk3 with ⟨rfl, rfl⟩ | ⟨rfl, rfl⟩ | ⟨rfl, rfl⟩
    · rw [holds_hide hS hn, hon, hoff, hns.same "ignore".toList (by decide) (by decide), hns.same "one_file_system".toList (by decide) (by decide)]
      simp only [NVal.truthy, Bool.false_eq_true, false_and, false_or, true_and]
      generalize (∃ t ∈ (settingsOf ns).fargs.exclude, holds (asked W ns) i t = true) = A
      generalize (∃ r, name = '.' :: r) = B
      constructor
      · rintro ((h | h) | h | h)
        · exact .inr (.inr (.inl h))
        · exact .inl h
        · exact .inr (.inl h)
        · exact .inr (.inr (.inr h))
      · rintro (h | h | h | h)
        · exact .inl (.inr h)
        · exact .inr (.inl h)
        · exact .inl (.inl h)
        · exact .inr (.inr h)
    · rw [holds_samedev hS, hon, hoff, hns.same "ignore".toList (by decide) (by decide), hns.same "hide".toList (by decide) (by decide)]
      simp only [NVal.truthy, Bool.false_eq_true, false_and, true_and, or_false]
      constructor
      · rintro ((h | h) | h | h)
        · exact .inr (.inr (.inr h))
        · exact .inl h
        · exact .inr (.inl h)
        · exact .inr (.inr (.inl h))
      · rintro (h | h | h | h)
        · exact .inl (.inr h)
        · exact .inr (.inl h)
        · exact .inr (.inr h)
        · exact .inl (.inl h)
    · rw [hon, hoff, hns.same "one_file_system".toList (by decide) (by decide), hns.same "hide".toList (by decide) (by decide)]
      simp only [NVal.truthy, Bool.false_eq_true, false_and, false_or, true_and]
      constructor
      · rintro ((h | h) | h | h)
        · exact .inr (.inl h)
        · exact .inl h
        · exact .inr (.inr (.inl h))
        · exact .inr (.inr (.inr h))
      · rintro (h | h | h | h)
        · exact .inl (.inr h)
        · exact .inl (.inl h)
        · exact .inr (.inl h)
        · exact .inr (.inr h)
  refine (List.perm_ext_iff_of_nodup r.spec.1 r'.spec.1).2 fun i => ?_
  rw [r.spec.2, r'.spec.2]
  unfold Wanted
  simp only [edepth, eabs, eout, eask, pw "follow_symlinks" (by decide), pw "ignore_files" (by decide)]
  refine exists_congr fun d => and_congr_right fun hdm => exists_congr fun q => and_congr_right fun hc => and_congr_right fun _ => and_congr_right fun _ =>
    and_congr_right fun _ => forall_congr' fun u => forall_congr' fun n => imp_congr_right fun hu => not_congr (eav _ _ ?_).symm
  refine entryAt_entry_name ?_ _ _ _ (fun m hm => goodTree_chain (hP.trees _ _) hc m (hu.subset hm))
  unfold Spec.beginning
  simp only
  split
  · simp
  · exact (hP.named d hdm).1

set_option maxRecDepth 50000 in
set_option maxHeartbeats 4000000 in
/-- C125 fails for `-I` alone: ignore files of the directories above count with `-I`, but not with `-e ignored=yes`. -/
theorem C125_false : ∃ (W : World) (ns ns' : NS), parseArgs (ffOptions W.main.arg) W.main.arg.maxCpu ["-I".toList] = .ok ns ∧
    parseArgs (ffOptions W.main.arg) W.main.arg.maxCpu ["-e".toList, "ignored=yes".toList] = .ok ns' ∧
    outside W ns ".".toList = ["/.gitignore".toList, "/h/.gitignore".toList] ∧ outside W ns' ".".toList = [] := by
  refine ⟨{ demoWorld with main := { demoWorld.main with cwd := "/h/a".toList }, pathExists := fun p => p.reverse.take 10 = ".gitignore".toList.reverse }, _, _, rfl, rfl, ?_, ?_⟩
  · decide
  · decide

set_option maxRecDepth 50000 in
set_option maxHeartbeats 4000000 in
/-- `ff depth=1 -H` and `ff -e hide=yes depth=1`. -/
example : ∃ args items items' ns ns' es es', Table (ffOptions demoWorld.main.arg) args ∧ Spells (ffOptions demoWorld.main.arg) items (["depth=1", "-H"].map String.toList) ∧
    Spells (ffOptions demoWorld.main.arg) items' (["-e", "hide=yes", "depth=1"].map String.toList) ∧ Instead args "hide".toList "hide=yes".toList items items' ∧
    Results demoWorld (["depth=1", "-H"].map String.toList) ns ["depth=1".toList] [".".toList] es ∧
    Results demoWorld (["-e", "hide=yes", "depth=1"].map String.toList) ns' ["depth=1".toList] [".".toList] es' := by
  obtain ⟨args, ht⟩ := C52_table demoWorld.main.arg
  have hargs : args.dest = "tests".toList := (opt_tests _ ht.args_mem.1).1 ht.args_mem.2
  have get : ∀ s : String, ∀ i, (h : i < (ffOptions demoArgEnv).length) → s.toList ∈ ((ffOptions demoArgEnv)[i]).strings →
      ∃ o, o = (ffOptions demoArgEnv)[i] ∧ o ∈ ffOptions demoArgEnv ∧ s.toList ∈ o.strings := by
    intro s i h hs; exact ⟨_, rfl, List.getElem_mem h, hs⟩
  obtain ⟨o1, e1, m1, s1⟩ := get "-H" 13 (by decide) (by decide)
  obtain ⟨o2, e2, m2, s2⟩ := get "-e" 12 (by decide) (by decide)
  have d1 : o1.dest = "hide".toList := by rw [e1]; decide
  have d2 : o2.dest = "exclude".toList := by rw [e2]; decide
  have f1 : IsFlag o1 := .inl (by rw [e1]; decide)
  have a2 : TakesArg o2 := .inr (.inl (by rw [e2]; decide))
  have n2 : ∀ v, OptArg o2 → ¬ Dash v := by intro v; rw [e2]; rintro ⟨c, h⟩; cases h
  have hx : ∀ u ∈ ["depth=1".toList], ¬ Dash u := by
    intro u hu
    simp only [List.mem_cons, List.not_mem_nil, or_false] at hu
    subst hu; rintro ⟨r, h⟩; cases h
  have res : ∀ argv : List Str, (∃ p w ns, demoWorld.main.run argv = .search p w ∧ p.mode = .console ∧
      parseArgs (ffOptions demoWorld.main.arg) demoWorld.main.arg.maxCpu argv = .ok ns ∧
      processDirectories demoWorld.main.isdir demoWorld.main.cwd (settingsOf ns).fargs.tests (settingsOf ns).dirs = some (["depth=1".toList], [".".toList]) ∧
      ((settingsOf ns).fargs.exclude = [] ∨ (settingsOf ns).fargs.exclude = ["hide=yes".toList]) ∧ (settingsOf ns).fargs.ignore = false) →
      ∃ ns es, Results demoWorld argv ns ["depth=1".toList] [".".toList] es := by
    rintro argv ⟨p, w, ns, hr, hm, hok, hd, h1, h2⟩
    have hP : Proper demoWorld ns ["depth=1".toList] [".".toList] := by
      have hp0 := demoWorld_proper (ns := fun _ => .unset) rfl rfl
      refine ⟨hp0.cpus, hp0.cwd, hp0.cwd2, demoWorld_env ns, ?_, ?_, hp0.different, hp0.named, hp0.trees⟩
      · unfold GoodExclude
        rw [h2]
        rcases h1 with h1 | h1 <;> rw [h1]
        · intro t ht; cases ht
        · exact (excluded_bool (demoWorld_env ns) (a := "hide".toList) (by decide) (b := true) "hide=yes".toList rfl).1
      · exact demo_good (ns := ns) (["depth=1".toList], ["depth=1".toList]) (by simp [demoRuns])
    obtain ⟨k, s, hs, hf⟩ := C86_no_deadlock (demoWorld.cfg ns p) (demoWorld.imode ns p) true (demoWorld.roots ns p) (jobs_pos hP.cpus hok) .refl
    rw [roots_dir] at hs
    exact ⟨ns, s.done, ⟨p, w, hr, hok, hd, hP, .inl ⟨hm, k, s, hs, hf, rfl⟩⟩⟩
  obtain ⟨ns, es, r⟩ := res (["depth=1", "-H"].map String.toList) ⟨_, _, _, rfl, rfl, rfl, rfl, .inl rfl, rfl⟩
  obtain ⟨ns', es', r'⟩ := res (["-e", "hide=yes", "depth=1"].map String.toList) ⟨_, _, _, rfl, rfl, rfl, rfl, .inr rfl, rfl⟩
  refine ⟨args, [.words ["depth=1".toList], .flag o1], [.arg o2 "hide=yes".toList, .words ["depth=1".toList]], ns, ns', es, es', ht, ?_, ?_, ?_, r, r'⟩
  · exact .words (us := ["depth=1".toList]) (by decide) hx ⟨_, rfl⟩ (.flag m1 f1 s1 .nil)
  · exact .arg m2 a2 s2 (n2 _) (.words (us := ["depth=1".toList]) (by decide) hx trivial .nil)
  · refine ⟨by simp [about, CItem.dest, d1, hargs], by simp [about, CItem.dest, d2, hargs], by simp [collected, d2], ?_⟩
    intro k h1 h2
    simp only [about, CItem.dest, d1, d2, hargs, List.filter_cons, List.filter_nil, decide_eq_true_eq, show ¬ "hide".toList = k from fun e => h1 e.symm,
      show ¬ "exclude".toList = k from fun e => h2 e.symm, if_false]

end FF
