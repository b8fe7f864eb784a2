import Verif.Props.Pool
import Verif.Props.Whole
import Verif.Props.Count
import Verif.Props.Exec
/-! C87 and C89: commands and statistics after the entries have been collected, from the command line on. -/
namespace FF
open Spec

/-- What a plan takes over from the command line, without `--count`. -/
theorem plan_taken {W : World} {argv : List Str} {p : Plan} {w : List Warning} (hr : W.main.run argv = .search p w) {ns : NS}
    (hok : parseArgs (ffOptions W.main.arg) W.main.arg.maxCpu argv = .ok ns) (hc : given (settingsOf ns).fargs.count = false) :
    p.limit = (settingsOf ns).limit ∧ p.reverse = (settingsOf ns).reverse ∧ optFields (outputFields W.main.reg) (settingsOf ns).sort = some p.sort ∧
      optFields (execFields W.main.reg) (settingsOf ns).exec = some p.exec ∧ optFields (execBatchFields W.main.reg) (settingsOf ns).execBatch = some p.execBatch := by
  obtain ⟨ns', s', hok', hp, hpl, _⟩ := run_search hr
  rw [hok] at hok'
  cases hok'
  obtain ⟨tests, dirs, hd, _, hw⟩ := process_some hp
  have h1 := collectWarnings_settings { settingsOf ns with fargs := processArguments { (settingsOf ns).fargs with tests := tests }, dirs := dirs }
  rw [hw] at h1
  simp only at h1
  subst h1
  have hcount : given (processArguments { (settingsOf ns).fargs with tests := tests }).count = false := by
    rw [processArguments_count]; exact hc
  unfold Settings.plan at hpl
  simp only [hcount, Bool.false_and, Bool.false_eq_true, if_false] at hpl
  split at hpl
  · rename_i g1 g2 g3 g4 g5
    cases hpl
    exact ⟨rfl, rfl, g2, g4, g5⟩
  · cases hpl

/-- The entries for the commands: the part of those asked for that `--limit` allows, in the order of `--sort`. -/
theorem chosen_wanted {W : World} {argv : List Str} {p : Plan} {w : List Warning} (hr : W.main.run argv = .search p w) {ns : NS}
    (hok : parseArgs (ffOptions W.main.arg) W.main.arg.maxCpu argv = .ok ns) {tests dirs : List Str}
    (hd : processDirectories W.main.isdir W.main.cwd (settingsOf ns).fargs.tests (settingsOf ns).dirs = some (tests, dirs)) (hP : Proper W ns tests dirs)
    (hc : given (settingsOf ns).fargs.count = false)
    {s : PState} (h : PSteps (W.cfg ns p) ⟨true, true⟩ (initState (W.startDirs ns p) (ns "jobs".toList).toJobs) s) (hfin : s.main = .finished)
    {entries : List EntInfo} (he : W.chosen ns p s.collected = some entries) :
    ∃ es : List EntInfo, es.Nodup ∧ (∀ i, i ∈ es ↔ Wanted W ns tests dirs i) ∧ entries = limited (settingsOf ns).limit es ∧
      ∀ R fields, RenderAs W ns R → (settingsOf ns).sort.bind (outputFields W.main.reg) = some fields → (∀ f ∈ fields, f.modifier ≠ some 'v') →
        (∀ e, Wanted W ns tests dirs e → ∀ f ∈ fields, ∀ v, R.search.attr e f.attr = some v → HasType f.type v) →
        es.Pairwise (fun a b => if (settingsOf ns).reverse then ¬ Lex SortVal.Before (sortVals R fields a) (sortVals R fields b)
          else ¬ Lex SortVal.Before (sortVals R fields b) (sortVals R fields a)) := by
  obtain ⟨h1, h2⟩ := C87_collect_partial W hr hok hd hP h hfin
  obtain ⟨hlim, hrev, hsort, _⟩ := plan_taken hr hok hc
  unfold World.chosen at he
  rw [Option.map_eq_some_iff] at he
  obtain ⟨es, hes, rfl⟩ := he
  have hperm : es.Perm s.collected := by
    cases hs : p.sort with
    | none => rw [hs, C35_unsorted] at hes; cases hes; exact List.Perm.refl _
    | some fields => rw [hs] at hes; exact (C35_permutation _ _ _ _ _ _ hes).1
  refine ⟨es, hperm.nodup_iff.2 h1, fun i => by rw [hperm.mem_iff, h2], ?_, ?_⟩
  · rw [hlim]
    unfold limited
    split
    · rename_i e; rw [e]; rfl
    · rename_i e; rw [e]; exact entriesRange_eq _ _ _
  · intro R fields hR hf hm ht
    rw [renders_iff] at hR
    subst hR
    have hs : p.sort = some fields := by
      cases hso : (settingsOf ns).sort with
      | none => rw [hso] at hf; cases hf
      | some ws =>
        rw [hso] at hf hsort
        simp only [Option.bind_some] at hf
        simp only [optFields, hf, Option.map_some, Option.some.injEq] at hsort
        exact hsort.symm
    obtain ⟨out', g1, _, g3, _⟩ := C35_sorted (W.render ns) W.digits fields p.reverse s.collected hm (fun e he => ht e ((h2 e).1 he))
    rw [hs, g1] at hes
    cases hes
    rw [hrev] at g3
    exact g3

/-- C89, from the command line on: with `-x` and `--sort` or `--limit` the commands for the entries asked for are started in the order of the entries, each once; all of them,
unless `--halt` says otherwise and a command has failed. Missing: as in `C87_collect_partial`. -/
theorem C89_run_partial (W : World) {argv : List Str} {p : Plan} {w : List Warning} (hr : W.main.run argv = .search p w) {ns : NS}
    (hok : parseArgs (ffOptions W.main.arg) W.main.arg.maxCpu argv = .ok ns) {tests dirs : List Str}
    (hd : processDirectories W.main.isdir W.main.cwd (settingsOf ns).fargs.tests (settingsOf ns).dirs = some (tests, dirs)) (hP : Proper W ns tests dirs)
    {words : List Str} (hx : (settingsOf ns).exec = some words) (hc : given (settingsOf ns).fargs.count = false)
    {s : PState} (h : PSteps (W.cfg ns p) ⟨true, true⟩ (initState (W.startDirs ns p) (ns "jobs".toList).toJobs) s) (hfin : s.main = .finished)
    {entries : List EntInfo} (he : W.chosen ns p s.collected = some entries)
    {ctx : Ctx} (hctx : ctx.stopping = false) {u : Pool EntInfo (List Str)} (hu : Reaches (haltOf (ns "halt".toList)) (W.command ns p) (W.pool ns ctx entries) u) (hj : u.joined = true) :
    ∃ es parts, es.Nodup ∧ (∀ i, i ∈ es ↔ Wanted W ns tests dirs i) ∧ execFields W.main.reg words = some parts ∧
      (∀ R, RenderAs W ns R → u.started <+: (limited (settingsOf ns).limit es).filterMap (R.execRender parts) ∧
        (u.started = (limited (settingsOf ns).limit es).filterMap (R.execRender parts) ∨
          ((ns "halt".toList) = .str "soon".toList ∨ (ns "halt".toList) = .str "now".toList) ∧ SomeFailed u)) ∧
      ∀ R fields, RenderAs W ns R → (settingsOf ns).sort.bind (outputFields W.main.reg) = some fields → (∀ f ∈ fields, f.modifier ≠ some 'v') →
        (∀ e, Wanted W ns tests dirs e → ∀ f ∈ fields, ∀ v, R.search.attr e f.attr = some v → HasType f.type v) →
        es.Pairwise (fun a b => if (settingsOf ns).reverse then ¬ Lex SortVal.Before (sortVals R fields a) (sortVals R fields b)
          else ¬ Lex SortVal.Before (sortVals R fields b) (sortVals R fields a)) := by
  obtain ⟨es, h1, h2, rfl, h4⟩ := chosen_wanted hr hok hd hP hc h hfin he
  obtain ⟨_, _, _, hex, _⟩ := plan_taken hr hok hc
  rw [hx] at hex
  simp only [optFields, Option.map_eq_some_iff] at hex
  obtain ⟨parts, hp1, hp2⟩ := hex
  refine ⟨es, parts, h1, h2, hp1, ?_, h4⟩
  intro R hR
  rw [renders_iff] at hR
  subst hR
  have hcmd : W.command ns p = (W.render ns).execRender parts := by
    funext i
    unfold World.command
    rw [← hp2]
    rfl
  rw [hcmd] at hu
  refine ⟨(C89_order _ _ _ _ _ hu).1, ?_⟩
  rcases (C89_complete _ _ (jobs_pos hP.cpus hok) ctx hctx _ hu hj).2 with g | ⟨g1, g2⟩
  · exact .inl g
  · refine .inr ⟨?_, g2⟩
    cases hh : ns "halt".toList with
    | str v =>
      rw [hh] at g1
      unfold haltOf at g1
      simp only at g1
      split_ifs at g1 <;> simp_all
    | _ => rw [hh] at g1; simp [haltOf] at g1

/-- C43, by the word that is given: with `--halt soon` and `--halt now` the commands of one job are run up to and including the first one that fails, with `--halt never` all of
them. -/
theorem C43_option (cs : List Command) (s : Ctx) (hs : s.stopping = false) :
    (∀ v ∈ ["soon".toList, "now".toList], UpToFailure (haltOf (.str v)) cs (jobLoop (haltOf (.str v)) s cs).2) ∧
    (jobLoop (haltOf (.str "never".toList)) s cs).2 = cs ∧
    ∀ c : Command, (execExit (haltOf (.str "soon".toList)) c = execExit (haltOf (.str "never".toList)) c) ∧
      (c.interrupted = true → execExit (haltOf (.str "now".toList)) c ≠ 0) := by
  have h1 : haltOf (.str "soon".toList) = .soon := by decide
  have h2 : haltOf (.str "now".toList) = .now := by decide
  have h3 : haltOf (.str "never".toList) = .never := by decide
  refine ⟨?_, by rw [h3]; exact C43_never cs s hs, fun c => ?_⟩
  · intro v hv
    simp only [List.mem_cons, List.not_mem_nil, or_false] at hv
    rcases hv with rfl | rfl
    · rw [h1]; exact C43_halt (.inl rfl) cs s hs
    · rw [h2]; exact C43_halt (.inr rfl) cs s hs
  · rw [h1, h2, h3]
    obtain ⟨e, i⟩ := c
    refine ⟨by cases e <;> rfl, fun hi => ?_⟩
    simp only at hi
    subst hi
    cases e <;> simp [execExit]

example : (jobLoop (haltOf (.str "soon".toList)) .init [⟨some 0, false⟩, ⟨some 1, false⟩, ⟨some 0, false⟩]).2 = [⟨some 0, false⟩, ⟨some 1, false⟩] := by decide

/-- C87, the commands of `-X`: they get the part of the entries asked for that `--limit` allows, each once and in the order of `--sort`. Missing: as in `C87_collect_partial` and
`C41_once_partial`. -/
theorem C87_batch_partial (W : World) {argv : List Str} {p : Plan} {w : List Warning} (hr : W.main.run argv = .search p w) {ns : NS}
    (hok : parseArgs (ffOptions W.main.arg) W.main.arg.maxCpu argv = .ok ns) {tests dirs : List Str}
    (hd : processDirectories W.main.isdir W.main.cwd (settingsOf ns).fargs.tests (settingsOf ns).dirs = some (tests, dirs)) (hP : Proper W ns tests dirs)
    {words : List Str} (hx : (settingsOf ns).execBatch = some words) (hc : given (settingsOf ns).fargs.count = false)
    {s : PState} (h : PSteps (W.cfg ns p) ⟨true, true⟩ (initState (W.startDirs ns p) (ns "jobs".toList).toJobs) s) (hfin : s.main = .finished)
    {entries : List EntInfo} (he : W.chosen ns p s.collected = some entries)
    {run : List (List EntInfo × Int) → List EntInfo → RunResult} (hone : ∀ log e, run log [e] ≠ .tooBig) (hstart : ∀ log es, run log es ≠ .osError) {fuel : Nat}
    (hf : (entries.length + 1) * (entries.length + 1) ≤ fuel) :
    ∃ es parts, es.Nodup ∧ (∀ i, i ∈ es ↔ Wanted W ns tests dirs i) ∧ execBatchFields W.main.reg words = some parts ∧
      (∀ R, RenderAs W ns R → ∃ groups : List (List EntInfo), groups.flatten = limited (settingsOf ns).limit es ∧ [] ∉ groups ∧
        W.batch ns p run fuel entries = (groups.map (R.batchRender parts), .done)) ∧
      ∀ R fields, RenderAs W ns R → (settingsOf ns).sort.bind (outputFields W.main.reg) = some fields → (∀ f ∈ fields, f.modifier ≠ some 'v') →
        (∀ e, Wanted W ns tests dirs e → ∀ f ∈ fields, ∀ v, R.search.attr e f.attr = some v → HasType f.type v) →
        es.Pairwise (fun a b => if (settingsOf ns).reverse then ¬ Lex SortVal.Before (sortVals R fields a) (sortVals R fields b)
          else ¬ Lex SortVal.Before (sortVals R fields b) (sortVals R fields a)) := by
  obtain ⟨es, h1, h2, rfl, h4⟩ := chosen_wanted hr hok hd hP hc h hfin he
  obtain ⟨_, _, _, _, hex⟩ := plan_taken hr hok hc
  rw [hx] at hex
  simp only [optFields, Option.map_eq_some_iff] at hex
  obtain ⟨parts, hp1, hp2⟩ := hex
  refine ⟨es, parts, h1, h2, hp1, ?_, h4⟩
  intro R hR
  rw [renders_iff] at hR
  subst hR
  obtain ⟨log, g1, g2, g3⟩ := C41_once_partial run hone hstart _ fuel hf
  refine ⟨log.map Prod.fst, g2, ?_, ?_⟩
  · intro hn
    obtain ⟨x, hx, hxe⟩ := List.mem_map.1 hn
    exact g3 x hx hxe
  · unfold World.batch
    simp only [g1, List.map_map, ← hp2, Option.getD_some]
    rfl

/-! ### `--count` -/

/-- What `--count` counts: without an argument the sizes and the types of files, the sizes in a readable form, unless `--json` or `--jsonl` is given. -/
def Spec.statistics (words : List Str) (json : Bool) : List Str :=
  if words = [[]] then [if json then "file.size".toList else "file.size:h".toList, "file.type".toList] else words

theorem processArguments_words {a : FArgs} {words : List Str} (h : a.count = some words) : (processArguments a).count = some (statistics words a.json.isSome) := by
  unfold processArguments statistics
  by_cases h1 : a.json.isSome <;> by_cases h2 : a.ignore <;> by_cases h3 : a.oneFileSystem <;> by_cases h4 : a.hide <;> by_cases h5 : a.depth = [] <;>
    by_cases h6 : words = [[]] <;> simp [h, h1, h2, h3, h4, h5, h6]

theorem count_plan {W : World} {argv : List Str} {p : Plan} {w : List Warning} (hr : W.main.run argv = .search p w) {ns : NS}
    (hok : parseArgs (ffOptions W.main.arg) W.main.arg.maxCpu argv = .ok ns) {words : List Str} (hc : (settingsOf ns).fargs.count = some words) (hne : words ≠ []) :
    ∃ fields, countFields W.main.reg (statistics words (settingsOf ns).fargs.json.isSome) = some fields ∧ p.count = some fields ∧
      p.json = (settingsOf ns).fargs.json := by
  obtain ⟨ns', s', hok', hp, hpl, _⟩ := run_search hr
  rw [hok] at hok'
  cases hok'
  obtain ⟨tests, dirs, hd, _, hw⟩ := process_some hp
  have h1 := collectWarnings_settings { settingsOf ns with fargs := processArguments { (settingsOf ns).fargs with tests := tests }, dirs := dirs }
  rw [hw] at h1
  simp only at h1
  subst h1
  have hcount := processArguments_words (a := { (settingsOf ns).fargs with tests := tests }) hc
  have hg : given (some (statistics words (settingsOf ns).fargs.json.isSome)) = true := by
    unfold statistics given
    split
    · rfl
    · simpa using hne
  unfold Settings.plan at hpl
  simp only [hcount, hg, Bool.true_and] at hpl
  split at hpl
  · rename_i g1 g2 g3 g4 g5
    cases hpl
    simp only [optFields, Option.map_eq_some_iff] at g3
    obtain ⟨fields, g3, rfl⟩ := g3
    exact ⟨fields, g3, rfl, processArguments_json _⟩
  · cases hpl

/-- C87, the text of `--count`: the number of the entries asked for and their statistics. Missing: as in `C87_collect_partial` and `C38_lines_partial`. -/
theorem C87_count_partial (W : World) {argv : List Str} {p : Plan} {w : List Warning} (hr : W.main.run argv = .search p w) {ns : NS}
    (hok : parseArgs (ffOptions W.main.arg) W.main.arg.maxCpu argv = .ok ns) {tests dirs : List Str}
    (hd : processDirectories W.main.isdir W.main.cwd (settingsOf ns).fargs.tests (settingsOf ns).dirs = some (tests, dirs)) (hP : Proper W ns tests dirs)
    {words : List Str} (hc : (settingsOf ns).fargs.count = some words) (hne : words ≠ [])
    {s : PState} (h : PSteps (W.cfg ns p) ⟨true, true⟩ (initState (W.startDirs ns p) (ns "jobs".toList).toJobs) s) (hfin : s.main = .finished)
    {out : Str} (hout : W.collective ns p s.collected = some out) :
    ∃ es fields, es.Nodup ∧ (∀ i, i ∈ es ↔ Wanted W ns tests dirs i) ∧ countFields W.main.reg (statistics words (settingsOf ns).fargs.json.isSome) = some fields ∧
      ∀ R, RenderAs W ns R → CountOk R.search R.out fields es → es ≠ [] →
        ((settingsOf ns).fargs.json = none → ∀ vs : Field → List Val, (∀ f ∈ fields, IsValues (fun e => R.search.attr e f.attr) es (vs f)) →
          ∃ lines : List Str, out = lines.flatMap (· ++ ['\n']) ∧ lines.Perm (("_total=".toList ++ natStr es.length) ::
            fields.flatMap (fun f => statLines natStr f.type f.label (f.type.output R.out f.modifier) (fun e => R.search.attr e f.attr) es (vs f)))) ∧
        ((settingsOf ns).fargs.json.isSome = true → ∃ t members, out = t ++ ['\n'] ∧ JText (.obj members) t ∧
          (members.map Prod.fst).Nodup ∧ ("_total".toList, .num es.length) ∈ members ∧
          (∀ f ∈ fields, ∀ j, (f.label, j) ∈ members → IsStat f.type (f.modifier = none) (f.type.output R.out f.modifier) (fun e => R.search.attr e f.attr) es j) ∧
          (∀ f ∈ fields, (∃ e ∈ es, R.search.attr e f.attr ≠ none) → ∃ j, (f.label, j) ∈ members) ∧
          (∀ k ∈ members.map Prod.fst, k = "_total".toList ∨ ∃ f ∈ fields, k = f.label)) := by
  obtain ⟨h1, h2⟩ := C87_collect_partial W hr hok hd hP h hfin
  obtain ⟨fields, hf, hpc, hpj⟩ := count_plan hr hok hc hne
  refine ⟨s.collected, fields, h1, h2, hf, ?_⟩
  intro R hR ok hes
  rw [renders_iff] at hR
  subst hR
  unfold World.collective at hout
  cases hfe : (W.render ns).finalizeEntries W.digits p.sort p.reverse s.collected with
  | none => rw [hfe] at hout; cases hout
  | some es =>
    rw [hfe] at hout
    simp only [Option.map_eq_some_iff] at hout
    obtain ⟨txt, ht, rfl⟩ := hout
    have hnone : W.printed ns p (entriesRange p.limit es) = [] := by
      unfold World.printed
      rw [hpc]
      rfl
    rw [hnone, List.nil_append]
    unfold World.counted at ht
    rw [hpc] at ht
    simp only at ht
    have hloop : collectCount (W.env ns) fields ⟨none, []⟩ s.collected = countLoop (W.env ns) fields [s.collected] := rfl
    have henv : (W.render ns).search = W.env ns := rfl
    rw [hloop] at ht
    rw [hpj] at ht
    refine ⟨fun hj vs hvs => ?_, fun hj => ?_⟩
    · rw [hj] at ht
      simp only [Option.isSome_none, Bool.false_eq_true, if_false, Option.map_eq_some_iff] at ht
      obtain ⟨lines, hl, rfl⟩ := ht
      exact ⟨lines, rfl, C38_lines_partial (W.env ns) W.digits (W.render ns).out fields [s.collected] s.collected ok (by simp) hes vs hvs lines hl⟩
    · rw [if_pos hj] at ht
      obtain ⟨t, members, g⟩ := C38_json_partial (W.env ns) (W.render ns).out fields [s.collected] s.collected ok (by simp) hes
      rw [Option.some.inj ht] at g
      exact ⟨t, members, g⟩

/-! ### Runs that meet the hypotheses -/

set_option maxRecDepth 50000 in
set_option maxHeartbeats 4000000 in
/-- `ff depth=1 -H -l :5 --halt soon -x ls`. -/
theorem demoPool_run : ∃ p w ns words, demoWorld.main.run (["depth=1", "-H", "-l", ":5", "--halt", "soon", "-x", "ls"].map String.toList) = .search p w ∧ p.mode = .collectiveExec ∧
      parseArgs (ffOptions demoWorld.main.arg) demoWorld.main.arg.maxCpu (["depth=1", "-H", "-l", ":5", "--halt", "soon", "-x", "ls"].map String.toList) = .ok ns ∧
      processDirectories demoWorld.main.isdir demoWorld.main.cwd (settingsOf ns).fargs.tests (settingsOf ns).dirs = some (["depth=1".toList], [".".toList]) ∧
      (settingsOf ns).fargs.exclude = [] ∧ (settingsOf ns).fargs.ignore = false ∧ given (settingsOf ns).fargs.count = false ∧
      (settingsOf ns).exec = some words ∧ p.sort = none ∧ ns "halt".toList = .str "soon".toList :=
  ⟨_, _, _, _, rfl, rfl, rfl, rfl, rfl, rfl, rfl, rfl, rfl, by rfl⟩

set_option maxRecDepth 50000 in
set_option maxHeartbeats 4000000 in
/-- `ff depth=1 -H -X ls`. -/
theorem demoBatch_run : ∃ p w ns words, demoWorld.main.run (["depth=1", "-H", "-X", "ls"].map String.toList) = .search p w ∧ p.mode = .collectiveExec ∧
      parseArgs (ffOptions demoWorld.main.arg) demoWorld.main.arg.maxCpu (["depth=1", "-H", "-X", "ls"].map String.toList) = .ok ns ∧
      processDirectories demoWorld.main.isdir demoWorld.main.cwd (settingsOf ns).fargs.tests (settingsOf ns).dirs = some (["depth=1".toList], [".".toList]) ∧
      (settingsOf ns).fargs.exclude = [] ∧ (settingsOf ns).fargs.ignore = false ∧ given (settingsOf ns).fargs.count = false ∧
      (settingsOf ns).execBatch = some words ∧ p.sort = none :=
  ⟨_, _, _, _, rfl, rfl, rfl, rfl, rfl, rfl, rfl, rfl, rfl⟩

/-- The field `ext`. -/
def demoExt : Field := ⟨("file".toList, "ext".toList), "ext".toList, .string, none, none⟩

set_option maxRecDepth 50000 in
set_option maxHeartbeats 4000000 in
/-- `ff depth=1 -H --count=ext`. -/
theorem demoCount_run : ∃ p w ns words, demoWorld.main.run (["depth=1", "-H", "--count=ext"].map String.toList) = .search p w ∧ p.mode = .collectiveConsole ∧
      parseArgs (ffOptions demoWorld.main.arg) demoWorld.main.arg.maxCpu (["depth=1", "-H", "--count=ext"].map String.toList) = .ok ns ∧
      processDirectories demoWorld.main.isdir demoWorld.main.cwd (settingsOf ns).fargs.tests (settingsOf ns).dirs = some (["depth=1".toList], [".".toList]) ∧
      (settingsOf ns).fargs.exclude = [] ∧ (settingsOf ns).fargs.ignore = false ∧ (settingsOf ns).fargs.count = some words ∧ words ≠ [] ∧ p.sort = none ∧
      countFields demoWorld.main.reg (statistics words (settingsOf ns).fargs.json.isSome) = some [demoExt] :=
  ⟨_, _, _, ["ext".toList], rfl, rfl, rfl, rfl, rfl, rfl, rfl, by simp, rfl, rfl⟩

/-- The hypotheses of C89_run_partial and C87_batch_partial are met. -/
example : (∃ argv p w ns tests dirs words s entries u, demoWorld.main.run argv = .search p w ∧ parseArgs (ffOptions demoWorld.main.arg) demoWorld.main.arg.maxCpu argv = .ok ns ∧
      processDirectories demoWorld.main.isdir demoWorld.main.cwd (settingsOf ns).fargs.tests (settingsOf ns).dirs = some (tests, dirs) ∧ Proper demoWorld ns tests dirs ∧
      (settingsOf ns).exec = some words ∧ given (settingsOf ns).fargs.count = false ∧
      PSteps (demoWorld.cfg ns p) ⟨true, true⟩ (initState (demoWorld.startDirs ns p) (ns "jobs".toList).toJobs) s ∧ s.main = .finished ∧
      demoWorld.chosen ns p s.collected = some entries ∧
      Reaches (haltOf (ns "halt".toList)) (demoWorld.command ns p) (demoWorld.pool ns .init entries) u ∧ u.joined = true) ∧
    ∃ argv p w ns tests dirs words s entries, demoWorld.main.run argv = .search p w ∧ parseArgs (ffOptions demoWorld.main.arg) demoWorld.main.arg.maxCpu argv = .ok ns ∧
      processDirectories demoWorld.main.isdir demoWorld.main.cwd (settingsOf ns).fargs.tests (settingsOf ns).dirs = some (tests, dirs) ∧ Proper demoWorld ns tests dirs ∧
      (settingsOf ns).execBatch = some words ∧ given (settingsOf ns).fargs.count = false ∧
      PSteps (demoWorld.cfg ns p) ⟨true, true⟩ (initState (demoWorld.startDirs ns p) (ns "jobs".toList).toJobs) s ∧ s.main = .finished ∧
      demoWorld.chosen ns p s.collected = some entries := by
  refine ⟨?_, ?_⟩
  · obtain ⟨p, w, ns, words, hr, _, hok, hd, h1, h2, hc, hx, hs, hh⟩ := demoPool_run
    have hP := demoWorld_proper h1 h2
    obtain ⟨s, hst, hf⟩ := C86_collect_no_deadlock (demoWorld.cfg ns p) ⟨true, true⟩ (demoWorld.roots ns p) (jobs_pos hP.cpus hok) .refl
    rw [roots_dir] at hst
    have he : demoWorld.chosen ns p s.collected = some (entriesRange p.limit s.collected) := by
      unfold World.chosen
      rw [hs, C35_unsorted]
      rfl
    obtain ⟨u, hu, hj⟩ := C89_no_deadlock (haltOf (ns "halt".toList)) (demoWorld.command ns p) (ns "jobs".toList).toJobs .init (entriesRange p.limit s.collected) ⟨0, .refl⟩
    exact ⟨_, p, w, ns, _, _, words, s, _, u, hr, hok, hd, hP, hx, hc, hst, hf, he, hu, hj⟩
  · obtain ⟨p, w, ns, words, hr, _, hok, hd, h1, h2, hc, hx, hs⟩ := demoBatch_run
    have hP := demoWorld_proper h1 h2
    obtain ⟨s, hst, hf⟩ := C86_collect_no_deadlock (demoWorld.cfg ns p) ⟨true, true⟩ (demoWorld.roots ns p) (jobs_pos hP.cpus hok) .refl
    rw [roots_dir] at hst
    have he : demoWorld.chosen ns p s.collected = some (entriesRange p.limit s.collected) := by
      unfold World.chosen
      rw [hs, C35_unsorted]
      rfl
    exact ⟨_, p, w, ns, _, _, words, s, _, hr, hok, hd, hP, hx, hc, hst, hf, he⟩

/-- The hypotheses of C87_count_partial are met, as is `CountOk`. -/
example : ∃ argv p w ns tests dirs words s fields, demoWorld.main.run argv = .search p w ∧ parseArgs (ffOptions demoWorld.main.arg) demoWorld.main.arg.maxCpu argv = .ok ns ∧
      processDirectories demoWorld.main.isdir demoWorld.main.cwd (settingsOf ns).fargs.tests (settingsOf ns).dirs = some (tests, dirs) ∧ Proper demoWorld ns tests dirs ∧
      (settingsOf ns).fargs.count = some words ∧ words ≠ [] ∧
      PSteps (demoWorld.cfg ns p) ⟨true, true⟩ (initState (demoWorld.startDirs ns p) (ns "jobs".toList).toJobs) s ∧ s.main = .finished ∧
      countFields demoWorld.main.reg (statistics words (settingsOf ns).fargs.json.isSome) = some fields ∧ CountOk (demoWorld.env ns) (demoWorld.render ns).out fields s.collected := by
  obtain ⟨p, w, ns, words, hr, _, hok, hd, h1, h2, hc, hne, hs, hf⟩ := demoCount_run
  have hP := demoWorld_proper h1 h2
  obtain ⟨s, hst, hfin⟩ := C86_collect_no_deadlock (demoWorld.cfg ns p) ⟨true, true⟩ (demoWorld.roots ns p) (jobs_pos hP.cpus hok) .refl
  rw [roots_dir] at hst
  refine ⟨_, p, w, ns, _, _, words, s, _, hr, hok, hd, hP, hc, hne, hst, hfin, hf, ⟨?_, ?_, ?_, ?_, ?_⟩⟩
  · simp [demoExt]
  · simp
  · decide
  · intro f hf e _ v hv
    rw [List.mem_singleton] at hf
    subst hf
    have : ∃ t, (demoWorld.env ns).attr e demoExt.attr = some (.str t) := ⟨_, rfl⟩
    obtain ⟨t, ht⟩ := this
    rw [ht] at hv
    cases hv
    trivial
  · intro f hf
    rw [List.mem_singleton] at hf
    subst hf
    exact .inl (by decide)

end FF
