import Verif.Lemmas.ArgParse
import Verif.Model.Arguments
/-! Properties C52, C53, C54: the command line parser. -/
namespace FF
open Spec

theorem dashNext_head {ws : List Str} (h : DashNext ws) : ∀ w r, ws = w :: r → isDash w = true := by
  intro w r hw; subst hw; exact isDash_iff.2 h

theorem parseOption_flag {opts : List ArgOpt} {args o : ArgOpt} (ht : Table opts args) (ho : o ∈ opts) (hf : IsFlag o) {s : Str} (hs : s ∈ o.strings)
    (m : Int) (ns : NS) (argv : List Str) :
    parseOption opts m ns (s :: argv) = .ok (stored ns o.dest (flagVal o), argv) := by
  simp only [parseOption, getOption_table ht ho (isFlag_ne hf).1 hs]
  rcases hf with h | ⟨k, h⟩ <;> simp only [h, flagVal] <;> rfl

theorem parseOption_arg {opts : List ArgOpt} {args o : ArgOpt} (ht : Table opts args) (ho : o ∈ opts) (ha : TakesArg o) {s v : Str} (hs : s ∈ o.strings)
    (hv : OptArg o → ¬ Dash v) (m : Int) (ns : NS) (argv : List Str) :
    parseOption opts m ns (s :: v :: argv) = match meaning args m ns (.arg o v) with
      | .error e => .error e
      | .ok ns' => .ok (ns', argv) := by
  simp only [parseOption, getOption_table ht ho (takesArg_ne ha).1 hs, meaning]
  rcases ha with h | h | ⟨k, h⟩
  · rw [h]
    simp only [reduceCtorEq, if_false]
    cases o.type.conv m v <;> rfl
  · rw [h]
    simp [append_pushed]
  · have hd : ¬ isDash v = true := fun hd => hv ⟨k, h⟩ (isDash_iff.1 hd)
    rw [h]
    simp only [hd, if_false, reduceCtorEq]
    cases o.type.conv m v <;> simp [set_stored]

/-- C52: however the elements of a command line are spelled - long or short names, arguments attached or separate, flags bundled or not - the
result of parsing is what the elements mean, and it is the same error that is reported otherwise; whatever came before. -/
theorem C52_spellings_partial {opts : List ArgOpt} {args : ArgOpt} (ht : Table opts args) (m : Int) {items : List CItem} {ws : List Str}
    (h : Spells opts items ws) : ∀ ns, argRun opts m ns ws = meanings args m ns items := by
  induction h with
  | nil => intro ns; rw [argRun_nil]; rfl
  | flag ho hf hs _ ih =>
    intro ns
    rw [argRun_cons, argStep_string ht ho (isFlag_ne hf).1 hs, parseOption_flag ht ho hf hs]
    simp only [ih, meanings, meaning]
  | arg ho ha hs hv _ ih =>
    intro ns
    rw [argRun_cons, argStep_string ht ho (takesArg_ne ha).1 hs, parseOption_arg ht ho ha hs hv]
    simp only [meanings]
    cases meaning args m ns _ with
    | error e => rfl
    | ok ns' => exact ih ns'
  | argLong ho ha hs hv _ ih =>
    intro ns
    rw [argRun_expand ht ho (takesArg_ne ha).1 hs m ns (by simp [isDash, startsWith]) (expandArg_long ht ho ha hs)]
    simp only [List.cons_append, List.nil_append]
    rw [argRun_cons, argStep_string ht ho (takesArg_ne ha).1 hs, parseOption_arg ht ho ha hs hv]
    simp only [meanings]
    cases meaning args m ns _ with
    | error e => rfl
    | ok ns' => exact ih ns'
  | argShort ho ha hs hv hne _ ih =>
    intro ns
    rw [argRun_expand ht ho (takesArg_ne ha).1 hs m ns (by simp [isDash, startsWith]) (expandArg_short ht ho ha hs hne)]
    simp only [List.cons_append, List.nil_append]
    rw [argRun_cons, argStep_string ht ho (takesArg_ne ha).1 hs, parseOption_arg ht ho ha hs hv]
    simp only [meanings]
    cases meaning args m ns _ with
    | error e => rfl
    | ok ns' => exact ih ns'
  | @bare o s is ws ho ha hs hn _ ih =>
    intro ns
    have hne : o.action ≠ .arguments := by obtain ⟨c, h⟩ := ha; rw [h]; simp
    rw [argRun_cons, argStep_string ht ho hne hs]
    obtain ⟨c, h⟩ := ha
    simp only [parseOption, getOption_table ht ho hne hs, meanings, meaning, h]
    cases ws with
    | nil =>
      simp only
      cases o.type.conv m c with
      | error e => rfl
      | ok x => exact ih _
    | cons w r =>
      have := dashNext_head hn w r rfl
      simp only [this, if_true]
      cases o.type.conv m c with
      | error e => rfl
      | ok x => exact ih _
  | @rest o s ws ho ha hs hne =>
    intro ns
    have hne' : o.action ≠ .arguments := by rw [ha]; simp
    rw [argRun_cons, argStep_string ht ho hne' hs]
    simp only [parseOption, getOption_table ht ho hne' hs, meanings, meaning, ha]
    cases ws with
    | nil => exact absurd rfl hne
    | cons w r => simp only [argRun_nil]; rw [appendAll_pushed _ _ _ (by simp)]
  | @words us is ws hne hnd hn _ ih =>
    intro ns
    cases us with
    | nil => exact absurd rfl hne
    | cons u us =>
      have hu : ∀ x ∈ u :: us, isDash x = false := by
        intro x hx
        cases h : isDash x with
        | false => rfl
        | true => exact absurd (isDash_iff.1 h) (hnd x hx)
      have htake : ((u :: us) ++ ws).takeWhile (fun w => !isDash w) = u :: us ∧ ((u :: us) ++ ws).dropWhile (fun w => !isDash w) = ws := by
        have hws : ws.takeWhile (fun w => !isDash w) = [] ∧ ws.dropWhile (fun w => !isDash w) = ws := by
          cases ws with
          | nil => simp
          | cons w r => simp [dashNext_head hn w r rfl]
        rw [List.takeWhile_append_of_pos (by intro x hx; simp [hu x hx]), List.dropWhile_append_of_pos (by intro x hx; simp [hu x hx]), hws.1, hws.2]
        simp
      rw [List.cons_append, argRun_cons]
      simp only [argStep, hu u (by simp), Bool.false_eq_true, if_false, parsePositional, getArgumentsOption_table ht, meanings, meaning]
      rw [← List.cons_append, htake.1, htake.2]
      by_cases htr : (ns args.dest).truthy = true
      · simp [htr]
      · rw [if_neg htr, if_neg htr]
        simp only [ih]
        rw [appendAll_pushed _ _ _ (by simp)]
  | bundle ho hf hs hd hl _ ih =>
    intro ns
    rcases argRun_bundle ht ho hf hs hd hl m ns _ with h | ⟨e, h1, h2⟩
    · rw [h, argRun_cons, argStep_string ht ho (isFlag_ne hf).1 hs, parseOption_flag ht ho hf hs]
      simp only [ih, meanings, meaning]
    · rw [h1]
      simp only [meanings, meaning]
      rw [← ih, h2]

/-- C52: two spellings of the same elements parse equally. -/
theorem C52_equal_partial {opts : List ArgOpt} {args : ArgOpt} (ht : Table opts args) (m : Int) {items : List CItem} {ws ws' : List Str}
    (h : Spells opts items ws) (h' : Spells opts items ws') : parseArgs opts m ws = parseArgs opts m ws' := by
  unfold parseArgs
  rw [C52_spellings_partial ht m h, C52_spellings_partial ht m h']

/-! ### The options of ff -/

/-- The form of an option string, as a check. -/
def formOk : Str → Bool
  | ['-', c] => c ≠ '-'
  | '-' :: '-' :: n => n ≠ [] && '=' ∉ n
  | _ => false

/-- Strings and action of the options. -/
def shape (opts : List ArgOpt) : List (List Str × Action) := opts.map (fun o => (o.strings, o.action))

/-- `Table` as a check. -/
def shapeOk (l : List (List Str × Action)) : Prop :=
  (∀ x ∈ l, x.2 ≠ .arguments → ∀ s ∈ x.1, formOk s = true) ∧
  l.Pairwise (fun x y => ∀ s ∈ x.1, s ∉ y.1) ∧ (l.map Prod.snd).count .arguments = 1
instance (l : List (List Str × Action)) : Decidable (shapeOk l) := by unfold shapeOk; infer_instance

theorem formOk_iff {s : Str} (h : formOk s = true) : (∃ c, c ≠ '-' ∧ s = ['-', c]) ∨ (∃ n, s = '-' :: '-' :: n ∧ n ≠ [] ∧ '=' ∉ n) := by
  unfold formOk at h
  split at h
  · exact .inl ⟨_, by simpa using h, rfl⟩
  · simp at h; exact .inr ⟨_, rfl, h⟩
  · cases h

theorem table_of_shape {opts : List ArgOpt} (h : shapeOk (shape opts)) : ∃ args, Table opts args := by
  obtain ⟨h1, h2, h3⟩ := h
  have hpw : opts.Pairwise (fun x y => ∀ s ∈ x.strings, s ∉ y.strings) := by
    unfold shape at h2; rw [List.pairwise_map] at h2; exact h2
  have hun : ∀ o ∈ opts, ∀ o' ∈ opts, ∀ s, s ∈ o.strings → s ∈ o'.strings → o = o' := by
    clear h1 h2 h3
    induction opts with
    | nil => intro o ho; cases ho
    | cons a as ih =>
      rw [List.pairwise_cons] at hpw
      intro o ho o' ho' s hs hs'
      rcases List.mem_cons.1 ho with e | ho
      · rcases List.mem_cons.1 ho' with e' | ho'
        · rw [e, e']
        · rw [e] at hs; exact absurd hs' (hpw.1 o' ho' s hs)
      · rcases List.mem_cons.1 ho' with e' | ho'
        · rw [e'] at hs'; exact absurd hs (hpw.1 o ho s hs')
        · exact ih hpw.2 o ho o' ho' s hs hs'
  have hone : ∀ l : List ArgOpt, ((shape l).map Prod.snd).count .arguments = 1 → ∃ a ∈ l, a.action = .arguments ∧ ∀ o ∈ l, o.action = .arguments → o = a := by
    intro l
    induction l with
    | nil => intro h; simp [shape] at h
    | cons x l ih =>
      intro h
      by_cases hx : x.action = .arguments
      · refine ⟨x, by simp, hx, ?_⟩
        have h0 : ((shape l).map Prod.snd).count .arguments = 0 := by
          simp only [shape, List.map_cons, hx, List.count_cons_self] at h ⊢; omega
        intro o ho hoa
        rcases List.mem_cons.1 ho with e | ho
        · exact e
        · exfalso
          rw [List.count_eq_zero] at h0
          exact h0 (by simp only [shape, List.map_map, List.mem_map]; exact ⟨o, ho, hoa⟩)
      · have : ((shape l).map Prod.snd).count .arguments = 1 := by
          simp only [shape, List.map_cons] at h ⊢
          rwa [List.count_cons_of_ne (by simpa using hx)] at h
        obtain ⟨a, ha, haa, hu⟩ := ih this
        refine ⟨a, by simp [ha], haa, ?_⟩
        intro o ho hoa
        rcases List.mem_cons.1 ho with e | ho
        · rw [e] at hoa; exact absurd hoa hx
        · exact hu o ho hoa
  obtain ⟨a, ha, haa, hu⟩ := hone opts h3
  refine ⟨a, ⟨?_, ?_, ⟨ha, haa⟩, hu⟩⟩
  · intro o ho hoa s hs
    exact formOk_iff (h1 (o.strings, o.action) (by unfold shape; exact List.mem_map.2 ⟨o, ho, rfl⟩) hoa s hs)
  · intro o ho o' ho' _ _ s hs hs'; exact hun o ho o' ho' s hs hs'

set_option maxRecDepth 20000 in
/-- The option table of ff is well-formed, with and without debug options. -/
theorem C52_table (env : ArgEnv) : ∃ args, Table (ffOptions env) args := by
  apply table_of_shape
  have : shape (ffOptions env) = shape (ffOptions { debug := env.debug, maxCpu := 0, cache := [], noColor := false }) := by
    obtain ⟨d, m, c, n⟩ := env
    cases d <;> rfl
  rw [this]
  cases env.debug <;> decide

/-- The environment of the examples. -/
def demoArgEnv : ArgEnv := { debug := false, maxCpu := 4, cache := "/c".toList, noColor := false }

/-- The value of an option after parsing. -/
def argVal (env : ArgEnv) (argv : List String) (key : String) : Option NVal :=
  match parseArgs (ffOptions env) env.maxCpu (argv.map String.toList) with
  | .ok ns => some (ns key.toList)
  | .error _ => none

set_option maxRecDepth 20000 in
-- -HRSsize -j2 --depth=1-2 type=f name=x -x ls -l
example : ∃ o1 o2 o3 o4 o5 o6, Spells (ffOptions demoArgEnv)
    [.flag o1, .flag o2, .arg o3 "size".toList, .arg o4 "2".toList, .arg o5 "1-2".toList, .words ["type=f".toList, "name=x".toList],
      .rest o6 ["ls".toList, "-l".toList]]
    (["-HRSsize", "-j2", "--depth=1-2", "type=f", "name=x", "-x", "ls", "-l"].map String.toList) := by
  have get : ∀ s : String, ∀ i, (h : i < (ffOptions demoArgEnv).length) → s.toList ∈ ((ffOptions demoArgEnv)[i]).strings →
      ∃ o, o = (ffOptions demoArgEnv)[i] ∧ o ∈ ffOptions demoArgEnv ∧ s.toList ∈ o.strings := by
    intro s i h hs; exact ⟨_, rfl, List.getElem_mem h, hs⟩
  obtain ⟨o1, e1, m1, s1⟩ := get "-H" 13 (by decide) (by decide)
  obtain ⟨o2, e2, m2, s2⟩ := get "-R" 30 (by decide) (by decide)
  obtain ⟨o3, e3, m3, s3⟩ := get "-S" 29 (by decide) (by decide)
  obtain ⟨o4, e4, m4, s4⟩ := get "-j" 4 (by decide) (by decide)
  obtain ⟨o5, e5, m5, s5⟩ := get "--depth" 17 (by decide) (by decide)
  obtain ⟨o6, e6, m6, s6⟩ := get "-x" 22 (by decide) (by decide)
  refine ⟨o1, o2, o3, o4, o5, o6, ?_⟩
  refine .bundle m1 (.inl (by rw [e1]; decide)) s1 (by decide) (fun h => by cases h) ?_
  refine .bundle m2 (.inl (by rw [e2]; decide)) s2 (by decide) (fun h => by cases h) ?_
  refine .argShort (v := "size".toList) m3 (.inr (.inr ⟨"file.path".toList, by rw [e3]; decide⟩)) s3 (fun _ => by rintro ⟨r, h⟩; cases h) (by decide) ?_
  refine .argShort (v := "2".toList) m4 (.inl (by rw [e4]; decide)) s4 (by rw [e4]; rintro ⟨c, h⟩; cases h) (by decide) ?_
  refine .argLong (s := "depth".toList) (v := "1-2".toList) m5 (.inl (by rw [e5]; decide)) s5 (by rw [e5]; rintro ⟨c, h⟩; cases h) ?_
  refine .words (us := ["type=f".toList, "name=x".toList]) (by decide) ?_ ⟨_, rfl⟩ ?_
  · intro u hu
    simp only [List.mem_cons, List.not_mem_nil, or_false] at hu
    rcases hu with rfl | rfl <;> (rintro ⟨r, h⟩; cases h)
  · exact .rest m6 (by rw [e6]; decide) s6 (by decide)

set_option maxRecDepth 20000 in
/-- C52 fails for a bundle that ends with an option taking an argument: the option gets an empty argument instead of the next word. -/
theorem C52_false :
    argVal demoArgEnv ["-H", "-D", "a"] "directories" = some (.strs ["a".toList]) ∧ argVal demoArgEnv ["-HD", "a"] "directories" = some (.strs [[]]) ∧
    argVal demoArgEnv ["-H", "-S"] "sort" = some (.strs ["file.path".toList]) ∧ argVal demoArgEnv ["-HS"] "sort" = some (.strs [[]]) := by
  decide

/-! ### C53 -/

/-- C53: wherever on the command line the parser has come to, `-x`, `--exec`, `-X` or `--exec-batch` make all following words the command template,
verbatim, and nothing else changes. -/
theorem C53_rest_verbatim (env : ArgEnv) {s dest : String} (hs : (s, dest) ∈ [("-x", "exec"), ("--exec", "exec"), ("-X", "exec_batch"), ("--exec-batch", "exec_batch")])
    (ns : NS) {ws : List Str} (hne : ws ≠ []) (hns : ns dest.toList = .unset) :
    ∃ ns', argRun (ffOptions env) env.maxCpu ns (s.toList :: ws) = .ok ns' ∧ ns' dest.toList = .strs ws ∧ ∀ k, k ≠ dest.toList → ns' k = ns k := by
  obtain ⟨args, ht⟩ := C52_table env
  have hex : ∃ o ∈ ffOptions env, o.action = .storeRemainder ∧ s.toList ∈ o.strings ∧ o.dest = dest.toList := by
    simp only [List.mem_cons, List.not_mem_nil, or_false, Prod.mk.injEq] at hs
    obtain ⟨d, m, c, n⟩ := env
    rcases hs with ⟨rfl, rfl⟩ | ⟨rfl, rfl⟩ | ⟨rfl, rfl⟩ | ⟨rfl, rfl⟩
    · refine ⟨(ffOptions ⟨d, m, c, n⟩)[if d then 24 else 22]'(by cases d <;> simp [ffOptions]), List.getElem_mem _, ?_⟩
      cases d <;> exact ⟨rfl, (show "-x".toList ∈ ["-x", "--exec"].map String.toList by decide), rfl⟩
    · refine ⟨(ffOptions ⟨d, m, c, n⟩)[if d then 24 else 22]'(by cases d <;> simp [ffOptions]), List.getElem_mem _, ?_⟩
      cases d <;> exact ⟨rfl, (show "--exec".toList ∈ ["-x", "--exec"].map String.toList by decide), rfl⟩
    · refine ⟨(ffOptions ⟨d, m, c, n⟩)[if d then 25 else 23]'(by cases d <;> simp [ffOptions]), List.getElem_mem _, ?_⟩
      cases d <;> exact ⟨rfl, (show "-X".toList ∈ ["-X", "--exec-batch"].map String.toList by decide), rfl⟩
    · refine ⟨(ffOptions ⟨d, m, c, n⟩)[if d then 25 else 23]'(by cases d <;> simp [ffOptions]), List.getElem_mem _, ?_⟩
      cases d <;> exact ⟨rfl, (show "--exec-batch".toList ∈ ["-X", "--exec-batch"].map String.toList by decide), rfl⟩
  obtain ⟨o, ho, ha, hso, hd⟩ := hex
  refine ⟨_, C52_spellings_partial ht env.maxCpu (.rest ho ha hso hne) ns, ?_, ?_⟩
  · simp [pushed, hd, hns]
  · intro k hk; simp [pushed, hd, hk]

set_option maxRecDepth 20000 in
example : argVal demoArgEnv ["-H", "name=x", "-x", "ls", "-l", "--color", "-x", "{}"] "exec" =
    some (.strs (["ls", "-l", "--color", "-x", "{}"].map String.toList)) := by decide

/-! ### C67: defaults -/

theorem meaning_other {args : ArgOpt} {m : Int} {ns ns' : NS} {i : CItem} (h : meaning args m ns i = .ok ns') {k : Str} (hk : i.dest args ≠ k) : ns' k = ns k := by
  have hk' : ¬ k = i.dest args := fun e => hk e.symm
  cases i with
  | flag o => cases h; exact if_neg hk'
  | arg o v =>
    simp only [meaning] at h
    split at h
    · cases h; exact if_neg hk'
    · split at h
      · cases h
      · cases h; exact if_neg hk'
  | bare o =>
    simp only [meaning] at h
    split at h
    · cases h
    · cases h; exact if_neg hk'
  | rest o ws => cases h; exact if_neg hk'
  | words ws =>
    simp only [meaning] at h
    split at h
    · cases h
    · cases h; exact if_neg hk'

theorem meanings_other {args : ArgOpt} {m : Int} {items : List CItem} {ns ns' : NS} (h : meanings args m ns items = .ok ns') {k : Str}
    (hk : ∀ i ∈ items, i.dest args ≠ k) : ns' k = ns k := by
  induction items generalizing ns with
  | nil => cases h; rfl
  | cons i is ih =>
    simp only [meanings] at h
    cases hm : meaning args m ns i with
    | error e => rw [hm] at h; cases h
    | ok ns1 =>
      rw [hm] at h
      rw [ih h (fun j hj => hk j (by simp [hj])), meaning_other hm (hk i (by simp))]

set_option maxRecDepth 20000 in
/-- C67: a setting no element of the command line is about has its documented default, whatever the rest of the command line. -/
theorem C67_default (env : ArgEnv) {args : ArgOpt} (ht : Table (ffOptions env) args) {items : List CItem} {ws : List Str} (h : Spells (ffOptions env) items ws)
    {ns : NS} (hok : parseArgs (ffOptions env) env.maxCpu ws = .ok ns) {k : Str} {v : NVal} (hv : (k, v) ∈ documentedDefaults env.maxCpu env.noColor)
    (hk : ∀ i ∈ items, i.dest args ≠ k) : ns k = v := by
  unfold parseArgs at hok
  rw [C52_spellings_partial ht _ h] at hok
  rw [meanings_other hok hk]
  obtain ⟨d, m, c, n⟩ := env
  have key : ∀ p ∈ documentedDefaults m n, initNS (ffOptions ⟨d, m, c, n⟩) p.1 = p.2 := by
    unfold documentedDefaults
    simp only [List.map_cons, List.map_nil, List.cons_append, List.nil_append, List.forall_mem_cons]
    cases d <;> cases n <;> (refine ⟨?_, ?_, ?_, ?_, ?_, ?_, ?_, ?_, ?_, ?_, ?_, ?_, ?_, ?_, ?_, ?_, ?_, ?_, ?_, ?_, ?_, ?_, ?_, ?_, ?_, ?_, ?_, ?_, ?_, ?_, ?_⟩ <;> first | rfl | (intro x hx; cases hx))
  exact key _ hv

set_option maxRecDepth 20000 in
/-- `-H type=f` leaves the number of jobs at its default. -/
example : argVal demoArgEnv ["-H", "type=f"] "jobs" = some (.int 4) ∧ argVal demoArgEnv ["-H", "type=f"] "hide" = some (.bool true) ∧
    ("jobs".toList, NVal.int 4) ∈ documentedDefaults 4 false := by decide

end FF
