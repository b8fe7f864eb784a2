import Verif.Props.ArgParse
import Verif.Spec.Accepted
/-! Property C126: which command lines are accepted. -/
namespace FF
open Spec

theorem getOption_some {opts : List ArgOpt} {s : Str} {o : ArgOpt} (h : getOption opts s = some o) :
    o ∈ opts ∧ o.action ≠ .arguments ∧ s ∈ o.strings := by
  have hm := List.mem_of_find?_eq_some h
  have hs := List.find?_some h
  simp only [ne_eq, decide_not, Bool.and_eq_true, Bool.not_eq_eq_eq_not, Bool.not_true, decide_eq_false_iff_not, decide_eq_true_eq] at hs
  exact ⟨hm, hs.1, hs.2⟩

theorem bundle_letters {opts : List ArgOpt} {args : ArgOpt} (ht : Table opts args) : ∀ {cs : Str} {ws : List Str},
    bundle opts cs = .ok ws ↔ Letters opts cs ws := by
  intro cs
  induction cs with
  | nil =>
    intro ws
    constructor
    · intro h; simp only [bundle, Except.ok.injEq] at h; subst h; exact .nil
    · intro h; cases h; rfl
  | cons c cs ih =>
    intro ws
    constructor
    · intro h
      simp only [bundle] at h
      cases hg : getOption opts ['-', c] with
      | none => rw [hg] at h; cases h
      | some o =>
        rw [hg] at h
        obtain ⟨ho, ha, hs⟩ := getOption_some hg
        simp only at h
        by_cases hta : o.action.takesArgument = true
        · rw [if_pos hta] at h
          simp only [Except.ok.injEq] at h; subst h
          exact .arg ho (takesArgument_iff.1 hta) hs
        · rw [if_neg hta] at h
          cases hb : bundle opts cs with
          | error e => rw [hb] at h; cases h
          | ok ws' =>
            rw [hb] at h
            simp only [Except.ok.injEq] at h; subst h
            exact .plain ho ha (fun h => hta (takesArgument_iff.2 h)) hs (ih.1 hb)
    · intro h
      cases h with
      | plain ho ha hnt hs hl =>
        have hnt' : ¬ _ = true := fun h => hnt (takesArgument_iff.1 h)
        simp only [bundle, getOption_table ht ho ha hs]
        rw [if_neg hnt', ih.2 hl]
      | arg ho hta hs =>
        simp only [bundle, getOption_table ht ho (takesArg_ne hta).1 hs]
        rw [if_pos (takesArgument_iff.2 hta)]

/-- If the first word is rewritten, the parser goes on as if the rewritten words had been given. -/
theorem argRun_rewrite {opts : List ArgOpt} {m : Int} {ns : NS} {w s : Str} {ws argv : List Str} (hd : isDash w = true)
    (he : expandArg opts w = .ok (s :: ws)) (hds : isDash s = true) (hes : expandArg opts s = .ok [s]) :
    argRun opts m ns (w :: argv) = argRun opts m ns (s :: (ws ++ argv)) := by
  rw [argRun_cons, argRun_cons]
  simp [argStep, hd, he, hds, hes]

theorem letters_head {opts : List ArgOpt} {c : Char} {cs : Str} {vs : List Str} (h : Letters opts (c :: cs) vs) :
    ∃ r, vs = ['-', c] :: r := by
  cases h <;> exact ⟨_, rfl⟩

theorem argRun_words {opts : List ArgOpt} {args : ArgOpt} (ht : Table opts args) (m : Int) (ns : NS) {us ws : List Str} (hne : us ≠ [])
    (hnd : ∀ u ∈ us, ¬ Dash u) (hn : DashNext ws) : argRun opts m ns (us ++ ws) = match meaning args m ns (.words us) with
      | .error e => .error e
      | .ok ns' => argRun opts m ns' ws := by
  have h1 : ∀ us : List Str, (∀ u ∈ us, ¬ Dash u) → (us ++ ws).takeWhile (fun w => !isDash w) = us ∧ (us ++ ws).dropWhile (fun w => !isDash w) = ws := by
    intro us
    induction us with
    | nil =>
      intro _
      cases ws with
      | nil => simp
      | cons w r => simp [isDash_iff.2 (show Dash w from hn)]
    | cons u us ih =>
      intro h
      have hu : isDash u = false := by
        cases hq : isDash u with
        | false => rfl
        | true => exact absurd (isDash_iff.1 hq) (h u (by simp))
      have := ih (fun x hx => h x (List.mem_cons_of_mem _ hx))
      simp [hu, this]
  cases us with
  | nil => exact absurd rfl hne
  | cons u us =>
    have hu : isDash u = false := by
      cases hq : isDash u with
      | false => rfl
      | true => exact absurd (isDash_iff.1 hq) (hnd u (by simp))
    have h1 := h1 (u :: us) hnd
    rw [List.cons_append, argRun_cons]
    simp only [argStep, hu, Bool.false_eq_true, if_false, parsePositional, getArgumentsOption_table ht, meaning]
    rw [← List.cons_append, h1.1, h1.2]
    by_cases htr : (ns args.dest).truthy = true
    · simp [htr]
    · rw [if_neg htr, if_neg htr]
      rw [appendAll_pushed _ _ _ (by simp)]

/-- C126: words that can be read mean what they are read as. -/
theorem C126_reads {opts : List ArgOpt} {args : ArgOpt} (ht : Table opts args) (m : Int) {items : List CItem} {ws : List Str}
    (h : Reads opts items ws) : ∀ ns, argRun opts m ns ws = meanings args m ns items := by
  induction h with
  | nil => intro ns; rw [argRun_nil]; rfl
  | flag ho hf hs _ ih =>
    intro ns
    rw [argRun_cons, argStep_string ht ho (isFlag_ne hf).1 hs, parseOption_flag ht ho hf hs]
    simp only [ih, meanings, meaning]
  | arg ho ha hs hv _ ih =>
    intro ns
    rw [argRun_cons, argStep_string ht ho (takesArg_ne ha).1 hs, parseOption_arg ht ho ha hs hv]
    simp only [meanings]
    cases meaning args m ns _ with
    | error e => rfl
    | ok ns' => exact ih ns'
  | @bare o s is ws ho ha hs hn _ ih =>
    intro ns
    have hne : o.action ≠ .arguments := by obtain ⟨c, h⟩ := ha; rw [h]; simp
    rw [argRun_cons, argStep_string ht ho hne hs]
    obtain ⟨c, h⟩ := ha
    simp only [parseOption, getOption_table ht ho hne hs, meanings, meaning, h]
    cases ws with
    | nil =>
      simp only
      cases o.type.conv m c with
      | error e => rfl
      | ok x => exact ih _
    | cons w r =>
      have := dashNext_head hn w r rfl
      simp only [this, if_true]
      cases o.type.conv m c with
      | error e => rfl
      | ok x => exact ih _
  | @rest o s ws ho ha hs hne => exact C52_spellings_partial ht m (Spells.rest ho ha hs hne)
  | @words us is ws hne hnd hn _ ih =>
    intro ns
    rw [argRun_words ht m ns hne hnd hn]
    simp only [meanings]
    cases meaning args m ns _ with
    | error e => rfl
    | ok ns' => exact ih ns'
  | @long o s v is ws ho ha hs _ ih =>
    intro ns
    rw [argRun_expand ht ho (takesArg_ne ha).1 hs m ns (by simp [isDash, startsWith]) (expandArg_long ht ho ha hs)]
    exact ih ns
  | @bundle c d cs vs is ws hc hl _ ih =>
    intro ns
    obtain ⟨r, rfl⟩ := letters_head hl
    have he : expandArg opts ('-' :: c :: d :: cs) = .ok (['-', c] :: r) := by
      rw [expandArg_bundle hc (by simp)]; exact (bundle_letters ht).2 hl
    rw [argRun_rewrite (by simp [isDash, startsWith]) he (by simp [isDash, startsWith]) (by simp [expandArg, startsWith, Ne.symm hc])]
    exact ih ns

theorem reads_nil {opts : List ArgOpt} {items : List CItem} (h : Reads opts items []) : items = [] := by
  generalize hq : ([] : List Str) = q at h
  cases h with
  | nil => rfl
  | words hne =>
    have := (List.append_eq_nil_iff.1 hq.symm).1
    exact absurd this hne
  | flag => cases hq
  | arg => cases hq
  | bare => cases hq
  | rest => cases hq
  | long => cases hq
  | bundle => cases hq

/-- One option that is accepted. -/
theorem parseOption_reads {opts : List ArgOpt} {args : ArgOpt} (ht : Table opts args) {m : Int} {ns ns' : NS} {s : Str} {argv rest : List Str}
    (h : parseOption opts m ns (s :: argv) = .ok (ns', rest)) {items : List CItem} (hr : Reads opts items rest) :
    ∃ i, Reads opts (i :: items) (s :: argv) ∧ meaning args m ns i = .ok ns' := by
  simp only [parseOption] at h
  cases hg : getOption opts s with
  | none => rw [hg] at h; cases h
  | some o =>
    rw [hg] at h
    obtain ⟨ho, ha, hs⟩ := getOption_some hg
    simp only at h
    cases hact : o.action with
    | storeTrue =>
      rw [hact] at h
      simp only [Except.ok.injEq, Prod.mk.injEq] at h
      obtain ⟨rfl, rfl⟩ := h
      exact ⟨.flag o, .flag ho (.inl hact) hs hr, by simp [meaning, flagVal, hact, set_stored]⟩
    | storeConst c =>
      rw [hact] at h
      simp only [Except.ok.injEq, Prod.mk.injEq] at h
      obtain ⟨rfl, rfl⟩ := h
      exact ⟨.flag o, .flag ho (.inr ⟨c, hact⟩) hs hr, by simp [meaning, flagVal, hact, set_stored]⟩
    | append =>
      rw [hact] at h
      cases argv with
      | nil => cases h
      | cons v argv =>
        simp only [Except.ok.injEq, Prod.mk.injEq] at h
        obtain ⟨rfl, rfl⟩ := h
        exact ⟨.arg o v, .arg ho (.inr (.inl hact)) hs (by rintro ⟨c, hc⟩; rw [hact] at hc; cases hc) hr, by simp [meaning, hact, append_pushed]⟩
    | store =>
      rw [hact] at h
      cases argv with
      | nil => cases h
      | cons v argv =>
        simp only at h
        cases hc : o.type.conv m v with
        | error e => rw [hc] at h; cases h
        | ok x =>
          rw [hc] at h
          simp only [Except.ok.injEq, Prod.mk.injEq] at h
          obtain ⟨rfl, rfl⟩ := h
          exact ⟨.arg o v, .arg ho (.inl hact) hs (by rintro ⟨c, hc⟩; rw [hact] at hc; cases hc) hr, by simp [meaning, hact, hc, set_stored]⟩
    | storeOptional c =>
      rw [hact] at h
      have bareCase : DashNext argv → (match o.type.conv m c with | .error e => Except.error e | .ok x => .ok (NS.set ns o.dest x, argv)) = .ok (ns', rest) →
          ∃ i, Reads opts (i :: items) (s :: argv) ∧ meaning args m ns i = .ok ns' := by
        intro hn h
        cases hc : o.type.conv m c with
        | error e => rw [hc] at h; cases h
        | ok x =>
          rw [hc] at h
          simp only [Except.ok.injEq, Prod.mk.injEq] at h
          obtain ⟨rfl, rfl⟩ := h
          exact ⟨.bare o, .bare ho ⟨c, hact⟩ hs hn hr, by simp [meaning, hact, hc, set_stored]⟩
      cases argv with
      | nil => exact bareCase trivial h
      | cons v argv =>
        by_cases hv : isDash v = true
        · simp only [hv, if_true] at h
          exact bareCase (isDash_iff.1 hv) h
        · simp only [hv] at h
          cases hc : o.type.conv m v with
          | error e => simp [hc] at h
          | ok x =>
            simp [hc] at h
            obtain ⟨rfl, rfl⟩ := h
            exact ⟨.arg o v, .arg ho (.inr (.inr ⟨c, hact⟩)) hs (fun _ hd => hv (isDash_iff.2 hd)) hr, by simp [meaning, hact, hc, set_stored]⟩
    | storeRemainder =>
      rw [hact] at h
      cases argv with
      | nil => cases h
      | cons v argv =>
        simp only [Except.ok.injEq, Prod.mk.injEq] at h
        obtain ⟨rfl, rfl⟩ := h
        cases items with
        | nil => exact ⟨.rest o (v :: argv), .rest ho hact hs (by simp), by simp only [meaning]; rw [appendAll_pushed _ _ _ (by simp)]⟩
        | cons i is => cases reads_nil hr
    | arguments => exact absurd hact ha

/-- C126: what is accepted can be read. -/
theorem C126_accepted {opts : List ArgOpt} {args : ArgOpt} (ht : Table opts args) (m : Int) : ∀ (f : Nat) (ns ns' : NS) (ws : List Str),
    argLoop opts m f ns ws = .ok ns' → ∃ items, Reads opts items ws ∧ meanings args m ns items = .ok ns' := by
  intro f
  induction f with
  | zero =>
    intro ns ns' ws h
    cases ws with
    | nil => simp only [argLoop, Except.ok.injEq] at h; subst h; exact ⟨[], .nil, rfl⟩
    | cons w ws => simp [argLoop] at h
  | succ f ih =>
    intro ns ns' ws h
    cases ws with
    | nil => simp only [argLoop, Except.ok.injEq] at h; subst h; exact ⟨[], .nil, rfl⟩
    | cons w ws =>
      simp only [argLoop] at h
      cases hs : argStep opts m ns (w :: ws) with
      | error e => rw [hs] at h; cases h
      | ok r =>
        obtain ⟨ns1, rest⟩ := r
        rw [hs] at h
        obtain ⟨items, hr, hm⟩ := ih _ _ _ h
        simp only [argStep] at hs
        by_cases hd : isDash w = true
        · rw [if_pos hd] at hs
          cases he : expandArg opts w with
          | error e => rw [he] at hs; cases hs
          | ok vs =>
            rw [he] at hs
            obtain ⟨x, hx, _⟩ := expandArg_weight he
            simp only at hs
            rw [hx, List.cons_append] at hs
            obtain ⟨i, hi, hmi⟩ := parseOption_reads ht hs hr
            refine ⟨i :: items, ?_, by simp only [meanings, hmi]; exact hm⟩
            rw [← List.cons_append, ← hx] at hi
            unfold expandArg at he
            split at he
            · rename_i hc
              simp only [Bool.and_eq_true, decide_eq_true_eq, Bool.not_eq_eq_eq_not, Bool.not_true] at hc
              rcases w with _ | ⟨a, _ | ⟨b, _ | ⟨d, cs⟩⟩⟩
              · simp at hc
              · simp at hc
              · simp at hc
              · obtain ⟨q, hq⟩ := isDash_iff.1 hd
                simp only [List.cons.injEq] at hq
                obtain ⟨rfl, rfl⟩ := hq
                have hb : b ≠ '-' := by
                  intro hb; subst hb; simp [startsWith] at hc
                exact .bundle hb ((bundle_letters ht).1 he) hi
            · split at he
              · rename_i hc
                simp only [Bool.and_eq_true, decide_eq_true_eq] at hc
                obtain ⟨a, b, rfl, hna⟩ : ∃ a b, w = '-' :: '-' :: a ++ '=' :: b ∧ '=' ∉ a := by
                  rcases w with _ | ⟨x, _ | ⟨y, r⟩⟩
                  · simp [startsWith] at hc
                  · simp [startsWith] at hc
                  · obtain ⟨hsw, hmem⟩ := hc
                    simp [startsWith] at hsw
                    obtain ⟨rfl, rfl⟩ := hsw
                    simp only [List.mem_cons] at hmem
                    have hmem : '=' ∈ r := by rcases hmem with h | h | h; exact absurd h (by decide); exact absurd h (by decide); exact h
                    obtain ⟨a, b, rfl, h⟩ := exists_first hmem
                    exact ⟨a, b, rfl, h⟩
                have hsp := split_eq ('-' :: '-' :: a) b (by simp [hna])
                unfold longValue at he
                simp only [hsp.1, hsp.2] at he
                cases hg : getOption opts ('-' :: '-' :: a) with
                | none => rw [hg] at he; cases he
                | some o =>
                  rw [hg] at he
                  obtain ⟨ho, ha, hso⟩ := getOption_some hg
                  simp only at he
                  split at he
                  · rename_i hta
                    simp only [Except.ok.injEq] at he
                    subst he
                    exact .long ho (takesArgument_iff.1 hta) hso hi
                  · cases he
              · simp only [Except.ok.injEq] at he; subst he; exact hi
        · rw [if_neg hd] at hs
          simp only [parsePositional, getArgumentsOption_table ht] at hs
          by_cases htr : (ns args.dest).truthy = true
          · rw [if_pos htr] at hs; cases hs
          · rw [if_neg htr] at hs
            simp only [Except.ok.injEq, Prod.mk.injEq] at hs
            obtain ⟨rfl, rfl⟩ := hs
            have hne : (w :: ws).takeWhile (fun w => !isDash w) ≠ [] := by simp [hd]
            refine ⟨.words ((w :: ws).takeWhile (fun w => !isDash w)) :: items, ?_, ?_⟩
            · have := Reads.words (opts := opts) hne (ws := (w :: ws).dropWhile (fun w => !isDash w)) (is := items) ?_ ?_ hr
              · rwa [List.takeWhile_append_dropWhile] at this
              · intro u hu hdu
                have := List.all_eq_true.1 (List.all_takeWhile (l := w :: ws) (p := fun w => !isDash w)) u hu
                rw [isDash_iff.2 hdu] at this; cases this
              · cases hq : (w :: ws).dropWhile (fun w => !isDash w) with
                | nil => trivial
                | cons v r =>
                  have := List.head?_dropWhile_not (fun w => !isDash w) (w :: ws)
                  rw [hq] at this
                  simp at this
                  exact isDash_iff.1 this
            · simp only [meanings, meaning]
              rw [if_neg htr]
              rw [appendAll_pushed _ _ _ hne] at hm
              exact hm

/-- C126: a command line is accepted exactly if it can be read, and then it has the effect of what it is read as; an unknown option, an option
without its argument, an argument for an option that takes none and a second group of arguments are refused. -/
theorem C126_exact {opts : List ArgOpt} {args : ArgOpt} (ht : Table opts args) (m : Int) (ws : List Str) (ns : NS) :
    parseArgs opts m ws = .ok ns ↔ ∃ items, Reads opts items ws ∧ meanings args m (initNS opts) items = .ok ns := by
  constructor
  · intro h; exact C126_accepted ht m _ _ _ _ h
  · rintro ⟨items, hr, hm⟩
    unfold parseArgs
    rw [C126_reads ht m hr, hm]

/-- C126 for the options of ff. -/
theorem C126_ff (env : ArgEnv) : ∃ args, args ∈ ffOptions env ∧ args.action = .arguments ∧ ∀ (ws : List Str) (ns : NS),
    parseArgs (ffOptions env) env.maxCpu ws = .ok ns ↔
      ∃ items, Reads (ffOptions env) items ws ∧ meanings args env.maxCpu (initNS (ffOptions env)) items = .ok ns := by
  obtain ⟨args, ht⟩ := C52_table env
  exact ⟨args, ht.args_mem.1, ht.args_mem.2, fun ws ns => C126_exact ht env.maxCpu ws ns⟩

/-- The documented spellings are among what can be read. -/
theorem C126_spells {opts : List ArgOpt} {args : ArgOpt} (ht : Table opts args) (m : Int) {items : List CItem} {ws : List Str} {ns : NS}
    (h : Spells opts items ws) (hm : meanings args m (initNS opts) items = .ok ns) : parseArgs opts m ws = .ok ns := by
  unfold parseArgs
  rw [C52_spellings_partial ht m h, hm]

/-- C126: a word that looks like an option but is not one is refused, wherever an option is expected and whatever follows. -/
theorem C126_unknown {opts : List ArgOpt} (m : Int) (ns : NS) {w : Str} (ws : List Str)
    (hw : (∃ c, w = ['-', c]) ∨ w = ['-'] ∨ ∃ n, '=' ∉ n ∧ w = '-' :: '-' :: n) (hu : ∀ o ∈ opts, w ∉ o.strings) :
    argRun opts m ns (w :: ws) = .error .usage := by
  have hg : getOption opts w = none := by
    unfold getOption
    rw [List.find?_eq_none]
    intro o ho
    simp [hu o ho]
  have hd : isDash w = true := by
    rcases hw with ⟨c, rfl⟩ | rfl | ⟨n, _, rfl⟩ <;> simp [isDash, startsWith]
  have he : expandArg opts w = .ok [w] := by
    rcases hw with ⟨c, rfl⟩ | rfl | ⟨n, hn, rfl⟩
    · by_cases hc : c = '-'
      · subst hc; simp [expandArg, startsWith]
      · simp [expandArg, startsWith, Ne.symm hc]
    · simp [expandArg, startsWith]
    · simp [expandArg, startsWith, hn]
  rw [argRun_cons]
  simp [argStep, hd, he, parseOption, hg]

set_option maxRecDepth 20000 in
/-- More is accepted than the documented spellings: an attached argument that begins with a dash is taken for further options, and the letters after `-x` in
a bundle must be options but become the command. -/
theorem C126_more :
    argVal demoArgEnv ["--sort=-H"] "hide" = some (.bool true) ∧ argVal demoArgEnv ["--sort=-H"] "sort" = some (.strs ["file.path".toList]) ∧
    argVal demoArgEnv ["-xls"] "exec" = some (.strs ["-l".toList, "s".toList]) ∧ argVal demoArgEnv ["-x/bin/ls"] "exec" = none ∧
    ∀ items, ¬ Spells (ffOptions demoArgEnv) items [['-', '-', 's', 'o', 'r', 't', '=', '-', 'H']] := by
  refine ⟨by decide, by decide, by decide, by decide, ?_⟩
  obtain ⟨args, ht⟩ := C52_table demoArgEnv
  have hform : ∀ o ∈ ffOptions demoArgEnv, o.action ≠ .arguments → ∀ s ∈ o.strings, s ≠ ['-', '-', 's', 'o', 'r', 't', '=', '-', 'H'] := by
    intro o ho ha s hs e
    subst e
    rcases ht.forms o ho ha _ hs with ⟨c, hc, h⟩ | ⟨n, h, _, hn⟩
    · cases h
    · cases h; exact hn (by decide)
  have hsort : ∀ o ∈ ffOptions demoArgEnv, ['-', '-', 's', 'o', 'r', 't'] ∈ o.strings → OptArg o := by
    intro o ho hs
    have : ∀ o ∈ ffOptions demoArgEnv, ['-', '-', 's', 'o', 'r', 't'] ∈ o.strings → o.action = .storeOptional "file.path".toList := by decide
    exact ⟨_, this o ho hs⟩
  intro items h
  generalize hw : [['-', '-', 's', 'o', 'r', 't', '=', '-', 'H']] = w at h
  cases h with
  | nil => cases hw
  | flag ho hf hs _ => cases hw; exact hform _ ho (isFlag_ne hf).1 _ hs rfl
  | arg ho ha hs hv _ => cases hw
  | @argLong o n v is ws ho ha hs hv _ =>
    simp only [List.cons.injEq] at hw
    have hn : '=' ∉ n := by
      rcases ht.forms o ho (takesArg_ne ha).1 _ hs with ⟨c, hc, h⟩ | ⟨n', h, _, hn⟩
      · simp only [List.cons.injEq] at h; exact absurd h.2.1.symm hc
      · simp only [List.cons.injEq, true_and] at h; rw [h]; exact hn
    have h1 := split_eq ['s', 'o', 'r', 't'] ['-', 'H'] (by decide)
    have h2 := split_eq n v hn
    have e : ['s', 'o', 'r', 't'] ++ '=' :: ['-', 'H'] = n ++ '=' :: v := by simpa using hw.1
    rw [← e] at h2
    have hn' := h1.1.symm.trans h2.1
    have hv' := h1.2.symm.trans h2.2
    subst hn'; subst hv'
    exact hv (hsort o ho hs) ⟨_, rfl⟩
  | argShort ho ha hs hv hne _ =>
    simp only [List.cons.injEq] at hw
    exact short_ne ht ho (takesArg_ne ha).1 hs hw.1.2.1.symm
  | @bare o s is ws ho ha hs _ _ =>
    cases hw
    exact hform _ ho (by obtain ⟨c, h⟩ := ha; rw [h]; simp) _ hs rfl
  | rest ho ha hs hne => simp only [List.cons.injEq] at hw; exact hne hw.2.symm
  | @words us is ws hne hnd hn _ =>
    cases us with
    | nil => exact hne rfl
    | cons u us =>
      simp only [List.cons_append, List.cons.injEq] at hw
      exact hnd u (by simp) ⟨_, hw.1.symm⟩
  | bundle ho hf hs hd hl _ =>
    simp only [List.cons.injEq] at hw
    exact short_ne ht ho (isFlag_ne hf).1 hs hw.1.2.1.symm

set_option maxRecDepth 20000 in
-- `--sort=-H` is read as sorting without an argument and hiding; `--bogus` and a lone dash are no options
example : (∃ o o', Reads (ffOptions demoArgEnv) [.bare o, .flag o'] [['-', '-', 's', 'o', 'r', 't', '=', '-', 'H']]) ∧
    (∀ w ∈ [['-', '-', 'b', 'o', 'g', 'u', 's'], ['-']], ∀ o ∈ ffOptions demoArgEnv, w ∉ o.strings) := by
  refine ⟨⟨(ffOptions demoArgEnv)[29]'(by decide), (ffOptions demoArgEnv)[13]'(by decide), ?_⟩, by decide⟩
  have h1 : ['-', '-', 's', 'o', 'r', 't'] ∈ ((ffOptions demoArgEnv)[29]'(by decide)).strings := by decide
  have h2 : ['-', 'H'] ∈ ((ffOptions demoArgEnv)[13]'(by decide)).strings := by decide
  refine .long (s := ['s', 'o', 'r', 't']) (v := ['-', 'H']) (List.getElem_mem _) (.inr (.inr ⟨"file.path".toList, by decide⟩)) h1 ?_
  refine .bare (List.getElem_mem _) ⟨"file.path".toList, by decide⟩ h1 ⟨_, rfl⟩ ?_
  exact .flag (List.getElem_mem _) (.inl (by decide)) h2 .nil

end FF
