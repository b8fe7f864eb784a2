import Verif.Model.Main
import Verif.Spec.Main
import Verif.Props.ArgParse
import Verif.Props.Arguments
/-! Properties C82, C83: options from the environment, conflicting options. -/
namespace FF
open Spec

/-! ### The options of ff -/

/-- Destination, action and type of the options. -/
def optShape (opts : List ArgOpt) : List (Str × Action × OptType) := opts.map (fun o => (o.dest, o.action, o.type))

theorem optShape_env (env : ArgEnv) : optShape (ffOptions env) = optShape (ffOptions { debug := env.debug, maxCpu := 0, cache := [], noColor := false }) := by
  obtain ⟨d, m, c, n⟩ := env
  cases d <;> rfl

/-- A property of the options that can be checked. -/
theorem opt_all (P : Str × Action × OptType → Prop) (h : ∀ d, ∀ x ∈ optShape (ffOptions { debug := d, maxCpu := 0, cache := [], noColor := false }), P x)
    (env : ArgEnv) {o : ArgOpt} (ho : o ∈ ffOptions env) : P (o.dest, o.action, o.type) := by
  refine h env.debug _ ?_
  rw [← optShape_env]
  exact List.mem_map.2 ⟨o, ho, rfl⟩

set_option maxRecDepth 20000 in
theorem opt_append (env : ArgEnv) {o : ArgOpt} (ho : o ∈ ffOptions env) : o.action = .append ↔ o.dest ∈ addingUp :=
  opt_all (fun x => x.2.1 = .append ↔ x.1 ∈ addingUp) (by intro d; cases d <;> decide) env ho

set_option maxRecDepth 20000 in
theorem opt_rest (env : ArgEnv) {o : ArgOpt} (ho : o ∈ ffOptions env) : o.action = .storeRemainder ↔ o.dest ∈ ["exec".toList, "exec_batch".toList] :=
  opt_all (fun x => x.2.1 = .storeRemainder ↔ x.1 ∈ ["exec".toList, "exec_batch".toList]) (by intro d; cases d <;> decide) env ho

set_option maxRecDepth 20000 in
theorem opt_tests (env : ArgEnv) {o : ArgOpt} (ho : o ∈ ffOptions env) : o.action = .arguments ↔ o.dest = "tests".toList :=
  opt_all (fun x => x.2.1 = .arguments ↔ x.1 = "tests".toList) (by intro d; cases d <;> decide) env ho

/-- The elements of a command line made with these options. -/
inductive ItemOk (opts : List ArgOpt) : CItem → Prop
  | flag {o} : o ∈ opts → IsFlag o → ItemOk opts (.flag o)
  | arg {o v} : o ∈ opts → TakesArg o → ItemOk opts (.arg o v)
  | bare {o} : o ∈ opts → OptArg o → ItemOk opts (.bare o)
  | rest {o ws} : o ∈ opts → o.action = .storeRemainder → ws ≠ [] → ItemOk opts (.rest o ws)
  | words {ws} : ws ≠ [] → ItemOk opts (.words ws)

theorem spells_items {opts : List ArgOpt} {items : List CItem} {ws : List Str} (h : Spells opts items ws) : ∀ i ∈ items, ItemOk opts i := by
  induction h with
  | nil => intro i hi; cases hi
  | flag ho hf _ _ ih => intro i hi; exact (List.mem_cons.1 hi).elim (fun e => e ▸ .flag ho hf) (ih i)
  | arg ho ha _ _ _ ih => intro i hi; exact (List.mem_cons.1 hi).elim (fun e => e ▸ .arg ho ha) (ih i)
  | argLong ho ha _ _ _ ih => intro i hi; exact (List.mem_cons.1 hi).elim (fun e => e ▸ .arg ho ha) (ih i)
  | argShort ho ha _ _ _ _ ih => intro i hi; exact (List.mem_cons.1 hi).elim (fun e => e ▸ .arg ho ha) (ih i)
  | bare ho ha _ _ _ ih => intro i hi; exact (List.mem_cons.1 hi).elim (fun e => e ▸ .bare ho ha) (ih i)
  | rest ho ha _ hne => intro i hi; simp only [List.mem_singleton] at hi; subst hi; exact .rest ho ha hne
  | words hne _ _ _ ih => intro i hi; exact (List.mem_cons.1 hi).elim (fun e => e ▸ .words hne) (ih i)
  | bundle ho hf _ _ _ _ ih => intro i hi; exact (List.mem_cons.1 hi).elim (fun e => e ▸ .flag ho hf) (ih i)

theorem complete_tail {i : CItem} {is : List CItem} (h : Complete (i :: is)) : Complete is := by
  intro j hj
  refine h j ?_
  cases is with
  | nil => cases hj
  | cons a as => simpa using hj

theorem dashNext_append {ws vs : List Str} (h : DashNext ws) (hv : DashNext vs) : DashNext (ws ++ vs) := by
  cases ws with
  | nil => exact hv
  | cons w ws => exact h

theorem dashNext_ne {ws vs : List Str} (h : DashNext ws) (hne : ws ≠ []) : DashNext (ws ++ vs) := by
  cases ws with
  | nil => exact absurd rfl hne
  | cons w ws => exact h

theorem spells_nil {opts : List ArgOpt} {is : List CItem} (h : Spells opts is []) : is = [] := by
  generalize hw : ([] : List Str) = w at h
  cases h with
  | nil => rfl
  | words hne _ _ _ => exact absurd (List.append_eq_nil_iff.1 hw.symm).1 hne
  | _ => cases hw

/-- Two command lines one after the other. -/
theorem spells_append {opts : List ArgOpt} {is1 is2 : List CItem} {ws1 ws2 : List Str} (h1 : Spells opts is1 ws1) (h2 : Spells opts is2 ws2)
    (hr : ¬ HasRest is1) (hb : Complete is1 ∨ DashNext ws2) : Spells opts (is1 ++ is2) (ws1 ++ ws2) := by
  have tailRest : ∀ (i : CItem) (is : List CItem), ¬ HasRest (i :: is) → ¬ HasRest is :=
    fun i is h ⟨o, ws, hm⟩ => h ⟨o, ws, List.mem_cons_of_mem _ hm⟩
  have tailBound : ∀ (i : CItem) (is : List CItem), (Complete (i :: is) ∨ DashNext ws2) → (Complete is ∨ DashNext ws2) :=
    fun i is h => h.imp complete_tail id
  induction h1 with
  | nil => exact h2
  | flag ho hf hs _ ih => exact .flag ho hf hs (ih (tailRest _ _ hr) (tailBound _ _ hb))
  | arg ho ha hs hv _ ih => exact .arg ho ha hs hv (ih (tailRest _ _ hr) (tailBound _ _ hb))
  | argLong ho ha hs hv _ ih => exact .argLong ho ha hs hv (ih (tailRest _ _ hr) (tailBound _ _ hb))
  | argShort ho ha hs hv hne _ ih => exact .argShort ho ha hs hv hne (ih (tailRest _ _ hr) (tailBound _ _ hb))
  | @bare o s is ws ho ha hs hn hsp ih =>
    refine .bare ho ha hs ?_ (ih (tailRest _ _ hr) (tailBound _ _ hb))
    rcases hb with hb | hb
    · by_cases he : ws = []
      · subst he
        have := spells_nil hsp
        subst this
        exact absurd rfl ((hb _ rfl).1 o)
      · exact dashNext_ne hn he
    · exact dashNext_append hn hb
  | rest ho ha hs hne => exact absurd ⟨_, _, List.mem_singleton.2 rfl⟩ hr
  | @words us is ws hne hnd hn hsp ih =>
    rw [List.append_assoc]
    refine .words hne hnd ?_ (ih (tailRest _ _ hr) (tailBound _ _ hb))
    rcases hb with hb | hb
    · by_cases he : ws = []
      · subst he
        have := spells_nil hsp
        subst this
        exact absurd rfl ((hb _ rfl).2 us)
      · exact dashNext_ne hn he
    · exact dashNext_append hn hb
  | bundle ho hf hs hd hl _ ih => exact .bundle ho hf hs hd hl (ih (tailRest _ _ hr) (tailBound _ _ hb))

theorem meanings_append (args : ArgOpt) (m : Int) (is1 is2 : List CItem) (ns : NS) :
    meanings args m ns (is1 ++ is2) = match meanings args m ns is1 with
      | .error e => .error e
      | .ok ns' => meanings args m ns' is2 := by
  induction is1 generalizing ns with
  | nil => rfl
  | cons i is ih =>
    simp only [List.cons_append, meanings]
    cases meaning args m ns i with
    | error e => rfl
    | ok ns' => exact ih ns'

/-- How the state after some elements depends on the state before. -/
structure Rel (D : List Str) (ns0 ns1 a b : NS) : Prop where
  lists : ∀ k ∈ addingUp, (∃ l, b k = .strs l) ∧ a k = .strs (listed (ns1 k) ++ listed (b k))
  seen : ∀ k ∈ D, k ∉ addingUp → a k = b k
  unseen : ∀ k, k ∉ D → k ∉ addingUp → a k = ns1 k ∧ b k = ns0 k

theorem rel_stored {D : List Str} {ns0 ns1 a b : NS} (h : Rel D ns0 ns1 a b) {d : Str} (hd : d ∉ addingUp) (v : NVal) :
    Rel (d :: D) ns0 ns1 (stored a d v) (stored b d v) := by
  refine ⟨fun k hk => ?_, fun k hk hk' => ?_, fun k hk hk' => ?_⟩
  · have : k ≠ d := fun e => hd (e ▸ hk)
    simpa [stored, this] using h.lists k hk
  · by_cases e : k = d
    · simp [stored, e]
    · simp only [List.mem_cons, e, false_or] at hk
      simpa [stored, e] using h.seen k hk hk'
  · simp only [List.mem_cons, not_or] at hk
    simpa [stored, hk.1] using h.unseen k hk.2 hk'

theorem pushed_eq (ns : NS) (key : Str) (ws : List Str) : pushed ns key ws = fun k => if k = key then .strs (listed (ns key) ++ ws) else ns k := rfl

theorem rel_pushed {D : List Str} {ns0 ns1 a b : NS} (h : Rel D ns0 ns1 a b) {d : Str} (hd : d ∉ addingUp) (ws : List Str)
    (he : d ∉ D → listed (ns1 d) = listed (ns0 d)) : Rel (d :: D) ns0 ns1 (pushed a d ws) (pushed b d ws) := by
  refine ⟨fun k hk => ?_, fun k hk hk' => ?_, fun k hk hk' => ?_⟩
  · have : k ≠ d := fun e => hd (e ▸ hk)
    simpa [pushed, this] using h.lists k hk
  · by_cases e : k = d
    · subst e
      have : listed (a k) = listed (b k) := by
        by_cases hm : k ∈ D
        · rw [h.seen k hm hk']
        · rw [(h.unseen k hm hk').1, (h.unseen k hm hk').2, he hm]
      rw [pushed_eq, pushed_eq]
      simp only [if_true, this]
    · simp only [List.mem_cons, e, false_or] at hk
      simpa [pushed, e] using h.seen k hk hk'
  · simp only [List.mem_cons, not_or] at hk
    simpa [pushed, hk.1] using h.unseen k hk.2 hk'

theorem rel_list {D : List Str} {ns0 ns1 a b : NS} (h : Rel D ns0 ns1 a b) {d : Str} (hd : d ∈ addingUp) (ws : List Str) :
    Rel (d :: D) ns0 ns1 (pushed a d ws) (pushed b d ws) := by
  refine ⟨fun k hk => ?_, fun k hk hk' => ?_, fun k hk hk' => ?_⟩
  · by_cases e : k = d
    · subst e
      obtain ⟨⟨l, hl⟩, ha⟩ := h.lists k hk
      refine ⟨⟨l ++ ws, by simp [pushed, hl]⟩, ?_⟩
      simp [pushed, ha, hl, listed]
    · simpa [pushed, e] using h.lists k hk
  · have e : k ≠ d := fun e => hk' (e ▸ hd)
    simp only [List.mem_cons, e, false_or] at hk
    simpa [pushed, e] using h.seen k hk hk'
  · simp only [List.mem_cons, not_or] at hk
    simpa [pushed, hk.1] using h.unseen k hk.2 hk'

theorem rel_meanings (env : ArgEnv) {args : ArgOpt} (ht : Table (ffOptions env) args) (m : Int) {ns0 ns1 : NS} :
    ∀ {items : List CItem} {D : List Str} {a b ns2 : NS}, (∀ i ∈ items, ItemOk (ffOptions env) i) → Rel D ns0 ns1 a b →
      (∀ o ws, CItem.rest o ws ∈ items → listed (ns1 o.dest) = listed (ns0 o.dest)) →
      (HasWords items → ns1 "tests".toList = ns0 "tests".toList) → meanings args m b items = .ok ns2 →
      ∃ ns, meanings args m a items = .ok ns ∧ Rel (items.map (fun i => i.dest args) ++ D) ns0 ns1 ns ns2 := by
  have hargs : args.dest = "tests".toList := (opt_tests env ht.args_mem.1).1 ht.args_mem.2
  have hta : "tests".toList ∉ addingUp := by decide
  intro items
  induction items with
  | nil => intro D a b ns2 _ hrel _ _ hok; cases hok; exact ⟨a, rfl, hrel⟩
  | cons i is ih =>
    intro D a b ns2 hitems hrel hrest hwords hok
    have step : ∀ {a' b' : NS}, meaning args m a i = .ok a' → meaning args m b i = .ok b' → Rel (i.dest args :: D) ns0 ns1 a' b' →
        ∃ ns, meanings args m a (i :: is) = .ok ns ∧ Rel ((i :: is).map (fun i => i.dest args) ++ D) ns0 ns1 ns ns2 := by
      intro a' b' ha hb hr
      simp only [meanings, hb] at hok
      obtain ⟨ns, h1, h2⟩ := ih (fun j hj => hitems j (by simp [hj])) hr (fun o ws hm => hrest o ws (by simp [hm]))
        (fun ⟨ws, hm⟩ => hwords ⟨ws, by simp [hm]⟩) hok
      refine ⟨ns, by simp only [meanings, ha, h1], ⟨h2.lists, ?_, ?_⟩⟩
      · intro k hk
        refine h2.seen k ?_
        simp only [List.map_cons, List.cons_append, List.mem_cons, List.mem_append] at hk ⊢
        rcases hk with h | h | h
        · exact .inr (.inl h)
        · exact .inl h
        · exact .inr (.inr h)
      · intro k hk
        refine h2.unseen k ?_
        simp only [List.map_cons, List.cons_append, List.mem_cons, List.mem_append, not_or] at hk ⊢
        exact ⟨hk.2.1, hk.1, hk.2.2⟩
    cases hitems i (by simp) with
    | @flag o ho hf =>
      have hd : o.dest ∉ addingUp := by
        rw [← opt_append env ho]
        rcases hf with h | ⟨c, h⟩ <;> rw [h] <;> simp
      exact step rfl rfl (rel_stored hrel hd _)
    | @arg o v ho ha =>
      by_cases hap : o.action = .append
      · refine step (a' := pushed a o.dest [v]) (b' := pushed b o.dest [v]) (by simp [meaning, hap]) (by simp [meaning, hap]) (rel_list hrel ((opt_append env ho).1 hap) _)
      · have hd : o.dest ∉ addingUp := by rw [← opt_append env ho]; exact hap
        cases hc : o.type.conv m v with
        | error e => simp [meanings, meaning, hap, hc] at hok
        | ok x =>
          exact step (a' := stored a o.dest x) (b' := stored b o.dest x) (by simp [meaning, hap, hc]) (by simp [meaning, hap, hc]) (rel_stored hrel hd _)
    | @bare o ho ha =>
      have hd : o.dest ∉ addingUp := by
        rw [← opt_append env ho]
        obtain ⟨c, h⟩ := ha; rw [h]; simp
      obtain ⟨c, h⟩ := ha
      simp only [meanings, meaning, h] at hok
      cases hc : o.type.conv m c with
      | error e => rw [hc] at hok; simp at hok
      | ok x =>
        exact step (a' := stored a o.dest x) (b' := stored b o.dest x) (by simp only [meaning, h, hc]) (by simp only [meaning, h, hc]) (rel_stored hrel hd _)
    | @rest o ws ho ha hne =>
      have hd : o.dest ∉ addingUp := by rw [← opt_append env ho, ha]; simp
      exact step rfl rfl (rel_pushed hrel hd _ (fun _ => hrest o ws (by simp)))
    | @words ws hne =>
      have hw := hwords ⟨ws, by simp⟩
      rw [← hargs] at hw hta
      have heq : a args.dest = b args.dest := by
        by_cases hm : args.dest ∈ D
        · exact hrel.seen _ hm hta
        · rw [(hrel.unseen _ hm hta).1, (hrel.unseen _ hm hta).2, hw]
      by_cases htr : (b args.dest).truthy = true
      · simp [meanings, meaning, htr] at hok
      · refine step (a' := pushed a args.dest ws) (b' := pushed b args.dest ws) (by simp [meaning, heq, htr]) (by simp [meaning, htr]) ?_
        exact rel_pushed hrel hta _ (fun _ => by rw [hw])

theorem init_lists (env : ArgEnv) : ∀ k ∈ addingUp, initNS (ffOptions env) k = .strs [] := by
  obtain ⟨d, m, c, n⟩ := env
  intro k hk
  simp only [addingUp, List.mem_cons, List.not_mem_nil, or_false] at hk
  rcases hk with rfl | rfl <;> cases d <;> rfl

/-! ### C82 -/

theorem parse_spelled (env : ArgEnv) {args : ArgOpt} (ht : Table (ffOptions env) args) {items : List CItem} {ws : List Str}
    (h : Spells (ffOptions env) items ws) : parseArgs (ffOptions env) env.maxCpu ws = meanings args env.maxCpu (initNS (ffOptions env)) items :=
  C52_spellings_partial ht env.maxCpu h _

theorem dest_rest_unique (env : ArgEnv) {args : ArgOpt} (ht : Table (ffOptions env) args) {items : List CItem} (hi : ∀ i ∈ items, ItemOk (ffOptions env) i)
    (hr : ¬ HasRest items) {o : ArgOpt} (ho : o ∈ ffOptions env) (hoa : o.action = .storeRemainder) : ∀ i ∈ items, i.dest args ≠ o.dest := by
  have hd := (opt_rest env ho).1 hoa
  intro i him he
  cases hi i him with
  | @flag o' ho' hf =>
    have : o'.action = .storeRemainder := (opt_rest env ho').2 (by rw [show o'.dest = o.dest from he]; exact hd)
    rcases hf with h | ⟨c, h⟩ <;> rw [h] at this <;> cases this
  | @arg o' v ho' ha =>
    have : o'.action = .storeRemainder := (opt_rest env ho').2 (by rw [show o'.dest = o.dest from he]; exact hd)
    rcases ha with h | h | ⟨c, h⟩ <;> rw [h] at this <;> cases this
  | @bare o' ho' ha =>
    have : o'.action = .storeRemainder := (opt_rest env ho').2 (by rw [show o'.dest = o.dest from he]; exact hd)
    obtain ⟨c, h⟩ := ha; rw [h] at this; cases this
  | rest _ _ _ => exact hr ⟨_, _, him⟩
  | words _ =>
    have : args.action = .storeRemainder := (opt_rest env ht.args_mem.1).2 (by rw [show args.dest = o.dest from he]; exact hd)
    rw [ht.args_mem.2] at this; cases this

theorem dest_words_unique (env : ArgEnv) {args : ArgOpt} {items : List CItem} (hi : ∀ i ∈ items, ItemOk (ffOptions env) i)
    (hw : ¬ HasWords items) : ∀ i ∈ items, i.dest args ≠ "tests".toList := by
  intro i him he
  cases hi i him with
  | @flag o' ho' hf =>
    have := (opt_tests env ho').2 he
    rcases hf with h | ⟨c, h⟩ <;> rw [h] at this <;> cases this
  | @arg o' v ho' ha =>
    have := (opt_tests env ho').2 he
    rcases ha with h | h | ⟨c, h⟩ <;> rw [h] at this <;> cases this
  | @bare o' ho' ha =>
    have := (opt_tests env ho').2 he
    obtain ⟨c, h⟩ := ha; rw [h] at this; cases this
  | @rest o' ws ho' ha _ => have := (opt_tests env ho').2 he; rw [ha] at this; cases this
  | words _ => exact hw ⟨_, him⟩

theorem collect_some {s : Str} {ws1 : List Str} (hs : shlexSplit s = some ws1) (ws2 : List Str) : collectArguments (some s) ws2 = some (ws1 ++ ws2) := by
  unfold collectArguments
  by_cases h : s = []
  · subst h
    cases hs
    rfl
  · simp [h, hs]

/-- C82: without FF_OPTIONS, or with an empty value, the arguments are those of the command line. -/
theorem C82_none (argv : List Str) : collectArguments none argv = some argv ∧ collectArguments (some []) argv = some argv := ⟨rfl, rfl⟩

/-- C82: if FF_OPTIONS and the command line are fine on their own, and only one of them has tests, then together they give the settings of FF_OPTIONS
overridden by those of the command line; excludes and directories are those of both. What is missing: FF_OPTIONS must not end with an option whose optional
argument is left out, or with tests, unless the command line begins with an option, and must not contain a command; see `C82_false`, `C82_command`. -/
theorem C82_combined_partial (env : ArgEnv) {args : ArgOpt} (ht : Table (ffOptions env) args) {s : Str} {is1 is2 : List CItem} {ws1 ws2 : List Str}
    (hs : shlexSplit s = some ws1) (h1 : Spells (ffOptions env) is1 ws1) (h2 : Spells (ffOptions env) is2 ws2) (hr : ¬ HasRest is1)
    (hb : Complete is1 ∨ DashNext ws2) (hw : ¬ (HasWords is1 ∧ HasWords is2)) {ns1 ns2 : NS}
    (p1 : parseArgs (ffOptions env) env.maxCpu ws1 = .ok ns1) (p2 : parseArgs (ffOptions env) env.maxCpu ws2 = .ok ns2) :
    ∃ ws ns, collectArguments (some s) ws2 = some ws ∧ parseArgs (ffOptions env) env.maxCpu ws = .ok ns ∧ Overridden args ns1 is2 ns2 ns := by
  rw [parse_spelled env ht h1] at p1
  rw [parse_spelled env ht h2] at p2
  have hrel : Rel [] (initNS (ffOptions env)) ns1 ns1 (initNS (ffOptions env)) := by
    refine ⟨fun k hk => ?_, (fun k hk => by cases hk), fun k _ _ => ⟨rfl, rfl⟩⟩
    rw [init_lists env k hk]
    refine ⟨⟨[], rfl⟩, ?_⟩
    have hinv : ∀ (is : List CItem) (ns ns' : NS), (∀ i ∈ is, ItemOk (ffOptions env) i) → (∃ l, ns k = .strs l) → meanings args env.maxCpu ns is = .ok ns' → ∃ l, ns' k = .strs l := by
      intro is
      induction is with
      | nil => intro ns ns' _ h hok; cases hok; exact h
      | cons i is ih =>
        intro ns ns' hi h hok
        simp only [meanings] at hok
        cases hm : meaning args env.maxCpu ns i with
        | error e => rw [hm] at hok; cases hok
        | ok nx =>
          rw [hm] at hok
          refine ih nx ns' (fun j hj => hi j (by simp [hj])) ?_ hok
          by_cases hd : i.dest args = k
          · cases hi i (by simp) with
            | @flag o ho hf =>
              have := (opt_append env ho).2 (by rw [show o.dest = k from hd]; exact hk)
              rcases hf with h | ⟨c, h⟩ <;> rw [h] at this <;> cases this
            | @arg o v ho ha =>
              have := (opt_append env ho).2 (by rw [show o.dest = k from hd]; exact hk)
              simp only [meaning, this, if_true, Except.ok.injEq] at hm
              subst hm
              exact ⟨listed (ns o.dest) ++ [v], by rw [pushed_eq]; simp [show k = o.dest from hd.symm]⟩
            | @bare o ho ha =>
              have := (opt_append env ho).2 (by rw [show o.dest = k from hd]; exact hk)
              obtain ⟨c, h⟩ := ha; rw [h] at this; cases this
            | @rest o ws ho ha _ =>
              have := (opt_append env ho).2 (by rw [show o.dest = k from hd]; exact hk)
              rw [ha] at this; cases this
            | words _ =>
              have := (opt_append env ht.args_mem.1).2 (by rw [show args.dest = k from hd]; exact hk)
              rw [ht.args_mem.2] at this; cases this
          · rw [meaning_other hm hd]; exact h
    obtain ⟨l, hl⟩ := hinv is1 _ ns1 (spells_items h1) ⟨[], init_lists env k hk⟩ p1
    rw [hl]; simp [listed]
  obtain ⟨ns, hns, hfin⟩ := rel_meanings env ht env.maxCpu (items := is2) (spells_items h2) hrel (by
      intro o ws hm
      cases spells_items h2 _ hm with
      | rest ho ha _ => rw [meanings_other p1 (dest_rest_unique env ht (spells_items h1) hr ho ha)])
    (by
      intro hw2
      exact meanings_other p1 (dest_words_unique env (spells_items h1) (fun hw1 => hw ⟨hw1, hw2⟩))) p2
  refine ⟨ws1 ++ ws2, ns, collect_some hs ws2, ?_, ?_⟩
  · rw [parse_spelled env ht (spells_append h1 h2 hr hb), meanings_append, p1]
    exact hns
  · intro k
    refine ⟨fun hk => (hfin.lists k hk).2, fun hk hi => hfin.seen k ?_ hk, fun hk hi => (hfin.unseen k ?_ hk).1⟩
    · obtain ⟨i, him, hid⟩ := hi
      simp only [List.append_nil, List.mem_map]
      exact ⟨i, him, hid⟩
    · simp only [List.append_nil, List.mem_map, not_exists, not_and]
      exact hi

theorem meanings_two_words (env : ArgEnv) {args : ArgOpt} (ht : Table (ffOptions env) args) (m : Int) : ∀ {items : List CItem} {a b ns2 : NS},
    (∀ i ∈ items, ItemOk (ffOptions env) i) → (a args.dest).truthy = true → HasWords items → meanings args m b items = .ok ns2 →
    meanings args m a items = .error .usage := by
  have hargs : args.dest = "tests".toList := (opt_tests env ht.args_mem.1).1 ht.args_mem.2
  intro items
  induction items with
  | nil => intro a b ns2 _ _ hw; obtain ⟨ws, h⟩ := hw; cases h
  | cons i is ih =>
    intro a b ns2 hi ha hw hok
    by_cases hiw : ∃ ws, i = .words ws
    · obtain ⟨ws, rfl⟩ := hiw
      simp [meanings, meaning, ha]
    · have hw' : HasWords is := by
        obtain ⟨ws, h⟩ := hw
        rcases List.mem_cons.1 h with h | h
        · exact absurd ⟨ws, h.symm⟩ hiw
        · exact ⟨ws, h⟩
      have step : ∀ {a' b' : NS}, meaning args m a i = .ok a' → meaning args m b i = .ok b' → meanings args m a (i :: is) = .error .usage := by
        intro a' b' h1 h2
        simp only [meanings, h2] at hok
        simp only [meanings, h1]
        refine ih (fun j hj => hi j (by simp [hj])) ?_ hw' hok
        have hne : i.dest args ≠ args.dest := by
          rw [hargs]
          refine dest_words_unique env (items := [i]) (fun j hj => hi j (by simp at hj; simp [hj])) ?_ i (by simp)
          rintro ⟨ws, h⟩
          simp only [List.mem_singleton] at h
          exact hiw ⟨ws, h.symm⟩
        rw [meaning_other h1 hne]; exact ha
      cases hi i (by simp) with
      | flag _ _ => exact step rfl rfl
      | @arg o v ho hta =>
        by_cases hap : o.action = .append
        · exact step (a' := pushed a o.dest [v]) (b' := pushed b o.dest [v]) (by simp [meaning, hap]) (by simp [meaning, hap])
        · cases hc : o.type.conv m v with
          | error e => simp [meanings, meaning, hap, hc] at hok
          | ok x => exact step (a' := stored a o.dest x) (b' := stored b o.dest x) (by simp [meaning, hap, hc]) (by simp [meaning, hap, hc])
      | @bare o ho hta =>
        obtain ⟨c, h⟩ := hta
        simp only [meanings, meaning, h] at hok
        cases hc : o.type.conv m c with
        | error e => rw [hc] at hok; simp at hok
        | ok x => exact step (a' := stored a o.dest x) (b' := stored b o.dest x) (by simp only [meaning, h, hc]) (by simp only [meaning, h, hc])
      | rest _ _ _ => exact step rfl rfl
      | words _ => exact absurd ⟨_, rfl⟩ hiw

theorem meanings_words_truthy (env : ArgEnv) {args : ArgOpt} (ht : Table (ffOptions env) args) (m : Int) : ∀ {items : List CItem} {a ns : NS},
    (∀ i ∈ items, ItemOk (ffOptions env) i) → (HasWords items ∨ (a args.dest).truthy = true) → meanings args m a items = .ok ns → (ns args.dest).truthy = true := by
  have hargs : args.dest = "tests".toList := (opt_tests env ht.args_mem.1).1 ht.args_mem.2
  intro items
  induction items with
  | nil =>
    intro a ns _ h hok
    cases hok
    rcases h with ⟨ws, h⟩ | h
    · cases h
    · exact h
  | cons i is ih =>
    intro a ns hi h hok
    simp only [meanings] at hok
    cases hm : meaning args m a i with
    | error e => rw [hm] at hok; cases hok
    | ok nx =>
      rw [hm] at hok
      refine ih (fun j hj => hi j (by simp [hj])) ?_ hok
      by_cases hiw : ∃ ws, i = .words ws
      · obtain ⟨ws, rfl⟩ := hiw
        have hne : ws ≠ [] := by cases hi _ (by simp : CItem.words ws ∈ _) with | words h => exact h
        simp only [meaning] at hm
        split at hm
        · cases hm
        · cases hm
          right
          rw [pushed_eq]
          simp [NVal.truthy, hne]
      · rcases h with ⟨ws, h⟩ | h
        · left
          rcases List.mem_cons.1 h with h | h
          · exact absurd ⟨ws, h.symm⟩ hiw
          · exact ⟨ws, h⟩
        · right
          have hne : i.dest args ≠ args.dest := by
            rw [hargs]
            refine dest_words_unique env (items := [i]) (fun j hj => hi j (by simp at hj; simp [hj])) ?_ i (by simp)
            rintro ⟨ws, h⟩
            simp only [List.mem_singleton] at h
            exact hiw ⟨ws, h.symm⟩
          rw [meaning_other hm hne]; exact h

/-- C82: tests in FF_OPTIONS and tests on the command line, separated by an option, are refused, although both are fine on their own. -/
theorem C82_tests_twice (env : ArgEnv) {args : ArgOpt} (ht : Table (ffOptions env) args) {s : Str} {is1 is2 : List CItem} {ws1 ws2 : List Str}
    (hs : shlexSplit s = some ws1) (h1 : Spells (ffOptions env) is1 ws1) (h2 : Spells (ffOptions env) is2 ws2) (hr : ¬ HasRest is1)
    (hb : Complete is1 ∨ DashNext ws2) (hw1 : HasWords is1) (hw2 : HasWords is2) {ns1 ns2 : NS}
    (p1 : parseArgs (ffOptions env) env.maxCpu ws1 = .ok ns1) (p2 : parseArgs (ffOptions env) env.maxCpu ws2 = .ok ns2) :
    ∃ ws, collectArguments (some s) ws2 = some ws ∧ parseArgs (ffOptions env) env.maxCpu ws = .error .usage := by
  rw [parse_spelled env ht h1] at p1
  rw [parse_spelled env ht h2] at p2
  refine ⟨ws1 ++ ws2, collect_some hs ws2, ?_⟩
  rw [parse_spelled env ht (spells_append h1 h2 hr hb), meanings_append, p1]
  exact meanings_two_words env ht _ (spells_items h2) (meanings_words_truthy env ht _ (spells_items h1) (.inl hw1) p1) hw2 p2

theorem spells_rest {opts : List ArgOpt} {is1 : List CItem} {ws1 : List Str} (h1 : Spells opts is1 ws1) (hr : HasRest is1) (ws2 : List Str) :
    ∃ is o ws, is1 = is ++ [.rest o ws] ∧ Spells opts (is ++ [.rest o (ws ++ ws2)]) (ws1 ++ ws2) := by
  have key : ∀ {i : CItem} {is : List CItem}, HasRest (i :: is) → (∀ o ws, i ≠ .rest o ws) → HasRest is := by
    rintro i is ⟨o, ws, h⟩ hn
    rcases List.mem_cons.1 h with h | h
    · exact absurd h.symm (hn o ws)
    · exact ⟨o, ws, h⟩
  have build : ∀ {i : CItem} {is : List CItem} {ws vs : List Str}, (∃ js o us, is = js ++ [.rest o us] ∧ Spells opts (js ++ [.rest o (us ++ ws2)]) (ws ++ ws2)) →
      (∀ js, Spells opts js (ws ++ ws2) → Spells opts (i :: js) (vs ++ ws2)) →
      ∃ js o us, i :: is = js ++ [.rest o us] ∧ Spells opts (js ++ [.rest o (us ++ ws2)]) (vs ++ ws2) := by
    rintro i is ws vs ⟨js, o, us, rfl, h⟩ hf
    exact ⟨i :: js, o, us, rfl, hf _ h⟩
  induction h1 with
  | nil => obtain ⟨o, ws, h⟩ := hr; cases h
  | flag ho hf hs _ ih => exact build (ih (key hr (by simp))) (fun js h => .flag ho hf hs h)
  | arg ho ha hs hv _ ih => exact build (ih (key hr (by simp))) (fun js h => .arg ho ha hs hv h)
  | argLong ho ha hs hv _ ih => exact build (ih (key hr (by simp))) (fun js h => .argLong ho ha hs hv h)
  | argShort ho ha hs hv hne _ ih => exact build (ih (key hr (by simp))) (fun js h => .argShort ho ha hs hv hne h)
  | @bare o s is ws ho ha hs hn hsp ih =>
    refine build (ih (key hr (by simp))) (fun js h => .bare ho ha hs ?_ h)
    refine dashNext_ne hn ?_
    rintro rfl
    have := spells_nil hsp
    subst this
    obtain ⟨o, ws, h⟩ := key hr (by simp)
    cases h
  | @rest o s ws ho ha hs hne => exact ⟨[], o, ws, rfl, .rest ho ha hs (by simp [hne])⟩
  | @words us is ws hne hnd hn hsp ih =>
    refine build (ih (key hr (by simp))) (fun js h => ?_)
    rw [List.append_assoc]
    refine .words hne hnd ?_ h
    refine dashNext_ne hn ?_
    rintro rfl
    have := spells_nil hsp
    subst this
    obtain ⟨o, ws, h⟩ := key hr (by simp)
    cases h
  | bundle ho hf hs hd hl _ ih => exact build (ih (key hr (by simp))) (fun js h => .bundle ho hf hs hd hl h)

/-- C82: with a command in FF_OPTIONS the whole command line becomes part of the command, whatever it is. -/
theorem C82_command (env : ArgEnv) {args : ArgOpt} (ht : Table (ffOptions env) args) {s : Str} {is1 : List CItem} {ws1 : List Str}
    (hs : shlexSplit s = some ws1) (h1 : Spells (ffOptions env) is1 ws1) (hr : HasRest is1) (argv : List Str) :
    ∃ is o ws all, is1 = is ++ [.rest o ws] ∧ collectArguments (some s) argv = some all ∧
      parseArgs (ffOptions env) env.maxCpu all = meanings args env.maxCpu (initNS (ffOptions env)) (is ++ [.rest o (ws ++ argv)]) := by
  obtain ⟨is, o, ws, he, h⟩ := spells_rest h1 hr argv
  exact ⟨is, o, ws, ws1 ++ argv, he, collect_some hs argv, parse_spelled env ht h⟩

/-- The value of a setting with FF_OPTIONS. -/
def envVal (env : ArgEnv) (options : String) (argv : List String) (key : String) : Option NVal :=
  match collectArguments (some options.toList) (argv.map String.toList) with
  | none => none
  | some ws => match parseArgs (ffOptions env) env.maxCpu ws with
    | .ok ns => some (ns key.toList)
    | .error _ => none

set_option maxRecDepth 20000 in
/-- C82 fails: a test on the command line becomes the argument of an option in FF_OPTIONS (`--sort`), and a quote that is not closed in FF_OPTIONS is an
exception that nothing catches. -/
theorem C82_false :
    envVal demoArgEnv "--sort" ["name=x"] "sort" = some (.strs ["name=x".toList]) ∧ envVal demoArgEnv "--sort" ["name=x"] "tests" = some (.strs []) ∧
    argVal demoArgEnv ["--sort"] "sort" = some (.strs ["file.path".toList]) ∧ argVal demoArgEnv ["name=x"] "tests" = some (.strs ["name=x".toList]) ∧
    collectArguments (some "-e 'name=a".toList) [] = none := by
  decide

set_option maxRecDepth 20000 in
/-- FF_OPTIONS="-e 'name=a b' -S size --color=never", command line `-e ext=c -S time type=f`. -/
example : let o := "-e 'name=a b' -S size --color=never"
    let a := ["-e", "ext=c", "-S", "time", "type=f"]
    envVal demoArgEnv o a "exclude" = some (.strs ["name=a b".toList, "ext=c".toList]) ∧ envVal demoArgEnv o a "sort" = some (.strs ["time".toList]) ∧
    envVal demoArgEnv o a "color" = some (.str "never".toList) ∧ envVal demoArgEnv o a "tests" = some (.strs ["type=f".toList]) := by
  decide

set_option maxRecDepth 20000 in
/-- The hypotheses of C82 hold for FF_OPTIONS="-H --sort=size" and the command line `-S time name=x`. -/
example : ∃ is1 is2, Spells (ffOptions demoArgEnv) is1 (["-H", "--sort=size"].map String.toList) ∧
    Spells (ffOptions demoArgEnv) is2 (["-S", "time", "name=x"].map String.toList) ∧ shlexSplit "-H --sort=size".toList = some (["-H", "--sort=size"].map String.toList) ∧
    ¬ HasRest is1 ∧ Complete is1 ∧ ¬ (HasWords is1 ∧ HasWords is2) := by
  have get : ∀ s : String, ∀ i, (h : i < (ffOptions demoArgEnv).length) → s.toList ∈ ((ffOptions demoArgEnv)[i]).strings →
      ∃ o, o = (ffOptions demoArgEnv)[i] ∧ o ∈ ffOptions demoArgEnv ∧ s.toList ∈ o.strings := by
    intro s i h hs; exact ⟨_, rfl, List.getElem_mem h, hs⟩
  obtain ⟨o1, e1, m1, s1⟩ := get "-H" 13 (by decide) (by decide)
  obtain ⟨o2, e2, m2, s2⟩ := get "--sort" 29 (by decide) (by decide)
  obtain ⟨o3, e3, m3, s3⟩ := get "-S" 29 (by decide) (by decide)
  refine ⟨[.flag o1, .arg o2 "size".toList], [.arg o3 "time".toList, .words ["name=x".toList]], ?_, ?_, by decide, ?_, ?_, ?_⟩
  · refine .flag m1 (.inl (by rw [e1]; decide)) s1 ?_
    exact .argLong (s := "sort".toList) (v := "size".toList) m2 (.inr (.inr ⟨"file.path".toList, by rw [e2]; decide⟩)) s2 (fun _ => by rintro ⟨r, h⟩; cases h) .nil
  · refine .arg m3 (.inr (.inr ⟨"file.path".toList, by rw [e3]; decide⟩)) s3 (fun _ => by rintro ⟨r, h⟩; cases h) ?_
    refine .words (us := ["name=x".toList]) (ws := []) (by decide) ?_ trivial .nil
    intro u hu
    simp only [List.mem_singleton] at hu
    subst hu
    rintro ⟨r, h⟩; cases h
  · rintro ⟨o, ws, h⟩; simp at h
  · intro i hi; simp at hi; subst hi; simp
  · rintro ⟨⟨ws, h⟩, _⟩; simp at h

/-! ### C83 -/

/-- What every element about a setting makes of it is what is there in the end. -/
theorem meanings_key {args : ArgOpt} {m : Int} {P : NVal → Prop} {k : Str} : ∀ {items : List CItem} {a ns : NS},
    (∀ i ∈ items, i.dest args = k → ∀ a b, meaning args m a i = .ok b → P (b k)) → ((∃ i ∈ items, i.dest args = k) ∨ P (a k)) →
    meanings args m a items = .ok ns → P (ns k) := by
  intro items
  induction items with
  | nil =>
    rintro a ns _ (⟨i, hi, _⟩ | h) hok
    · cases hi
    · cases hok; exact h
  | cons i is ih =>
    intro a ns hP h hok
    simp only [meanings] at hok
    cases hm : meaning args m a i with
    | error e => rw [hm] at hok; cases hok
    | ok nx =>
      rw [hm] at hok
      refine ih (fun j hj => hP j (by simp [hj])) ?_ hok
      by_cases hd : i.dest args = k
      · exact .inr (hP i (by simp) hd _ _ hm)
      · rcases h with ⟨j, hj, hjd⟩ | h
        · rcases List.mem_cons.1 hj with rfl | hj
          · exact absurd hjd hd
          · exact .inl ⟨j, hj, hjd⟩
        · right; rw [meaning_other hm hd]; exact h

/-- A list that is not empty. -/
def SomeList (v : NVal) : Prop := ∃ l, v = .strs l ∧ l ≠ []

theorem typeList_ne (s : Str) : typeList s ≠ [] := by
  unfold typeList
  cases s with
  | nil => simp [splitOn]
  | cons x xs => rw [splitOn]; split <;> (try split) <;> simp

set_option maxRecDepth 20000 in
theorem opt_lists (env : ArgEnv) {o : ArgOpt} (ho : o ∈ ffOptions env) (hd : o.dest ∈ ["count", "sort"].map String.toList) :
    o.type = .list ∧ (o.action = .store ∨ OptArg o) :=
  opt_all (fun x => x.1 ∈ ["count", "sort"].map String.toList → x.2.2 = .list ∧ (x.2.1 = .store ∨ ∃ c, x.2.1 = .storeOptional c)) (by
    have key : ∀ d, ∀ x ∈ optShape (ffOptions { debug := d, maxCpu := 0, cache := [], noColor := false }), x.1 ∈ ["count", "sort"].map String.toList →
        x.2.2 = .list ∧ (x.2.1 = .store ∨ x.2.1 = .storeOptional [] ∨ x.2.1 = .storeOptional "file.path".toList) := by intro d; cases d <;> decide
    intro d x hx hd
    obtain ⟨h1, h2⟩ := key d x hx hd
    exact ⟨h1, h2.imp_right (fun h => h.elim (fun h => ⟨_, h⟩) (fun h => ⟨_, h⟩))⟩) env ho hd

set_option maxRecDepth 20000 in
theorem opt_limit (env : ArgEnv) {o : ArgOpt} (ho : o ∈ ffOptions env) (hd : o.dest = "limit".toList) :
    (o.type = .slice ∧ o.action = .store) ∨ o.action = .storeConst (.slice 0 (some 1)) :=
  opt_all (fun x => x.1 = "limit".toList → (x.2.2 = .slice ∧ x.2.1 = .store) ∨ x.2.1 = .storeConst (.slice 0 (some 1))) (by intro d; cases d <;> decide) env ho hd

theorem item_list (env : ArgEnv) {args : ArgOpt} (ht : Table (ffOptions env) args) {m : Int} {k : Str} (hk : k ∈ ["count", "sort"].map String.toList) {i : CItem}
    (hi : ItemOk (ffOptions env) i) (hd : i.dest args = k) {a b : NS} (hm : meaning args m a i = .ok b) : SomeList (b k) := by
  cases hi with
  | @flag o ho hf =>
    have h := (opt_lists env ho (by rw [show o.dest = k from hd]; exact hk)).2
    rcases hf with hf | ⟨c, hf⟩ <;> rcases h with h | ⟨c', h⟩ <;> rw [hf] at h <;> cases h
  | @arg o v ho ha =>
    have h := opt_lists env ho (by rw [show o.dest = k from hd]; exact hk)
    have hna : o.action ≠ .append := by rcases h.2 with h | ⟨c', h⟩ <;> rw [h] <;> simp
    simp only [meaning, hna, if_false, h.1, OptType.conv, Except.ok.injEq] at hm
    subst hm
    exact ⟨typeList v, by simp [stored, show k = o.dest from hd.symm], typeList_ne v⟩
  | @bare o ho ha =>
    have h := opt_lists env ho (by rw [show o.dest = k from hd]; exact hk)
    obtain ⟨c, ha⟩ := ha
    simp only [meaning, ha, h.1, OptType.conv, Except.ok.injEq] at hm
    subst hm
    exact ⟨typeList c, by simp [stored, show k = o.dest from hd.symm], typeList_ne c⟩
  | @rest o ws ho ha _ =>
    have h := (opt_lists env ho (by rw [show o.dest = k from hd]; exact hk)).2
    rcases h with h | ⟨c', h⟩ <;> rw [ha] at h <;> cases h
  | words _ =>
    have h := (opt_lists env ht.args_mem.1 (by rw [show args.dest = k from hd]; exact hk)).2
    rcases h with h | ⟨c', h⟩ <;> rw [ht.args_mem.2] at h <;> cases h

theorem item_command (env : ArgEnv) {args : ArgOpt} (ht : Table (ffOptions env) args) {m : Int} {k : Str} (hk : k ∈ ["exec".toList, "exec_batch".toList]) {i : CItem}
    (hi : ItemOk (ffOptions env) i) (hd : i.dest args = k) {a b : NS} (hm : meaning args m a i = .ok b) : SomeList (b k) := by
  cases hi with
  | @flag o ho hf =>
    have h := (opt_rest env ho).2 (by rw [show o.dest = k from hd]; exact hk)
    rcases hf with hf | ⟨c, hf⟩ <;> rw [hf] at h <;> cases h
  | @arg o v ho ha =>
    have h := (opt_rest env ho).2 (by rw [show o.dest = k from hd]; exact hk)
    rcases ha with ha | ha | ⟨c, ha⟩ <;> rw [ha] at h <;> cases h
  | @bare o ho ha =>
    have h := (opt_rest env ho).2 (by rw [show o.dest = k from hd]; exact hk)
    obtain ⟨c, ha⟩ := ha; rw [ha] at h; cases h
  | @rest o ws ho ha hne =>
    simp only [meaning, Except.ok.injEq] at hm
    subst hm
    refine ⟨listed (a o.dest) ++ ws, ?_, by simp [hne]⟩
    rw [pushed_eq]; simp [show k = o.dest from hd.symm]
  | words _ =>
    have h := (opt_rest env ht.args_mem.1).2 (by rw [show args.dest = k from hd]; exact hk)
    rw [ht.args_mem.2] at h; cases h

theorem item_limit (env : ArgEnv) {args : ArgOpt} (ht : Table (ffOptions env) args) {m : Int} {i : CItem}
    (hi : ItemOk (ffOptions env) i) (hd : i.dest args = "limit".toList) {a b : NS} (hm : meaning args m a i = .ok b) : ∃ x y, b "limit".toList = .slice x y := by
  cases hi with
  | @flag o ho hf =>
    rcases opt_limit env ho hd with ⟨_, h⟩ | h
    · rcases hf with hf | ⟨c, hf⟩ <;> rw [hf] at h <;> cases h
    · simp only [meaning, flagVal, h, Except.ok.injEq] at hm
      subst hm
      exact ⟨0, some 1, if_pos (show "limit".toList = o.dest from hd.symm)⟩
  | @arg o v ho ha =>
    rcases opt_limit env ho hd with h | h
    · simp only [meaning, h.2, h.1, OptType.conv, reduceCtorEq, if_false] at hm
      cases ht : typeSlice v with
      | error e => rw [ht] at hm; cases hm
      | ok x =>
        rw [ht] at hm
        obtain ⟨x, y⟩ := x
        cases hm
        exact ⟨x, y, if_pos (show "limit".toList = o.dest from hd.symm)⟩
    · rcases ha with ha | ha | ⟨c, ha⟩ <;> rw [ha] at h <;> cases h
  | @bare o ho ha =>
    obtain ⟨c, ha⟩ := ha
    rcases opt_limit env ho hd with ⟨_, h⟩ | h <;> rw [ha] at h <;> cases h
  | @rest o ws ho ha _ => rcases opt_limit env ho hd with ⟨_, h⟩ | h <;> rw [ha] at h <;> cases h
  | words _ => rcases opt_limit env ht.args_mem.1 hd with ⟨_, h⟩ | h <;> rw [ht.args_mem.2] at h <;> cases h

set_option maxRecDepth 20000 in
theorem opt_profile (env : ArgEnv) {o : ArgOpt} (ho : o ∈ ffOptions env) (hd : o.dest = "profile".toList) : o.action = .storeTrue :=
  opt_all (fun x => x.1 = "profile".toList → x.2.1 = .storeTrue) (by intro d; cases d <;> decide) env ho hd

theorem item_profile (env : ArgEnv) {args : ArgOpt} (ht : Table (ffOptions env) args) {m : Int} {i : CItem}
    (hi : ItemOk (ffOptions env) i) (hd : i.dest args = "profile".toList) {a b : NS} (hm : meaning args m a i = .ok b) : b "profile".toList = .bool true := by
  cases hi with
  | @flag o ho hf =>
    have h := opt_profile env ho hd
    simp only [meaning, flagVal, h, Except.ok.injEq] at hm
    subst hm
    exact if_pos (show "profile".toList = o.dest from hd.symm)
  | @arg o v ho ha =>
    have h := opt_profile env ho hd
    rcases ha with ha | ha | ⟨c, ha⟩ <;> rw [ha] at h <;> cases h
  | @bare o ho ha =>
    obtain ⟨c, ha⟩ := ha
    have h := opt_profile env ho hd
    rw [ha] at h; cases h
  | @rest o ws ho ha _ =>
    have h := opt_profile env ho hd
    rw [ha] at h; cases h
  | words _ =>
    have h := opt_profile env ht.args_mem.1 hd
    rw [ht.args_mem.2] at h; cases h

theorem init_profile (env : ArgEnv) : (initNS (ffOptions env) "profile".toList).truthy = false := by
  obtain ⟨d, m, c, n⟩ := env
  cases d <;> rfl

theorem init_unset (env : ArgEnv) : ∀ k ∈ ["count", "sort", "exec", "exec_batch", "limit", "help", "action"].map String.toList, initNS (ffOptions env) k = .unset := by
  obtain ⟨d, m, c, n⟩ := env
  intro k hk
  simp only [List.map_cons, List.map_nil, List.mem_cons, List.not_mem_nil, or_false] at hk
  rcases hk with rfl | rfl | rfl | rfl | rfl | rfl | rfl <;> cases d <;> rfl

section
variable {env : ArgEnv} {args : ArgOpt} (ht : Table (ffOptions env) args) {items : List CItem} {argv : List Str}
  (h : Spells (ffOptions env) items argv) {ns : NS} (hok : parseArgs (ffOptions env) env.maxCpu argv = .ok ns)
include ht h hok

theorem given_list {k : String} (hk : k ∈ ["count", "sort"]) : given (ns k.toList).toOptWords = true ↔ Mentions args items k := by
  rw [parse_spelled env ht h] at hok
  constructor
  · intro hg
    refine Classical.byContradiction (fun hn => ?_)
    have hn' : ∀ i ∈ items, i.dest args ≠ k.toList := fun i hi he => hn ⟨i, hi, he⟩
    rw [meanings_other hok hn', init_unset env _ (List.mem_map.2 ⟨k, by revert hk; simp; rintro (h | h) <;> simp [h], rfl⟩)] at hg
    simp [NVal.toOptWords, given] at hg
  · intro hm
    obtain ⟨l, hl, hne⟩ := meanings_key (P := SomeList) (fun i hi hd a b hm => item_list env ht (List.mem_map.2 ⟨k, hk, rfl⟩)
      (spells_items h i hi) hd hm) (.inl hm) hok
    simp [hl, NVal.toOptWords, given, hne]

theorem given_command {k : String} (hk : k ∈ ["exec", "exec_batch"]) : given (ns k.toList).toOptWords = true ↔ Mentions args items k := by
  rw [parse_spelled env ht h] at hok
  constructor
  · intro hg
    refine Classical.byContradiction (fun hn => ?_)
    have hn' : ∀ i ∈ items, i.dest args ≠ k.toList := fun i hi he => hn ⟨i, hi, he⟩
    rw [meanings_other hok hn', init_unset env _ (List.mem_map.2 ⟨k, by revert hk; simp; rintro (h | h) <;> simp [h], rfl⟩)] at hg
    simp [NVal.toOptWords, given] at hg
  · intro hm
    obtain ⟨l, hl, hne⟩ := meanings_key (P := SomeList) (fun i hi hd a b hm => item_command env ht (by revert hk; simp; rintro (h | h) <;> simp [h])
      (spells_items h i hi) hd hm) (.inl hm) hok
    simp [hl, NVal.toOptWords, given, hne]

theorem given_limit : (ns "limit".toList).toSlice.isSome = true ↔ Mentions args items "limit" := by
  rw [parse_spelled env ht h] at hok
  constructor
  · intro hg
    refine Classical.byContradiction (fun hn => ?_)
    have hn' : ∀ i ∈ items, i.dest args ≠ "limit".toList := fun i hi he => hn ⟨i, hi, he⟩
    rw [meanings_other hok hn', init_unset env _ (by decide)] at hg
    simp [NVal.toSlice] at hg
  · intro hm
    obtain ⟨x, y, hl⟩ := meanings_key (P := fun v => ∃ x y, v = .slice x y) (fun i hi hd a b hm => item_limit env ht (spells_items h i hi) hd hm) (.inl hm) hok
    rw [hl]; rfl

theorem given_profile : (ns "profile".toList).truthy = true ↔ Mentions args items "profile" := by
  rw [parse_spelled env ht h] at hok
  constructor
  · intro hg
    refine Classical.byContradiction (fun hn => ?_)
    have hn' : ∀ i ∈ items, i.dest args ≠ "profile".toList := fun i hi he => hn ⟨i, hi, he⟩
    rw [meanings_other hok hn', init_profile env] at hg
    cases hg
  · intro hm
    have := meanings_key (P := fun v => v = .bool true) (fun i hi hd a b hm => item_profile env ht (spells_items h i hi) hd hm) (.inl hm) hok
    rw [this]; rfl

/-- Whether settings are in conflict. -/
theorem conflict_iff : ((given (settingsOf ns).fargs.count && (given (settingsOf ns).exec || given (settingsOf ns).execBatch || (settingsOf ns).limit.isSome)) ||
    ((settingsOf ns).profile && (given (settingsOf ns).exec || given (settingsOf ns).execBatch))) = true ↔ Conflicting args items := by
  have e1 : given (settingsOf ns).fargs.count = true ↔ Mentions args items "count" := given_list ht h hok (by simp)
  have e3 : (settingsOf ns).limit.isSome = true ↔ Mentions args items "limit" := given_limit ht h hok
  have e4 : given (settingsOf ns).exec = true ↔ Mentions args items "exec" := given_command ht h hok (by simp)
  have e5 : given (settingsOf ns).execBatch = true ↔ Mentions args items "exec_batch" := given_command ht h hok (by simp)
  have e6 : (settingsOf ns).profile = true ↔ Mentions args items "profile" := given_profile ht h hok
  unfold Conflicting
  rw [← e1, ← e3, ← e4, ← e5, ← e6]
  simp only [Bool.or_eq_true, Bool.and_eq_true, or_assoc]

theorem not_action (hh : ¬ Mentions args items "action") : ns "action".toList = .unset := by
  rw [parse_spelled env ht h] at hok
  rw [meanings_other hok (fun i hi he => hh ⟨i, hi, he⟩)]
  exact init_unset env _ (by decide)

theorem not_help (hh : ¬ Mentions args items "help") : ns "help".toList = .unset := by
  rw [parse_spelled env ht h] at hok
  rw [meanings_other hok (fun i hi he => hh ⟨i, hi, he⟩)]
  exact init_unset env _ (by decide)

end

theorem processArguments_count (a : FArgs) : given (processArguments a).count = given a.count := by
  have key : ∀ b : FArgs, given (if b.count = some [[]] then
    { b with count := some (if b.json.isSome then ["file.size".toList, "file.type".toList] else ["file.size:h".toList, "file.type".toList]) } else b).count = given b.count := by
    intro b
    split
    · rename_i h; rw [h]; simp only [given, Option.getD_some]; split <;> rfl
    · rfl
  unfold processArguments
  rw [key]
  by_cases h1 : a.json.isSome <;> by_cases h2 : a.ignore <;> by_cases h3 : a.oneFileSystem <;> by_cases h4 : a.hide <;> by_cases h5 : a.depth = [] <;>
    simp only [h1, h2, h3, h4, h5, if_true, if_false, ne_eq, not_true_eq_false, not_false_eq_true, Bool.false_eq_true]

theorem processArguments_json (a : FArgs) : (processArguments a).json = a.json := by
  unfold processArguments
  by_cases h1 : a.json.isSome <;> by_cases h2 : a.ignore <;> by_cases h3 : a.oneFileSystem <;> by_cases h4 : a.hide <;> by_cases h5 : a.depth = [] <;>
    simp only [h1, h2, h3, h4, h5, if_true, if_false, ne_eq, not_true_eq_false, not_false_eq_true, Bool.false_eq_true] <;> split <;> simp

/-- The settings of a search, after post-processing and before conflicts are looked for. -/
theorem process_some {isdir : Str → Bool} {cwd : Str} {s s' : Settings} {w : List Warning} (h : s.process isdir cwd = some (s', w)) :
    ∃ tests dirs, let t : Settings := { s with fargs := processArguments { s.fargs with tests := tests }, dirs := dirs }
      processDirectories isdir cwd s.fargs.tests s.dirs = some (tests, dirs) ∧ t.conflict = false ∧ collectWarnings t = (s', w) := by
  unfold Settings.process at h
  split at h
  · cases h
  · rename_i tests dirs hp
    simp only at h
    split at h
    · cases h
    · rename_i hc
      refine ⟨tests, dirs, hp, by simpa using hc, by simpa using h⟩

/-- C83: `--count` together with a command or `--limit`, and `--profile` together with a command, are refused (unless the command line is not even parsed, or asks for help). -/
theorem C83_refused (M : MainEnv) {args : ArgOpt} (ht : Table (ffOptions M.arg) args) {items : List CItem} {argv : List Str}
    (h : Spells (ffOptions M.arg) items argv) (hc : Conflicting args items) (hh : ¬ Mentions args items "help") :
    (∀ p w, M.run argv ≠ .search p w) ∧ ((∃ ns, parseArgs (ffOptions M.arg) M.arg.maxCpu argv = .ok ns) → M.run argv = .usage) := by
  have key : ∀ ns, parseArgs (ffOptions M.arg) M.arg.maxCpu argv = .ok ns → M.run argv = .usage := by
    intro ns hok
    have hp : (settingsOf ns).process M.isdir M.cwd = none := by
      cases hp : (settingsOf ns).process M.isdir M.cwd with
      | none => rfl
      | some x =>
        obtain ⟨tests, dirs, _, hcf, _⟩ := process_some (s' := x.1) (w := x.2) hp
        have h1 := (conflict_iff ht h hok).2 hc
        simp only [Settings.conflict, processArguments_count] at hcf
        revert h1 hcf
        cases given (settingsOf ns).fargs.count <;> cases given (settingsOf ns).exec <;> cases given (settingsOf ns).execBatch <;>
          cases (settingsOf ns).limit.isSome <;> cases (settingsOf ns).profile <;> simp
    unfold MainEnv.run
    rw [hok]
    simp only [not_help ht h hok hh, reduceCtorEq, if_false, hp]
  refine ⟨fun p w hr => ?_, fun ⟨ns, hns⟩ => key ns hns⟩
  cases hok : parseArgs (ffOptions M.arg) M.arg.maxCpu argv with
  | ok ns => rw [key ns hok] at hr; cases hr
  | error e => unfold MainEnv.run at hr; rw [hok] at hr; cases e <;> cases hr

/-- A run that searches. -/
theorem run_search {M : MainEnv} {argv : List Str} {p : Plan} {w : List Warning} (hr : M.run argv = .search p w) :
    ∃ ns s, parseArgs (ffOptions M.arg) M.arg.maxCpu argv = .ok ns ∧ (settingsOf ns).process M.isdir M.cwd = some (s, w) ∧ s.plan M.reg = some p ∧
      s.shows = false := by
  unfold MainEnv.run at hr
  split at hr
  · cases hr
  · cases hr
  · rename_i ns hok
    split at hr
    · cases hr
    · split at hr
      · cases hr
      · rename_i s w' hp
        split at hr
        · cases hr
        · rename_i p' hpl
          split at hr
          · cases hr
          · rename_i hs
            simp only [Outcome.search.injEq] at hr
            obtain ⟨rfl, rfl⟩ := hr
            exact ⟨ns, s, hok, hp, hpl, by simpa using hs⟩

theorem plan_fields {reg : List PluginDef} {s : Settings} {p : Plan} (h : s.plan reg = some p) :
    p.mode = setupProcessing (given s.sort) (given s.fargs.count) s.limit.isSome (given s.execBatch) (s.fargs.json = some "json".toList) (given s.exec) ∧
    outputFields reg (expandFile reg s.output) = some p.output ∧ optFields (outputFields reg) s.sort = some p.sort ∧ p.limit = s.limit ∧
    optFields (execFields reg) s.exec = some p.exec ∧ optFields (execBatchFields reg) s.execBatch = some p.execBatch := by
  unfold Settings.plan at h
  split at h
  · cases h
    rename_i h1 h2 h3 h4 h5
    exact ⟨rfl, h1, h2, rfl, h4, h5⟩
  · cases h

theorem warnOutputExec_eq (s : Settings) : warnOutputExec s =
    ({ s with output := if given s.exec || given s.execBatch then ["path".toList] else s.output },
      if s.output ≠ ["path".toList] ∧ (given s.exec || given s.execBatch) then [.outputExec] else []) := by
  unfold warnOutputExec
  generalize ["path".toList] = d
  obtain ⟨fargs, dirs, output, sort, reverse, limit, exec, execBatch, profile, shows⟩ := s
  simp only
  cases h2 : (given exec || given execBatch) <;> by_cases h1 : output = d <;> simp [h1]

theorem warnSortCount_eq (s : Settings) : warnSortCount s =
    ({ s with sort := if given s.fargs.count && given s.sort then none else s.sort }, if given s.fargs.count && given s.sort then [.sortCount] else []) := by
  unfold warnSortCount
  cases h1 : given s.fargs.count <;> cases h2 : given s.sort <;> simp

theorem warnOutputCount_eq (s : Settings) : warnOutputCount s =
    ({ s with output := if given s.fargs.count then ["path".toList] else s.output },
      if s.output ≠ ["path".toList] ∧ given s.fargs.count then [.outputCount] else []) := by
  unfold warnOutputCount
  generalize ["path".toList] = d
  obtain ⟨fargs, dirs, output, sort, reverse, limit, exec, execBatch, profile, shows⟩ := s
  simp only
  cases h2 : given fargs.count <;> by_cases h1 : output = d <;> simp [h1]

/-- The settings after `collect_warnings`. -/
theorem collectWarnings_settings (s : Settings) : (collectWarnings s).1 =
    { s with output := if given s.fargs.count || given s.exec || given s.execBatch then ["path".toList] else s.output,
             sort := if given s.fargs.count && given s.sort then none else s.sort } := by
  simp only [collectWarnings, warnOutputExec_eq, warnSortCount_eq, warnOutputCount_eq]
  cases given s.fargs.count <;> simp

theorem collectWarnings_warnings (s : Settings) (w : Warning) : w ∈ (collectWarnings s).2 ↔ match w with
    | .outputExec => s.output ≠ ["path".toList] ∧ (given s.exec || given s.execBatch) = true
    | .sortCount => given s.fargs.count = true ∧ given s.sort = true
    | .outputCount => s.output ≠ ["path".toList] ∧ given s.fargs.count = true ∧ (given s.exec || given s.execBatch) = false
    | .limitSort => s.limit.isSome = true ∧ (given s.sort = false ∨ given s.fargs.count = true) := by
  simp only [collectWarnings, warnOutputExec_eq, warnSortCount_eq, warnOutputCount_eq, warnLimitSort]
  generalize ["path".toList] = d
  obtain ⟨fargs, dirs, output, sort, reverse, limit, exec, execBatch, profile, shows⟩ := s
  have hn : given none = false := rfl
  simp only
  cases w <;> cases hc : given fargs.count <;> cases he : (given exec || given execBatch) <;> cases hs : given sort <;>
    by_cases ho : output = d <;> cases limit <;> simp [ho, hs, hn]

theorem not_mentioned {env : ArgEnv} {args : ArgOpt} (ht : Table (ffOptions env) args) {items : List CItem} {argv : List Str}
    (h : Spells (ffOptions env) items argv) {ns : NS} (hok : parseArgs (ffOptions env) env.maxCpu argv = .ok ns) {k : String}
    (hk : k ∈ ["count", "sort", "exec", "exec_batch", "limit"]) (hm : ¬ Mentions args items k) : ns k.toList = .unset := by
  rw [parse_spelled env ht h] at hok
  rw [meanings_other hok (fun i hi he => hm ⟨i, hi, he⟩)]
  refine init_unset env _ (List.mem_map.2 ⟨k, ?_, rfl⟩)
  revert hk; simp; rintro (h | h | h | h | h) <;> simp [h]

/-- What the plan of a search has to do with the settings. -/
theorem search_settings {M : MainEnv} {argv : List Str} {p : Plan} {w : List Warning} (hr : M.run argv = .search p w) :
    ∃ ns, parseArgs (ffOptions M.arg) M.arg.maxCpu argv = .ok ns ∧
      let s := settingsOf ns
      let count := given s.fargs.count
      let command := given s.exec || given s.execBatch
      ((count && (given s.exec || given s.execBatch || s.limit.isSome)) || (s.profile && command)) = false ∧
      p.mode = setupProcessing (given s.sort && !count) count s.limit.isSome (given s.execBatch) (s.fargs.json = some "json".toList) (given s.exec) ∧
      outputFields M.reg (expandFile M.reg (if count || command then ["path".toList] else s.output)) = some p.output ∧
      optFields (outputFields M.reg) (if count && given s.sort then none else s.sort) = some p.sort ∧ p.limit = s.limit ∧
      optFields (execFields M.reg) s.exec = some p.exec ∧ optFields (execBatchFields M.reg) s.execBatch = some p.execBatch ∧
      ∀ x, x ∈ w ↔ match x with
        | .outputExec => s.output ≠ ["path".toList] ∧ command = true
        | .sortCount => count = true ∧ given s.sort = true
        | .outputCount => s.output ≠ ["path".toList] ∧ count = true ∧ command = false
        | .limitSort => s.limit.isSome = true ∧ (given s.sort = false ∨ count = true) := by
  obtain ⟨ns, s', hok, hp, hpl, _⟩ := run_search hr
  obtain ⟨tests, dirs, _, hc, hw⟩ := process_some hp
  refine ⟨ns, hok, ?_⟩
  have h1 := collectWarnings_settings { settingsOf ns with fargs := processArguments { (settingsOf ns).fargs with tests := tests }, dirs := dirs }
  have h2 := collectWarnings_warnings { settingsOf ns with fargs := processArguments { (settingsOf ns).fargs with tests := tests }, dirs := dirs }
  rw [hw] at h1 h2
  simp only [processArguments_count] at h1 h2
  subst h1
  obtain ⟨g1, g2, g3, g4, g5, g6⟩ := plan_fields hpl
  simp only [processArguments_count, processArguments_json] at g1 g2 g3 g4 g5 g6
  simp only [Settings.conflict, processArguments_count] at hc
  refine ⟨?_, ?_, ?_, g3, g4, g5, g6, h2⟩
  · revert hc
    cases given (settingsOf ns).fargs.count <;> cases given (settingsOf ns).exec <;> cases given (settingsOf ns).execBatch <;>
      cases (settingsOf ns).limit.isSome <;> cases (settingsOf ns).profile <;> simp
  · rw [g1]
    cases given (settingsOf ns).fargs.count <;> cases hs : given (settingsOf ns).sort <;> simp [hs, show given none = false from rfl]
  · rw [← Bool.or_assoc]; exact g2

/-- C83: when results are collected first, and when commands are run instead of printing. -/
theorem C83_mode (M : MainEnv) {args : ArgOpt} (ht : Table (ffOptions M.arg) args) {items : List CItem} {argv : List Str}
    (h : Spells (ffOptions M.arg) items argv) {p : Plan} {w : List Warning} (hr : M.run argv = .search p w) :
    ∃ ns, parseArgs (ffOptions M.arg) M.arg.maxCpu argv = .ok ns ∧
      (p.mode.collective = true ↔ NeedsAll args items ∨ ns "json".toList = .str "json".toList) ∧
      (p.mode ∈ [.exec, .collectiveExec] ↔ Mentions args items "exec" ∨ Mentions args items "exec_batch") := by
  obtain ⟨ns, hok, hs⟩ := search_settings hr
  refine ⟨ns, hok, ?_⟩
  have e1 : given (settingsOf ns).fargs.count = true ↔ Mentions args items "count" := given_list ht h hok (by simp)
  have e2 : given (settingsOf ns).sort = true ↔ Mentions args items "sort" := given_list ht h hok (by simp)
  have e3 : (settingsOf ns).limit.isSome = true ↔ Mentions args items "limit" := given_limit ht h hok
  have e4 : given (settingsOf ns).exec = true ↔ Mentions args items "exec" := given_command ht h hok (by simp)
  have e5 : given (settingsOf ns).execBatch = true ↔ Mentions args items "exec_batch" := given_command ht h hok (by simp)
  have e6 : (settingsOf ns).fargs.json = some "json".toList ↔ ns "json".toList = .str "json".toList := by
    show (ns "json".toList).toOptStr = _ ↔ _
    cases ns "json".toList <;> simp [NVal.toOptStr]
  unfold NeedsAll
  rw [hs.2.1, ← e1, ← e2, ← e3, ← e4, ← e5, ← e6]
  cases given (settingsOf ns).fargs.count <;> cases given (settingsOf ns).sort <;> cases (settingsOf ns).limit.isSome <;>
    cases given (settingsOf ns).exec <;> cases given (settingsOf ns).execBatch <;> by_cases hj : (settingsOf ns).fargs.json = some "json".toList <;>
    simp only [hj, decide_true, decide_false] <;> decide

/-- C83: with `--count` results are collected and not printed, nothing is sorted (with a warning), limited or executed. -/
theorem C83_count (M : MainEnv) {args : ArgOpt} (ht : Table (ffOptions M.arg) args) {items : List CItem} {argv : List Str}
    (h : Spells (ffOptions M.arg) items argv) {p : Plan} {w : List Warning} (hr : M.run argv = .search p w) (hc : Mentions args items "count") :
    p.mode = .collectiveConsole ∧ p.sort = none ∧ p.limit = none ∧ p.exec = none ∧ p.execBatch = none ∧ outputFields M.reg ["path".toList] = some p.output ∧
      (.sortCount ∈ w ↔ Mentions args items "sort") := by
  obtain ⟨ns, hok, h1, h2, h3, h4, h5, h6, h7, h8⟩ := search_settings hr
  have e1 : given (settingsOf ns).fargs.count = true := (given_list ht h hok (by simp)).2 hc
  have e2 : given (settingsOf ns).sort = true ↔ Mentions args items "sort" := given_list ht h hok (by simp)
  have hn : ¬ Conflicting args items := fun hcf => by
    rw [← conflict_iff ht h hok, h1] at hcf
    cases hcf
  have n1 : (settingsOf ns).exec = none := by
    show (ns "exec".toList).toOptWords = none
    rw [not_mentioned ht h hok (k := "exec") (by simp) (fun hx => hn (.inl ⟨hc, .inl hx⟩))]; rfl
  have n2 : (settingsOf ns).execBatch = none := by
    show (ns "exec_batch".toList).toOptWords = none
    rw [not_mentioned ht h hok (k := "exec_batch") (by simp) (fun hx => hn (.inl ⟨hc, .inr (.inl hx)⟩))]; rfl
  have n3 : (settingsOf ns).limit = none := by
    show (ns "limit".toList).toSlice = none
    rw [not_mentioned ht h hok (k := "limit") (by simp) (fun hx => hn (.inl ⟨hc, .inr (.inr hx)⟩))]; rfl
  have n4 : (if given (settingsOf ns).fargs.count && given (settingsOf ns).sort then none else (settingsOf ns).sort) = none := by
    rw [e1]
    cases hg : given (settingsOf ns).sort with
    | true => rfl
    | false =>
      show (ns "sort".toList).toOptWords = none
      rw [not_mentioned ht h hok (k := "sort") (by simp) (fun hx => by rw [e2.2 hx] at hg; cases hg)]; rfl
  rw [n1] at h6
  rw [n2] at h7
  rw [n4] at h4
  rw [e1] at h3
  refine ⟨?_, ?_, by rw [h5, n3], ?_, ?_, h3, ?_⟩
  · rw [h2, e1, n1, n2]
    cases given (settingsOf ns).sort <;> cases (settingsOf ns).limit.isSome <;> by_cases hj : (settingsOf ns).fargs.json = some "json".toList <;>
      simp only [hj, decide_true, decide_false] <;> decide
  · exact (Option.some.inj h4).symm
  · exact (Option.some.inj h6).symm
  · exact (Option.some.inj h7).symm
  · rw [h8, ← e2]; simp [e1]

/-- C83: commands are run on paths, whatever `--output` says; if it says something, there is a warning. -/
theorem C83_exec (M : MainEnv) {args : ArgOpt} (ht : Table (ffOptions M.arg) args) {items : List CItem} {argv : List Str}
    (h : Spells (ffOptions M.arg) items argv) {p : Plan} {w : List Warning} (hr : M.run argv = .search p w)
    (hc : Mentions args items "exec" ∨ Mentions args items "exec_batch") :
    outputFields M.reg ["path".toList] = some p.output ∧ ∃ ns, parseArgs (ffOptions M.arg) M.arg.maxCpu argv = .ok ns ∧
      (.outputExec ∈ w ↔ (ns "output".toList).toWords ≠ ["path".toList]) := by
  obtain ⟨ns, hok, h1, h2, h3, h4, h5, h6, h7, h8⟩ := search_settings hr
  have e4 : given (settingsOf ns).exec = true ↔ Mentions args items "exec" := given_command ht h hok (by simp)
  have e5 : given (settingsOf ns).execBatch = true ↔ Mentions args items "exec_batch" := given_command ht h hok (by simp)
  have hce : (given (settingsOf ns).exec || given (settingsOf ns).execBatch) = true := by
    rcases hc with hx | hx
    · rw [e4.2 hx]; rfl
    · rw [e5.2 hx]; simp
  rw [hce, Bool.or_true] at h3
  refine ⟨h3, ns, hok, ?_⟩
  rw [h8]
  simp only [hce, and_true]
  rfl

/-- C83: all other options are kept: without `--count` and commands, fields and sort fields are those asked for, and the only warning is that of a `--limit`
without `--sort`. -/
theorem C83_kept (M : MainEnv) {args : ArgOpt} (ht : Table (ffOptions M.arg) args) {items : List CItem} {argv : List Str}
    (h : Spells (ffOptions M.arg) items argv) {p : Plan} {w : List Warning} (hr : M.run argv = .search p w)
    (h1 : ¬ Mentions args items "count") (h2 : ¬ Mentions args items "exec") (h3 : ¬ Mentions args items "exec_batch") :
    ∃ ns, parseArgs (ffOptions M.arg) M.arg.maxCpu argv = .ok ns ∧
      outputFields M.reg (expandFile M.reg (ns "output".toList).toWords) = some p.output ∧
      optFields (outputFields M.reg) (ns "sort".toList).toOptWords = some p.sort ∧ p.limit = (ns "limit".toList).toSlice ∧
      ∀ x, x ∈ w ↔ x = .limitSort ∧ Mentions args items "limit" ∧ ¬ Mentions args items "sort" := by
  obtain ⟨ns, hok, g1, g2, g3, g4, g5, g6, g7, g8⟩ := search_settings hr
  have e1 : given (settingsOf ns).fargs.count = false := by
    rw [← Bool.not_eq_true]; exact fun hx => h1 ((given_list ht h hok (by simp)).1 hx)
  have e2 : given (settingsOf ns).exec = false := by
    rw [← Bool.not_eq_true]; exact fun hx => h2 ((given_command ht h hok (by simp)).1 hx)
  have e3 : given (settingsOf ns).execBatch = false := by
    rw [← Bool.not_eq_true]; exact fun hx => h3 ((given_command ht h hok (by simp)).1 hx)
  have e4 : given (settingsOf ns).sort = true ↔ Mentions args items "sort" := given_list ht h hok (by simp)
  have e5 : (settingsOf ns).limit.isSome = true ↔ Mentions args items "limit" := given_limit ht h hok
  simp only [e1, e2, e3, Bool.or_false, Bool.false_and, Bool.false_eq_true, if_false] at g3 g4
  refine ⟨ns, hok, g3, g4, g5, fun x => ?_⟩
  rw [g8, ← e4, ← e5]
  cases x <;> simp [e1, e2, e3]

theorem processArguments_countAsked (a : FArgs) : (processArguments a).count = countAsked a.count a.json.isSome := by
  unfold processArguments countAsked
  by_cases h1 : a.json.isSome <;> by_cases h2 : a.ignore <;> by_cases h3 : a.oneFileSystem <;> by_cases h4 : a.hide <;> by_cases h5 : a.depth = [] <;>
    simp only [h1, h2, h3, h4, h5, if_true, if_false, ne_eq, not_true_eq_false, not_false_eq_true, Bool.false_eq_true] <;> split <;> simp

/-- C83: nothing else is refused. A command line that can be parsed and asks for nothing to be shown starts a search if no options contradict each other, the
directories are accepted and the fields exist. -/
theorem C83_accepted (M : MainEnv) {args : ArgOpt} (ht : Table (ffOptions M.arg) args) {items : List CItem} {argv : List Str}
    (h : Spells (ffOptions M.arg) items argv) {ns : NS} (hok : parseArgs (ffOptions M.arg) M.arg.maxCpu argv = .ok ns)
    (hh : ¬ Mentions args items "help") (ha : ¬ Mentions args items "action") (hc : ¬ Conflicting args items)
    (hd : (processDirectories M.isdir M.cwd (ns "tests".toList).toWords (ns "directories".toList).toWords).isSome = true)
    (h1 : (outputFields M.reg (expandFile M.reg (ns "output".toList).toWords)).isSome = true) (h1' : (outputFields M.reg ["path".toList]).isSome = true)
    (h2 : ∀ ws, (ns "sort".toList).toOptWords = some ws → (outputFields M.reg ws).isSome = true)
    (h3 : ∀ ws, countAsked (ns "count".toList).toOptWords (ns "json".toList).toOptStr.isSome = some ws → (countFields M.reg ws).isSome = true)
    (h4 : ∀ ws, (ns "exec".toList).toOptWords = some ws → (execFields M.reg ws).isSome = true)
    (h5 : ∀ ws, (ns "exec_batch".toList).toOptWords = some ws → (execBatchFields M.reg ws).isSome = true) :
    ∃ p w, M.run argv = .search p w := by
  have opt : ∀ {α : Type} (f : List Str → Option α) (o : Option (List Str)), (∀ ws, o = some ws → (f ws).isSome = true) → ∃ x, optFields f o = some x := by
    intro α f o ho
    cases o with
    | none => exact ⟨none, rfl⟩
    | some ws =>
      obtain ⟨x, hx⟩ := Option.isSome_iff_exists.1 (ho ws rfl)
      exact ⟨some x, by simp [optFields, hx]⟩
  obtain ⟨⟨tests, dirs⟩, hd⟩ := Option.isSome_iff_exists.1 hd
  let t : Settings := { settingsOf ns with fargs := processArguments { (settingsOf ns).fargs with tests := tests }, dirs := dirs }
  have hcf : t.conflict = false := by
    have := mt (conflict_iff ht h hok).1 hc
    rw [Bool.not_eq_true] at this
    simp only [t, Settings.conflict, processArguments_count]
    revert this
    cases given (settingsOf ns).fargs.count <;> cases given (settingsOf ns).exec <;> cases given (settingsOf ns).execBatch <;>
      cases (settingsOf ns).limit.isSome <;> cases (settingsOf ns).profile <;> simp
  have hp : (settingsOf ns).process M.isdir M.cwd = some ((collectWarnings t).1, (collectWarnings t).2) := by
    unfold Settings.process
    rw [show processDirectories M.isdir M.cwd (settingsOf ns).fargs.tests (settingsOf ns).dirs = some (tests, dirs) from hd]
    simp only
    rw [if_neg (by rw [show Settings.conflict _ = t.conflict from rfl, hcf]; simp)]
  have hs := collectWarnings_settings t
  have f1 : ∃ x, outputFields M.reg (expandFile M.reg (collectWarnings t).1.output) = some x := by
    rw [hs]
    simp only
    split
    · rw [show expandFile M.reg ["path".toList] = ["path".toList] from rfl]
      exact Option.isSome_iff_exists.1 h1'
    · exact Option.isSome_iff_exists.1 h1
  have f2 : ∃ x, optFields (outputFields M.reg) (collectWarnings t).1.sort = some x := by
    rw [hs]
    simp only
    split
    · exact ⟨none, rfl⟩
    · exact opt _ _ h2
  have f3 : ∃ x, optFields (countFields M.reg) (collectWarnings t).1.fargs.count = some x := by
    rw [hs]
    refine opt _ _ ?_
    simp only [t, processArguments_countAsked]
    exact h3
  have f4 : ∃ x, optFields (execFields M.reg) (collectWarnings t).1.exec = some x := by rw [hs]; exact opt _ _ h4
  have f5 : ∃ x, optFields (execBatchFields M.reg) (collectWarnings t).1.execBatch = some x := by rw [hs]; exact opt _ _ h5
  obtain ⟨x1, f1⟩ := f1; obtain ⟨x2, f2⟩ := f2; obtain ⟨x3, f3⟩ := f3; obtain ⟨x4, f4⟩ := f4; obtain ⟨x5, f5⟩ := f5
  have hshow : (collectWarnings t).1.shows = false := by
    rw [hs]
    show (decide (ns "action".toList ≠ .unset) || decide (ns "help".toList ≠ .unset)) = false
    rw [not_action ht h hok ha, not_help ht h hok hh]
    rfl
  unfold MainEnv.run
  rw [hok]
  simp only [not_help ht h hok hh, reduceCtorEq, if_false, hp]
  unfold Settings.plan
  rw [f1, f2, f3, f4, f5]
  simp only [hshow, Bool.false_eq_true, if_false]
  exact ⟨_, _, rfl⟩

/-- A world for a run, without plugins. -/
def demoMain (reg : List PluginDef) : MainEnv := { arg := demoArgEnv, isdir := fun _ => false, cwd := "/".toList, reg := reg }

set_option maxRecDepth 20000 in
/-- `ff --count -1`, `ff --count -x rm`: refused; `ff -1`: searched, with a warning. -/
example : (match (demoMain []).run (["--count", "-1"].map String.toList) with | .usage => true | _ => false) = true ∧
    (match (demoMain []).run (["--count", "-x", "rm"].map String.toList) with | .usage => true | _ => false) = true := by
  decide

/-- What is to be looked at in a plan. -/
def Outcome.peek : Outcome → Option (Mode × Option (List Str) × List Str × Option (Int × Option Int) × List Warning)
  | .search p w => some (p.mode, p.sort.map (fun l => l.map Field.label), p.output.map Field.label, p.limit, w)
  | _ => none

set_option maxRecDepth 50000 in
set_option maxHeartbeats 4000000 in
/-- `ff -1`, `ff --count -S size -o name`, `ff -o name -x rm`, `ff -l 2:5 -S size -o name,size`. -/
example : let run := fun ws => ((demoMain [filePlugin, ignorePlugin]).run (ws.map String.toList)).peek
    run ["-1"] = some (.collectiveConsole, none, ["path".toList], some (0, some 1), [.limitSort]) ∧
    run ["--count", "-S", "size", "-o", "name"] = some (.collectiveConsole, none, ["path".toList], none, [.sortCount, .outputCount]) ∧
    run ["-o", "name", "-x", "rm"] = some (.exec, none, ["path".toList], none, [.outputExec]) ∧
    run ["-l", "2:5", "-S", "size", "-o", "name,size"] = some (.collectiveConsole, some ["size".toList], ["name".toList, "size".toList], some (2, some 5), []) := by
  refine ⟨?_, ?_, ?_, ?_⟩ <;> rfl

set_option maxRecDepth 20000 in
/-- `ff --profile -x rm` and `ff --profile -X rm` of a debugging build: refused. -/
example : let M : MainEnv := { demoMain [] with arg := { demoArgEnv with debug := true } }
    (match M.run (["--profile", "-x", "rm"].map String.toList) with | .usage => true | _ => false) = true ∧
    (match M.run (["--profile", "-X", "rm"].map String.toList) with | .usage => true | _ => false) = true := by
  decide

set_option maxRecDepth 50000 in
set_option maxHeartbeats 4000000 in
/-- The hypotheses of `C83_accepted` hold for `ff -H`. -/
example : ∃ o ns, Spells (ffOptions demoArgEnv) [.flag o] ["-H".toList] ∧ parseArgs (ffOptions demoArgEnv) demoArgEnv.maxCpu ["-H".toList] = .ok ns ∧
    o.dest = "hide".toList ∧
    (processDirectories (fun _ => false) "/".toList (ns "tests".toList).toWords (ns "directories".toList).toWords).isSome = true ∧
    (outputFields [filePlugin, ignorePlugin] (expandFile [filePlugin, ignorePlugin] (ns "output".toList).toWords)).isSome = true ∧
    (outputFields [filePlugin, ignorePlugin] ["path".toList]).isSome = true ∧ ns "sort".toList = .unset ∧ ns "count".toList = .unset ∧
    ns "exec".toList = .unset ∧ ns "exec_batch".toList = .unset := by
  have get : ∀ s : String, ∀ i, (h : i < (ffOptions demoArgEnv).length) → s.toList ∈ ((ffOptions demoArgEnv)[i]).strings →
      ∃ o, o = (ffOptions demoArgEnv)[i] ∧ o ∈ ffOptions demoArgEnv ∧ s.toList ∈ o.strings := by
    intro s i h hs; exact ⟨_, rfl, List.getElem_mem h, hs⟩
  obtain ⟨o1, e1, m1, s1⟩ := get "-H" 13 (by decide) (by decide)
  refine ⟨o1, _, .flag m1 (.inl (by rw [e1]; decide)) s1 .nil, rfl, by rw [e1]; decide, rfl, rfl, rfl, rfl, rfl, rfl, rfl⟩

end FF
