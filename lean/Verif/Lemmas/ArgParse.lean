import Verif.Spec.ArgParse
namespace FF
open Spec

theorem isDash_iff {w : Str} : isDash w = true ↔ Dash w := by
  cases w with
  | nil => simp [isDash, startsWith, Dash]
  | cons c cs =>
    simp only [isDash, startsWith, Dash, List.isPrefixOf, Bool.and_true, beq_iff_eq, List.cons.injEq, exists_and_left, exists_eq', and_true]
    exact eq_comm

theorem argWeight_cons (w : Str) (ws : List Str) : argWeight (w :: ws) = max 1 (2 * w.length - 2) + argWeight ws := by
  simp [argWeight]
theorem argWeight_append (a b : List Str) : argWeight (a ++ b) = argWeight a + argWeight b := by
  simp [argWeight]
theorem argWeight_nil : argWeight [] = 0 := rfl

theorem argWeight_suffix {a b : List Str} (h : a <:+ b) : argWeight a ≤ argWeight b := by
  obtain ⟨c, rfl⟩ := h
  rw [argWeight_append]; omega

theorem bundle_weight {opts : List ArgOpt} : ∀ {cs : Str} {ws : List Str}, bundle opts cs = .ok ws →
    argWeight ws ≤ 2 * cs.length + 1 ∧ (cs ≠ [] → ∃ c r, ws = ['-', c] :: r) := by
  intro cs
  induction cs with
  | nil => intro ws h; simp [bundle] at h; subst h; simp [argWeight_nil]
  | cons c cs ih =>
    intro ws h
    simp only [bundle] at h
    split at h
    · cases h
    · split at h
      · simp only [Except.ok.injEq] at h; subst h
        simp only [argWeight_cons, argWeight_nil, List.length_cons, List.length_nil]
        refine ⟨by omega, fun _ => ⟨_, _, rfl⟩⟩
      · split at h
        · cases h
        · rename_i ws' hb
          simp only [Except.ok.injEq] at h; subst h
          have := (ih hb).1
          simp only [argWeight_cons, List.length_cons, List.length_nil]
          refine ⟨by omega, fun _ => ⟨_, _, rfl⟩⟩

theorem exists_first {x : Char} {r : Str} (h : x ∈ r) : ∃ a b, r = a ++ x :: b ∧ x ∉ a := by
  induction r with
  | nil => cases h
  | cons y r ih =>
    by_cases hx : y = x
    · exact ⟨[], r, by simp [hx], by simp⟩
    · obtain ⟨a, b, h1, h2⟩ := ih (by simpa [Ne.symm hx] using h)
      exact ⟨y :: a, b, by simp [h1], by simp [Ne.symm hx, h2]⟩

theorem longValue_weight {opts : List ArgOpt} {w : Str} {ws : List Str} (h : longValue opts w = .ok ws) (hd : startsWith w ['-', '-'] = true)
    (he : '=' ∈ w) : ∃ x, ws = x :: ws.tail ∧ argWeight ws.tail < argWeight [w] := by
  unfold longValue at h
  simp only at h
  split at h
  · cases h
  · split at h
    · simp only [Except.ok.injEq] at h; subst h
      refine ⟨_, rfl, ?_⟩
      obtain ⟨a, b, hab⟩ : ∃ a b, w = '-' :: '-' :: a ++ '=' :: b ∧ '=' ∉ a := by
        rcases w with _ | ⟨x, _ | ⟨y, r⟩⟩
        · simp [startsWith] at hd
        · simp [startsWith] at hd
        · simp [startsWith] at hd
          obtain ⟨rfl, rfl⟩ := hd
          simp only [List.mem_cons] at he
          have he : '=' ∈ r := by rcases he with h | h | h; exact absurd h (by decide); exact absurd h (by decide); exact h
          obtain ⟨a, b, rfl, h⟩ := exists_first he
          exact ⟨a, b, rfl, h⟩
      obtain ⟨rfl, hna⟩ := hab
      have : (('-' :: '-' :: a ++ '=' :: b).dropWhile (· ≠ '=')).drop 1 = b := by
        have key : ∀ a : Str, '=' ∉ a → ((a ++ '=' :: b).dropWhile (· ≠ '=')) = '=' :: b := by
          intro a; induction a with
          | nil => simp
          | cons x a ih => intro h; simp at h; simp [Ne.symm h.1]; simpa using ih h.2
        rw [key]; rfl
        simp [hna]
      simp only [List.tail_cons]
      rw [this]
      simp only [argWeight_cons, argWeight_nil, List.length_cons, List.length_append]
      omega
    · cases h

theorem expandArg_weight {opts : List ArgOpt} {w : Str} {ws : List Str} (h : expandArg opts w = .ok ws) :
    ∃ x, ws = x :: ws.tail ∧ argWeight ws.tail < argWeight [w] := by
  unfold expandArg at h
  split at h
  · rename_i hc
    simp only [Bool.and_eq_true, decide_eq_true_eq] at hc
    obtain ⟨h1, h2⟩ := bundle_weight h
    obtain ⟨c, r, rfl⟩ := h2 (by
      intro hn
      have := congrArg List.length hn
      simp at this; omega)
    refine ⟨_, rfl, ?_⟩
    simp only [argWeight_cons, List.length_cons, List.length_nil, List.length_drop, argWeight_nil, List.tail_cons] at h1 ⊢
    omega
  · split at h
    · rename_i hc
      simp only [Bool.and_eq_true, decide_eq_true_eq] at hc
      exact longValue_weight h hc.1 hc.2
    · simp only [Except.ok.injEq] at h; subst h
      refine ⟨_, rfl, ?_⟩
      simp only [argWeight_cons, argWeight_nil, List.tail_cons]; omega

theorem parseOption_suffix {opts : List ArgOpt} {m : Int} {ns ns' : NS} {w : Str} {argv argv' : List Str}
    (h : parseOption opts m ns (w :: argv) = .ok (ns', argv')) : argv' <:+ argv := by
  simp only [parseOption] at h
  split at h
  · cases h
  · split at h
    · simp only [Except.ok.injEq, Prod.mk.injEq] at h; rw [← h.2]; exact List.suffix_refl _
    · simp only [Except.ok.injEq, Prod.mk.injEq] at h; rw [← h.2]; exact List.suffix_refl _
    · split at h
      · cases h
      · simp only [Except.ok.injEq, Prod.mk.injEq] at h; rw [← h.2]; exact List.suffix_cons _ _
    · split at h
      · cases h
      · split at h
        · cases h
        · simp only [Except.ok.injEq, Prod.mk.injEq] at h; rw [← h.2]; exact List.suffix_cons _ _
    · cases argv with
      | nil =>
        simp only at h
        split at h
        · cases h
        · simp only [Except.ok.injEq, Prod.mk.injEq] at h; rw [← h.2]; exact List.suffix_refl _
      | cons v argv =>
        simp only at h
        by_cases hv : isDash v = true
        · rw [if_pos hv] at h; simp only at h
          split at h
          · cases h
          · simp only [Except.ok.injEq, Prod.mk.injEq] at h; rw [← h.2]; exact List.suffix_refl _
        · rw [if_neg hv] at h; simp only at h
          split at h
          · cases h
          · simp only [Except.ok.injEq, Prod.mk.injEq] at h; rw [← h.2]; exact List.suffix_cons _ _
    · split at h
      · cases h
      · simp only [Except.ok.injEq, Prod.mk.injEq] at h; rw [← h.2]; exact List.nil_suffix
    · cases h

theorem argStep_weight {opts : List ArgOpt} {m : Int} {ns ns' : NS} {w : Str} {argv argv' : List Str}
    (h : argStep opts m ns (w :: argv) = .ok (ns', argv')) : argWeight argv' < argWeight (w :: argv) := by
  simp only [argStep] at h
  split at h
  · split at h
    · cases h
    · rename_i ws he
      obtain ⟨x, hx, hw⟩ := expandArg_weight he
      rw [hx, List.cons_append] at h
      have := argWeight_suffix (parseOption_suffix h)
      rw [argWeight_append] at this
      rw [argWeight_cons, argWeight_nil] at hw
      rw [argWeight_cons]; omega
  · rename_i hd
    simp only [parsePositional] at h
    split at h
    · cases h
    · split at h
      · cases h
      · simp only [Except.ok.injEq, Prod.mk.injEq] at h
        rw [← h.2, List.dropWhile_cons, if_pos (by simp [hd])]
        have := argWeight_suffix (List.dropWhile_suffix (l := argv) (fun w => !isDash w))
        rw [argWeight_cons]; omega

/-- Fuel is irrelevant as long as it suffices. -/
theorem argLoop_fuel {opts : List ArgOpt} {m : Int} : ∀ {f f' : Nat} {ns : NS} {argv : List Str}, argWeight argv ≤ f → argWeight argv ≤ f' →
    argLoop opts m f ns argv = argLoop opts m f' ns argv := by
  intro f
  induction f with
  | zero =>
    intro f' ns argv h h'
    cases argv with
    | nil => simp [argLoop]
    | cons w argv => rw [argWeight_cons] at h; omega
  | succ f ih =>
    intro f' ns argv h h'
    cases argv with
    | nil => simp [argLoop]
    | cons w argv =>
      cases f' with
      | zero => rw [argWeight_cons] at h'; omega
      | succ f' =>
        simp only [argLoop]
        cases hs : argStep opts m ns (w :: argv) with
        | error e => rfl
        | ok r =>
          have := argStep_weight (ns' := r.1) (argv' := r.2) hs
          exact ih (by omega) (by omega)

theorem argRun_nil {opts : List ArgOpt} {m : Int} {ns : NS} : argRun opts m ns [] = .ok ns := by simp [argRun, argLoop]

theorem argRun_cons {opts : List ArgOpt} {m : Int} {ns : NS} {w : Str} {argv : List Str} :
    argRun opts m ns (w :: argv) = match argStep opts m ns (w :: argv) with
      | .error e => .error e
      | .ok (ns', argv') => argRun opts m ns' argv' := by
  have hpos : ∃ f, argWeight (w :: argv) = f + 1 := ⟨argWeight (w :: argv) - 1, by rw [argWeight_cons]; omega⟩
  obtain ⟨f, hf⟩ := hpos
  unfold argRun
  rw [hf]
  simp only [argLoop]
  cases hs : argStep opts m ns (w :: argv) with
  | error e => rfl
  | ok r =>
    have := argStep_weight (ns' := r.1) (argv' := r.2) hs
    exact argLoop_fuel (by omega) (by omega)

/-! ### The namespace -/

theorem append_pushed (ns : NS) (key w : Str) : NS.append ns key w = pushed ns key [w] := by
  funext k
  unfold NS.append pushed
  cases ns key <;> simp [NS.set]

theorem appendAll_pushed (key : Str) (ws : List Str) : ∀ ns : NS, ws ≠ [] → NS.appendAll ns key ws = pushed ns key ws := by
  induction ws with
  | nil => intro ns h; exact absurd rfl h
  | cons w ws ih =>
    intro ns _
    simp only [NS.appendAll]
    rw [append_pushed]
    cases ws with
    | nil => rfl
    | cons v ws =>
      rw [ih _ (by simp)]
      funext k
      simp only [pushed]
      by_cases hk : k = key <;> simp [hk]

theorem set_stored (ns : NS) (key : Str) (v : NVal) : NS.set ns key v = stored ns key v := rfl

/-! ### Options -/

theorem getOption_table {opts : List ArgOpt} {args o : ArgOpt} (ht : Table opts args) (ho : o ∈ opts) (ha : o.action ≠ .arguments) {s : Str}
    (hs : s ∈ o.strings) : getOption opts s = some o := by
  unfold getOption
  have hex : (opts.find? (fun o => o.action ≠ .arguments && s ∈ o.strings)).isSome := by
    rw [List.find?_isSome]
    exact ⟨o, ho, by simp [ha, hs]⟩
  obtain ⟨o', ho'⟩ := Option.isSome_iff_exists.1 hex
  rw [ho']
  have h1 := List.find?_some ho'
  have h2 := List.mem_of_find?_eq_some ho'
  simp only [ne_eq, decide_not, Bool.and_eq_true, Bool.not_eq_eq_eq_not, Bool.not_true, decide_eq_false_iff_not, decide_eq_true_eq] at h1
  rw [ht.unique o' h2 o ho h1.1 ha s h1.2 hs]

theorem getArgumentsOption_table {opts : List ArgOpt} {args : ArgOpt} (ht : Table opts args) : getArgumentsOption opts = some args := by
  unfold getArgumentsOption
  have hex : (opts.find? (fun o => o.action = .arguments)).isSome := by
    rw [List.find?_isSome]
    exact ⟨args, ht.args_mem.1, by simp [ht.args_mem.2]⟩
  obtain ⟨o', ho'⟩ := Option.isSome_iff_exists.1 hex
  rw [ho', ht.args_unique o' (List.mem_of_find?_eq_some ho') (by simpa using List.find?_some ho')]

theorem isFlag_ne {o : ArgOpt} (h : IsFlag o) : o.action ≠ .arguments ∧ o.action.takesArgument = false := by
  rcases h with h | ⟨c, h⟩ <;> rw [h] <;> simp [Action.takesArgument]

theorem takesArg_ne {o : ArgOpt} (h : TakesArg o) : o.action ≠ .arguments ∧ o.action.takesArgument = true := by
  rcases h with h | h | ⟨c, h⟩ <;> rw [h] <;> simp [Action.takesArgument]

theorem takesArgument_iff {o : ArgOpt} : o.action.takesArgument = true ↔ TakesArg o := by
  unfold TakesArg
  cases o.action <;> simp [Action.takesArgument]

/-- A word that is exactly an option string is not rewritten. -/
theorem expandArg_string {opts : List ArgOpt} {args o : ArgOpt} (ht : Table opts args) (ho : o ∈ opts) (ha : o.action ≠ .arguments) {s : Str}
    (hs : s ∈ o.strings) : isDash s = true ∧ expandArg opts s = .ok [s] := by
  rcases ht.forms o ho ha s hs with ⟨c, hc, rfl⟩ | ⟨n, rfl, _, hn⟩
  · constructor
    · simp [isDash, startsWith]
    · simp [expandArg, startsWith, Ne.symm hc]
  · constructor
    · simp [isDash, startsWith]
    · simp only [expandArg, startsWith]
      simp [hn]

theorem argStep_string {opts : List ArgOpt} {args o : ArgOpt} (ht : Table opts args) (ho : o ∈ opts) (ha : o.action ≠ .arguments) {s : Str}
    (hs : s ∈ o.strings) (m : Int) (ns : NS) (argv : List Str) : argStep opts m ns (s :: argv) = parseOption opts m ns (s :: argv) := by
  obtain ⟨h1, h2⟩ := expandArg_string ht ho ha hs
  simp [argStep, h1, h2]

/-- If the first word is rewritten, the parser goes on as if the rewritten words had been given. -/
theorem argRun_expand {opts : List ArgOpt} {args o : ArgOpt} (ht : Table opts args) (ho : o ∈ opts) (ha : o.action ≠ .arguments) {s : Str}
    (hs : s ∈ o.strings) (m : Int) (ns : NS) {w : Str} {ws argv : List Str} (hd : isDash w = true) (he : expandArg opts w = .ok (s :: ws)) :
    argRun opts m ns (w :: argv) = argRun opts m ns (s :: (ws ++ argv)) := by
  rw [argRun_cons, argRun_cons, argStep_string ht ho ha hs]
  simp [argStep, hd, he]

theorem split_eq (a b : Str) (ha : '=' ∉ a) : (a ++ '=' :: b).takeWhile (· ≠ '=') = a ∧ ((a ++ '=' :: b).dropWhile (· ≠ '=')).drop 1 = b := by
  induction a with
  | nil => simp
  | cons x a ih =>
    simp only [List.mem_cons, not_or] at ha
    have := ih ha.2
    have hx : x ≠ '=' := Ne.symm ha.1
    simp only [List.cons_append, List.takeWhile_cons, List.dropWhile_cons]
    simp only [ne_eq, hx, not_false_eq_true, decide_true, if_true]
    simpa using this

theorem expandArg_long {opts : List ArgOpt} {args o : ArgOpt} (ht : Table opts args) (ho : o ∈ opts) (ha : TakesArg o) {n v : Str}
    (hs : ('-' :: '-' :: n) ∈ o.strings) : expandArg opts ('-' :: '-' :: n ++ '=' :: v) = .ok ['-' :: '-' :: n, v] := by
  have hn : '=' ∉ n := by
    rcases ht.forms o ho (takesArg_ne ha).1 _ hs with ⟨c, hc, h⟩ | ⟨n', h, _, hn⟩
    · simp only [List.cons.injEq] at h; exact absurd h.2.1.symm hc
    · simp only [List.cons.injEq, true_and] at h; rw [h]; exact hn
  have h := split_eq ('-' :: '-' :: n) v (by simp [hn])
  have hsw : startsWith ('-' :: '-' :: n ++ '=' :: v) ['-', '-'] = true := by simp [startsWith]
  have hmem : '=' ∈ ('-' :: '-' :: n ++ '=' :: v) := by simp
  unfold expandArg
  rw [hsw]
  simp only [Bool.not_true, Bool.false_and, Bool.false_eq_true, if_false, Bool.true_and, decide_eq_true_eq, hmem, if_true]
  unfold longValue
  simp only [h.1, h.2, getOption_table ht ho (takesArg_ne ha).1 hs, (takesArg_ne ha).2, if_true]

theorem short_ne {opts : List ArgOpt} {args o : ArgOpt} (ht : Table opts args) (ho : o ∈ opts) (ha : o.action ≠ .arguments) {c : Char}
    (hs : ['-', c] ∈ o.strings) : c ≠ '-' := by
  rcases ht.forms o ho ha _ hs with ⟨c', hc, h⟩ | ⟨n', h, hne, hn⟩
  · simp only [List.cons.injEq, true_and, and_true] at h; rw [h]; exact hc
  · simp only [List.cons.injEq, true_and] at h
    exact absurd h.2.symm hne

theorem expandArg_bundle {opts : List ArgOpt} {c : Char} {v : Str} (hc : c ≠ '-') (hv : v ≠ []) :
    expandArg opts ('-' :: c :: v) = bundle opts (c :: v) := by
  have hsw : startsWith ('-' :: c :: v) ['-', '-'] = false := by simp [startsWith, List.isPrefixOf, Ne.symm hc]
  have hl : ('-' :: c :: v).length > 2 := by
    have := List.length_pos_iff.2 hv
    simp only [List.length_cons]; omega
  unfold expandArg
  rw [hsw]
  simp [hv]

theorem expandArg_short {opts : List ArgOpt} {args o : ArgOpt} (ht : Table opts args) (ho : o ∈ opts) (ha : TakesArg o) {c : Char} {v : Str}
    (hs : ['-', c] ∈ o.strings) (hv : v ≠ []) : expandArg opts ('-' :: c :: v) = .ok [['-', c], v] := by
  have hc := short_ne ht ho (takesArg_ne ha).1 hs
  rw [expandArg_bundle hc hv]
  simp [bundle, getOption_table ht ho (takesArg_ne ha).1 hs, (takesArg_ne ha).2]

/-- Splitting one flag off a bundle. -/
theorem argRun_bundle {opts : List ArgOpt} {args o : ArgOpt} (ht : Table opts args) (ho : o ∈ opts) (hf : IsFlag o) {c d : Char} {cs : Str}
    (hs : ['-', c] ∈ o.strings) (hd : d ≠ '-') (hl : cs = [] → ∀ o' ∈ opts, ['-', d] ∈ o'.strings → ¬ TakesArg o')
    (m : Int) (ns : NS) (argv : List Str) :
    argRun opts m ns (('-' :: c :: d :: cs) :: argv) = argRun opts m ns (['-', c] :: ('-' :: d :: cs) :: argv) ∨
    (∃ e, argRun opts m ns (('-' :: c :: d :: cs) :: argv) = .error e ∧ ∀ ns', argRun opts m ns' (('-' :: d :: cs) :: argv) = .error e) := by
  have hc := short_ne ht ho (isFlag_ne hf).1 hs
  have he : expandArg opts ('-' :: c :: d :: cs) = bundle opts (c :: d :: cs) := expandArg_bundle hc (by simp)
  rw [bundle, getOption_table ht ho (isFlag_ne hf).1 hs] at he
  simp only [(isFlag_ne hf).2, Bool.false_eq_true, if_false] at he
  have hd' : isDash ('-' :: c :: d :: cs) = true := by simp [isDash, startsWith]
  have hd'' : isDash ('-' :: d :: cs) = true := by simp [isDash, startsWith]
  cases hb : bundle opts (d :: cs) with
  | error e =>
    right
    rw [hb] at he
    refine ⟨e, ?_, ?_⟩
    · rw [argRun_cons]; simp [argStep, hd', he]
    · intro ns'
      rw [argRun_cons]
      cases cs with
      | nil =>
        simp only [bundle] at hb
        have hex : expandArg opts ['-', d] = .ok [['-', d]] := by simp [expandArg, startsWith, Ne.symm hd]
        cases hg : getOption opts ['-', d] with
        | none => rw [hg] at hb; simp only [Except.error.injEq] at hb; subst hb; simp [argStep, hd'', hex, parseOption, hg]
        | some o' => rw [hg] at hb; simp only at hb; split at hb <;> cases hb
      | cons x xs => simp [argStep, hd'', expandArg_bundle hd (by simp : x :: xs ≠ []), hb]
  | ok ws =>
    left
    rw [hb] at he
    rw [argRun_expand ht ho (isFlag_ne hf).1 hs m ns hd' he]
    -- both continue with the flag
    rw [argRun_cons, argRun_cons (w := ['-', c]), argStep_string ht ho (isFlag_ne hf).1 hs, argStep_string ht ho (isFlag_ne hf).1 hs]
    have hpo : ∀ av, ∃ ns', parseOption opts m ns (['-', c] :: av) = .ok (ns', av) ∧ ∀ bv, parseOption opts m ns (['-', c] :: bv) = .ok (ns', bv) := by
      intro av
      simp only [parseOption, getOption_table ht ho (isFlag_ne hf).1 hs]
      rcases hf with h | ⟨k, h⟩ <;> rw [h] <;> exact ⟨_, rfl, fun _ => rfl⟩
    obtain ⟨ns', h1, h2⟩ := hpo (ws ++ argv)
    rw [h1, h2]
    simp only
    -- the rest of the bundle
    obtain ⟨c', r, hw⟩ := (bundle_weight hb).2 (by simp)
    subst hw
    cases cs with
    | nil =>
      simp only [bundle] at hb
      cases hg : getOption opts ['-', d] with
      | none => rw [hg] at hb; cases hb
      | some o' =>
        rw [hg] at hb
        have hmem : o' ∈ opts := List.mem_of_find?_eq_some hg
        have hst := List.find?_some hg
        simp only [ne_eq, decide_not, Bool.and_eq_true, Bool.not_eq_eq_eq_not, Bool.not_true, decide_eq_false_iff_not, decide_eq_true_eq] at hst
        have hnt : o'.action.takesArgument = false := by
          cases ht' : o'.action.takesArgument with
          | false => rfl
          | true => exact absurd (takesArgument_iff.1 ht') (hl rfl o' hmem hst.2)
        simp only [hnt] at hb
        simp only [Bool.false_eq_true, if_false, Except.ok.injEq] at hb
        rw [← hb]; rfl
    | cons x xs =>
      have he2 : expandArg opts ('-' :: d :: x :: xs) = .ok (['-', c'] :: r) := by rw [expandArg_bundle hd (by simp), hb]
      have hstr : ∃ o' ∈ opts, o'.action ≠ .arguments ∧ ['-', c'] ∈ o'.strings := by
        simp only [bundle] at hb
        cases hg : getOption opts ['-', d] with
        | none => rw [hg] at hb; cases hb
        | some o' =>
          rw [hg] at hb
          have hmem : o' ∈ opts := List.mem_of_find?_eq_some hg
          have hst := List.find?_some hg
          simp only [ne_eq, decide_not, Bool.and_eq_true, Bool.not_eq_eq_eq_not, Bool.not_true, decide_eq_false_iff_not, decide_eq_true_eq] at hst
          have hcd : c' = d := by
            simp only at hb
            split at hb
            · simp only [Except.ok.injEq, List.cons.injEq, true_and, and_true] at hb; exact hb.1.symm
            · split at hb
              · cases hb
              · simp only [Except.ok.injEq, List.cons.injEq, true_and, and_true] at hb; exact hb.1.symm
          exact ⟨o', hmem, hst.1, by rw [hcd]; exact hst.2⟩
      obtain ⟨o', hm', ha', hs'⟩ := hstr
      rw [argRun_expand ht hm' ha' hs' m ns' hd'' he2]
      rfl

end FF
