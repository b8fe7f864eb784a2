import Verif.Lemmas.ParserExtend
/-! Properties of the expression language: C01, C02, C03, C04, C06. -/
namespace FF
open Spec
variable {T : Type}

/-- A sample parser of tests for the examples: every word is a test named by itself, except "bad". -/
def samplePt (s : Str) : Except PErr Str := if s = "bad".toList then .error (.badTest .expression) else .ok s

/-- C01: every spelling `ts` of a formula `f` whose tests are all valid is accepted, and selects exactly the entries for which
`f` is true as a Boolean formula (missing attributes making a test false), whatever the plugins' speeds. -/
theorem C01_boolean_semantics (pt : Str → Except PErr T) (speed : T → Nat) (ts : List Str) (f : Formula)
    (h : Derives .disj ts f) (hp : ∀ t ∈ f.atoms, ∃ x, pt t = .ok x) (env : T → Option Bool) :
    matcher pt speed ts env = .ok (f.eval (wordTrue pt env)) := by
  obtain ⟨qs, hne, hall, h1, h2⟩ := derives_spec pt h hp
  have hps := h1 [] []
  simp only [List.append_nil, List.nil_append] at hps
  have hok : PS pt ts [[]] = .ok ([], qs) := by
    rw [hps, PS_nil, if_neg]
    simp only [Bool.and_eq_true, decide_eq_true_eq, List.any_eq_true, List.isEmpty_iff, not_and, not_exists]
    intro _ l hl hnil; exact hall l hl hnil
  have hex : ∃ l ∈ qs, l ≠ [] := by
    cases qs with
    | nil => exact absurd rfl hne
    | cons q qs => exact ⟨q, by simp, hall q (by simp)⟩
  simp only [matcher, parserInit, parse_eq, hok, matcherTest_optimizeTop, matcherTest_of_nonempty hex, h2]

/-- C01: without any test everything is selected. -/
theorem C01_empty (pt : Str → Except PErr T) (speed : T → Nat) (env : T → Option Bool) :
    matcher pt speed [] env = .ok true := by
  have h : parse pt [] = .ok [[]] := rfl
  simp only [matcher, parserInit, h, matcherTest_optimizeTop]
  rfl

/-- C01: two readings of the same words always mean the same. -/
theorem C01_unambiguous (ts : List Str) (f g : Formula) (hf : Derives .disj ts f) (hg : Derives .disj ts g) (v : Str → Bool) :
    f.eval v = g.eval v := by
  have h1 := C01_boolean_semantics (T := Str) (fun s => .ok s) (fun _ => 0) ts f hf (fun t _ => ⟨t, rfl⟩) (fun s => some (v s))
  have h2 := C01_boolean_semantics (T := Str) (fun s => .ok s) (fun _ => 0) ts g hg (fun t _ => ⟨t, rfl⟩) (fun s => some (v s))
  have hw : wordTrue (T := Str) (fun s => .ok s) (fun s => some (v s)) = v := by
    funext s; simp [wordTrue]
  rw [hw] at h1 h2
  rw [h1] at h2
  simpa using h2

-- a or b and not ( c oR d )
example : Derives .disj (["a", "or", "b", "and", "not", "(", "c", "oR", "d", "}}"].map String.toList)
    (.disj (.atom "a".toList) (.conj (.atom "b".toList) (.neg (.disj (.atom "c".toList) (.atom "d".toList))))) := by
  have w : ∀ s : String, s ∈ ["a", "b", "c", "d"] → Word s.toList := by
    intro s hs
    simp at hs
    rw [word_iff]
    rcases hs with rfl | rfl | rfl | rfl <;> decide
  have at' : ∀ s : String, s ∈ ["a", "b", "c", "d"] → Derives .conj [s.toList] (.atom s.toList) :=
    fun s hs => .item (.prim (.atom (w s hs)))
  have hor : ∀ s ∈ ["or", "oR"], Kw "OR" s.toList := by
    intro s hs; rw [← isOr_iff]; simp at hs; rcases hs with rfl | rfl <;> decide
  refine Derives.disj (ts := [_]) (.single (at' "a" (by simp))) (hor "or" (by simp)) (.single ?_)
  refine Derives.conj (ts := [_]) (at' "b" (by simp)) ?_
  refine Derives.andBefore (isAnd_iff.1 (by decide)) (.item (.neg (isNot_iff.1 (by decide)) ?_))
  exact Derives.group (ts := ["c", "oR", "d"].map String.toList) (.inl rfl) (.inr rfl)
    (Derives.disj (ts := [_]) (.single (at' "c" (by simp))) (hor "oR" (by simp)) (.single (at' "d" (by simp))))

example : matcher samplePt (fun s => s.length) (["a", "or", "b", "and", "not", "(", "c", "oR", "d", "}}"].map String.toList)
    (fun s => if s = "c".toList then none else some (s = "b".toList)) = .ok true := by decide

/-! ### C02 -/

theorem parse_ok_PS {pt : Str → Except PErr T} {ts : List Str} {seqs} (h : parse pt ts = .ok seqs) :
    PS pt ts [[]] = .ok ([], seqs) := by
  rw [parse_eq] at h
  split at h
  · cases h
  · rename_i heq; cases h; exact heq
  · cases h

/-- C02 (partial): every accepted expression has balanced brackets. -/
theorem C02_balanced_partial (pt : Str → Except PErr T) (ts : List Str) (seqs) (h : parse pt ts = .ok seqs) : Balanced ts := by
  obtain ⟨mid, h1, h2, _⟩ := PS_lax pt _ _ _ _ _ (Nat.le_refl _) (parse_ok_PS h)
  simp at h1; subst h1; exact h2.balanced

/-- C02 (partial): in every accepted expression every NOT is followed by a test or an opening bracket. -/
theorem C02_not_followed_partial (pt : Str → Except PErr T) (ts : List Str) (seqs) (h : parse pt ts = .ok seqs) : NotsFollowed ts := by
  obtain ⟨mid, h1, h2, _⟩ := PS_lax pt _ _ _ _ _ (Nat.le_refl _) (parse_ok_PS h)
  simp at h1; subst h1; exact h2.notsFollowed

/-- C02 (partial): apart from expressions with an OR right after an opening bracket or another OR, everything accepted is a spelling of
a formula (or consists of ANDs only). Missing: such empty alternatives inside brackets are accepted, see `C02_false`. -/
theorem C02_accepted_is_formula_partial (pt : Str → Except PErr T) (ts : List Str) (seqs) (hne : NoEmptyAlt ts)
    (h : parse pt ts = .ok seqs) : (∀ t ∈ ts, Kw "AND" t) ∨ ∃ f, Derives .disj ts f := by
  obtain ⟨mid, es, zs, h1, h2, h3, h4, h5, h6, _⟩ := PS_body pt _ ts [] [] [] seqs (Nat.le_refl _) hne (parse_ok_PS h)
  simp at h1; subst h1
  simp only [List.nil_append] at h4; subst h4
  have hes : seqs.map (fun l => !l.isEmpty) = es := by
    rw [h5]
    cases es with
    | nil => exact absurd rfl h3.ne_nil
    | cons e es => simp
  rcases h6 rfl with hl | hall
  · have hlen : es.length ≤ 1 := by rw [← hes]; simpa using hl
    cases h3 with
    | one ha =>
      rename_i e
      cases e with
      | false => exact .inl ha
      | true => obtain ⟨f, hf⟩ := ha; exact .inr ⟨f, .single hf⟩
    | more ha ho hb =>
      have := hb.ne_nil
      simp at hlen; exact absurd hlen this
  · right
    apply h3.derives
    intro e he
    rw [← hes] at he
    obtain ⟨l, hl, rfl⟩ := List.mem_map.1 he
    simp [hall l hl]

/-- C02 (partial): for the same class of expressions acceptance is exactly being a formula with valid tests. -/
theorem C02_accept_iff_partial (pt : Str → Except PErr T) (ts : List Str) (hne : NoEmptyAlt ts)
    (hp : ∀ t ∈ ts, Word t → ∃ x, pt t = .ok x) :
    (∃ seqs, parse pt ts = .ok seqs) ↔ (∀ t ∈ ts, Kw "AND" t) ∨ ∃ f, Derives .disj ts f := by
  constructor
  · rintro ⟨seqs, h⟩; exact C02_accepted_is_formula_partial pt ts seqs hne h
  · rintro (h | ⟨f, hf⟩)
    · have key : ∀ us : List Str, (∀ t ∈ us, Kw "AND" t) → PS pt us [[]] = .ok ([], [[]]) := by
        intro us hus
        induction us with
        | nil => rfl
        | cons t us ih => rw [PS_and (isAnd_iff.2 (hus t (by simp))), ih (fun t ht => hus t (by simp [ht]))]
      exact ⟨[[]], by rw [parse_eq, key ts h]⟩
    · have hatoms : ∀ {l ts f}, Derives l ts f → ∀ t ∈ f.atoms, t ∈ ts ∧ Word t := by
        intro l ts f h
        induction h with
        | atom hw => intro t ht; simp [Formula.atoms] at ht; subst ht; exact ⟨by simp, hw⟩
        | group _ _ _ ih => intro t ht; exact ⟨by simp [(ih t ht).1], (ih t ht).2⟩
        | prim _ ih => exact ih
        | neg _ _ ih => intro t ht; exact ⟨by simp [(ih t ht).1], (ih t ht).2⟩
        | item _ ih => exact ih
        | andBefore _ _ ih => intro t ht; exact ⟨by simp [(ih t ht).1], (ih t ht).2⟩
        | andAfter _ _ ih => intro t ht; exact ⟨by simp [(ih t ht).1], (ih t ht).2⟩
        | conj _ _ ih1 ih2 =>
          intro t ht; simp only [Formula.atoms, List.mem_append] at ht
          rcases ht with ht | ht
          · exact ⟨by simp [(ih1 t ht).1], (ih1 t ht).2⟩
          · exact ⟨by simp [(ih2 t ht).1], (ih2 t ht).2⟩
        | single _ ih => exact ih
        | disj _ _ _ ih1 ih2 =>
          intro t ht; simp only [Formula.atoms, List.mem_append] at ht
          rcases ht with ht | ht
          · exact ⟨by simp [(ih1 t ht).1], (ih1 t ht).2⟩
          · exact ⟨by simp [(ih2 t ht).1], (ih2 t ht).2⟩
      have := C01_boolean_semantics pt (fun _ => 0) ts f hf
        (fun t ht => hp t (hatoms hf t ht).1 (hatoms hf t ht).2) (fun _ => none)
      simp only [matcher, parserInit] at this
      split at this
      · cases this
      · rename_i seqs heq
        split at heq
        · cases heq
        · rename_i s hs; exact ⟨s, hs⟩

example : NoEmptyAlt (["a", "or", "(", "b", ")"].map String.toList) := by
  intro a x ands o b h hx ha hor
  simp only [List.map_cons, List.map_nil] at h
  have key : ∀ (l : List Str), l = a ++ x :: (ands ++ o :: b) → (∃ k, l[k]? = some x ∧ l[k + 1 + ands.length]? = some o) := by
    intro l hl
    refine ⟨a.length, ?_, ?_⟩
    · rw [hl]; simp
    · have e : a ++ x :: (ands ++ o :: b) = (a ++ x :: ands) ++ o :: b := by simp
      have e2 : a.length + 1 + ands.length = (a ++ x :: ands).length := by simp; omega
      rw [hl, e, e2]; simp
  obtain ⟨k, h1, h2⟩ := key _ (h.trans (by simp))
  rw [← isOr_iff] at hor
  have ho1 : k + 1 + ands.length = 1 := by
    rcases Nat.lt_or_ge (k + 1 + ands.length) 5 with hlt | hge
    · generalize k + 1 + ands.length = m at *
      match m, hlt with
      | 0, _ => simp at h2; subst h2; exact absurd hor (by decide)
      | 1, _ => rfl
      | 2, _ => simp at h2; subst h2; exact absurd hor (by decide)
      | 3, _ => simp at h2; subst h2; exact absurd hor (by decide)
      | 4, _ => simp at h2; subst h2; exact absurd hor (by decide)
    · rw [List.getElem?_eq_none (by simpa using hge)] at h2; cases h2
  have hk : k = 0 := by omega
  subst hk
  simp at h1; subst h1
  rcases hx with hx | hx
  · rw [← isOpen_iff] at hx; exact absurd hx (by decide)
  · rw [← isOr_iff] at hx; exact absurd hx (by decide)

theorem derives_head {l : Level} {ts : List Str} {f : Formula} (h : Derives l ts f) : ∃ t r, ts = t :: r ∧ ¬ Kw "OR" t := by
  induction h with
  | atom hw => exact ⟨_, _, rfl, hw.2.2.2.1⟩
  | group ho _ _ _ => exact ⟨_, _, rfl, by rcases ho with rfl | rfl <;> rw [← isOr_iff] <;> decide⟩
  | prim _ ih => exact ih
  | neg hn _ _ => exact ⟨_, _, rfl, by rw [← isOr_iff]; simp [(not_facts (isNot_iff.2 hn)).2.2.2]⟩
  | item _ ih => exact ih
  | andBefore ha _ _ => exact ⟨_, _, rfl, by rw [← isOr_iff]; simp [(and_facts (isAnd_iff.2 ha)).2.2.1]⟩
  | andAfter _ _ ih => obtain ⟨t, r, rfl, h⟩ := ih; exact ⟨t, _, rfl, h⟩
  | conj _ _ ih _ => obtain ⟨t, r, rfl, h⟩ := ih; exact ⟨t, _, rfl, h⟩
  | single _ ih => exact ih
  | disj _ _ _ ih _ => obtain ⟨t, r, rfl, h⟩ := ih; exact ⟨t, _, rfl, h⟩

theorem derives_after_open {l : Level} {ts : List Str} {f : Formula} (h : Derives l ts f) :
    ∀ o r, ts = o :: r → Open o → ∃ x r', r = x :: r' ∧ ¬ Kw "OR" x := by
  have app : ∀ {ts us : List Str}, ts ≠ [] → (∀ o r, ts = o :: r → Open o → ∃ x r', r = x :: r' ∧ ¬ Kw "OR" x) →
      ∀ o r, ts ++ us = o :: r → Open o → ∃ x r', r = x :: r' ∧ ¬ Kw "OR" x := by
    intro ts us hne h o r heq ho
    cases ts with
    | nil => exact absurd rfl hne
    | cons a as =>
      simp at heq; obtain ⟨rfl, rfl⟩ := heq
      obtain ⟨x, r', rfl, hx⟩ := h a as rfl ho
      exact ⟨x, _, rfl, hx⟩
  have ne : ∀ {l ts f}, Derives l ts f → ts ≠ [] := by
    intro l ts f h hn; obtain ⟨t, r, h, _⟩ := derives_head h; simp [hn] at h
  induction h with
  | atom hw => intro o r heq ho; simp at heq; rw [heq.1] at hw; exact absurd ho hw.1
  | group ho hc hd _ =>
    intro o r heq _
    obtain ⟨t, r', rfl, ht⟩ := derives_head hd
    simp at heq; exact ⟨t, _, heq.2.symm, ht⟩
  | prim _ ih => exact ih
  | neg hn _ _ =>
    intro o r heq ho; simp at heq
    rw [← heq.1, ← isOpen_iff, (not_facts (isNot_iff.2 hn)).1] at ho; simp at ho
  | item _ ih => exact ih
  | andBefore ha _ _ =>
    intro o r heq ho; simp at heq
    rw [← heq.1, ← isOpen_iff, (and_facts (isAnd_iff.2 ha)).1] at ho; simp at ho
  | andAfter _ h ih => exact app (ne h) ih
  | conj h _ ih _ => exact app (ne h) ih
  | single _ ih => exact ih
  | disj h _ _ ih _ => exact app (ne h) ih

/-- C02 is false in full: an empty alternative inside brackets is accepted although it is no formula, and it makes the expression match
everything, although its only test is false. -/
theorem C02_false : ¬ (∃ f, Derives .disj (["(", "or", "a", ")"].map String.toList) f) ∧
    matcher samplePt (fun _ => 0) (["(", "or", "a", ")"].map String.toList) (fun _ => some false) = .ok true := by
  refine ⟨?_, by decide⟩
  rintro ⟨f, hf⟩
  obtain ⟨x, r', h, hx⟩ := derives_after_open hf _ _ rfl (.inl rfl)
  simp only [List.map_cons, List.cons.injEq] at h
  rw [← h.1, ← isOr_iff] at hx
  exact hx (by decide)

/-- The same alternative outside brackets is refused. -/
theorem C02_false_contrast : matcher samplePt (fun _ => 0) (["or", "a"].map String.toList) (fun _ => some false) = .error .emptyExpression := by
  decide

/-! ### C03 -/

/-- C03: which entries an expression selects does not depend on the plugins' speeds, i.e. on the order of evaluation. -/
theorem C03_optimize_irrelevant (pt : Str → Except PErr T) (speed speed' : T → Nat) (ts : List Str) (env : T → Option Bool) :
    matcher pt speed ts env = matcher pt speed' ts env := by
  simp only [matcher, parserInit]
  cases parse pt ts with
  | error e => rfl
  | ok seqs => simp only [matcherTest_optimizeTop]

/-- C03: `optimize` on any test structure whatever preserves its value. -/
theorem C03_optimize_sound (speed : T → Nat) (seqs : List (List (Node T))) (env : T → Option Bool) :
    matcherTest (optimizeTop speed seqs) env = matcherTest seqs env := matcherTest_optimizeTop speed env seqs

/-- C03: `optimize` neither drops nor duplicates tests at the top level, and its result is ordered by speed. -/
theorem C03_optimize_sorted (speed : T → Nat) (l : List (Node T)) :
    ((pySortKey (· ≤ ·) Prod.fst false (optimizePairs speed l))).Pairwise (fun a b => a.1 ≤ b.1) := by
  have := pySort_sorted (le := fun a b : Nat × Node T => decide (a.1 ≤ b.1))
    ⟨fun a b => by simp only [decide_eq_true_eq]; omega, fun a b c => by simp only [decide_eq_true_eq]; omega⟩ (optimizePairs speed l)
  simpa [pySortKey] using this

example : ∃ a b, optimizePairs (fun s : Str => s.length) [.test "slow".toList, .test "f".toList] = [a, b] ∧
    pySortKey (· ≤ ·) Prod.fst false [a, b] = [b, a] := ⟨_, _, rfl, rfl⟩

/-! ### C04 -/

/-- C04: for every accepted expression that contains anything but ANDs, 'not ( ... )' around it is accepted and selects exactly the other
entries. -/
theorem C04_complement (pt : Str → Except PErr T) (speed : T → Nat) (ts : List Str) (n o c : Str)
    (hn : Kw "NOT" n) (ho : Open o) (hc : Close c) (hts : ∃ t ∈ ts, ¬ Kw "AND" t) (env : T → Option Bool) (b : Bool)
    (h : matcher pt speed ts env = .ok b) :
    matcher pt speed (n :: o :: ts ++ [c]) env = .ok (!b) := by
  simp only [matcher, parserInit] at h
  cases hparse : parse pt ts with
  | error e => rw [hparse] at h; cases h
  | ok seqs =>
    rw [hparse] at h
    simp only [matcherTest_optimizeTop, Except.ok.injEq] at h
    have hps := parse_ok_PS hparse
    obtain ⟨zs, more, h1, h2⟩ := PS_trace pt _ ts [] [] [] seqs (Nat.le_refl _) hps
    simp only [List.nil_append] at h1
    have hall : ∀ l ∈ seqs, l ≠ [] := by
      rcases PS_end pt _ _ _ _ (Nat.le_refl _) hps with hl | hl
      · have hm : more = [] := by rw [h1] at hl; simpa using hl
        have hz : zs ≠ [] := by
          intro hz
          obtain ⟨t, ht, hta⟩ := hts
          exact hta (isAnd_iff.1 (h2 rfl hz hm t ht))
        rw [h1, hm]; simpa using hz
      · exact hl
    have hne : seqs ≠ [] := by rw [h1]; simp
    obtain ⟨qs', q, hq⟩ : ∃ a b, seqs = a ++ [b] := ⟨_, _, (List.dropLast_concat_getLast hne).symm⟩
    have hlast : lastEmpty seqs = false := by
      have : q ≠ [] := hall q (by rw [hq]; simp)
      rw [hq, lastEmpty_append]; simp [this]
    have hext := (PS_extend pt _ _ _ _ _ (Nat.le_refl _) hps).2 rfl hlast c [] (isClose_iff.2 hc)
    have hbig : parse pt (n :: o :: ts ++ [c]) = .ok [[.not (seqs.map .and)]] := by
      rw [parse_eq]
      have : n :: o :: ts ++ [c] = n :: o :: (ts ++ [c]) := by simp
      rw [this, PS_not_open (isNot_iff.2 hn) (isOpen_iff.2 ho), hext]
      simp [afterSub, PS_nil, appendLast]
    simp only [matcher, parserInit, hbig, matcherTest_optimizeTop, Except.ok.injEq]
    rw [matcherTest_of_nonempty ⟨[.not (seqs.map .and)], by simp, by simp⟩]
    rw [← h, matcherTest_of_nonempty ⟨q, by rw [hq]; simp, hall q (by rw [hq]; simp)⟩]
    simp [evalSeqs, evalAll, evalNode, evalAny_map_and]

/-- C04: a single test on an attribute the entry lacks is false, its negation true. -/
theorem C04_missing (pt : Str → Except PErr T) (speed : T → Nat) (n t : Str) (x : T) (hn : Kw "NOT" n) (ht : Word t)
    (hx : pt t = .ok x) (env : T → Option Bool) (hm : env x = none) :
    matcher pt speed [t] env = .ok false ∧ matcher pt speed [n, t] env = .ok true := by
  have hw : wordTrue pt env t = false := by simp [wordTrue, hx, hm]
  constructor
  · have := C01_boolean_semantics pt speed [t] (.atom t) (.single (.item (.prim (.atom ht))))
      (by intro t' h; simp [Formula.atoms] at h; subst h; exact ⟨x, hx⟩) env
    simpa [Formula.eval, hw] using this
  · have := C01_boolean_semantics pt speed [n, t] (.neg (.atom t)) (.single (.item (.neg hn (.atom ht))))
      (by intro t' h; simp [Formula.atoms] at h; subst h; exact ⟨x, hx⟩) env
    simpa [Formula.eval, hw] using this

example : matcher samplePt (fun _ => 0) (["a", "or", "(", "or", "b", ")"].map String.toList) (fun _ => some false) = .ok true ∧
    matcher samplePt (fun _ => 0) (["not", "(", "a", "or", "(", "or", "b", ")", ")"].map String.toList) (fun _ => some false) = .ok false := by
  decide

/-! ### C06 -/

theorem excludeLoop_tests (env : T → Option Bool) (xs : List T) :
    excludeLoop env (xs.map .test) = some (xs.any (fun x => env x == some true)) := by
  induction xs with
  | nil => rfl
  | cons x xs ih =>
    simp only [List.map_cons, excludeLoop, List.any_cons]
    cases hx : env x with
    | none => simp [ih]
    | some b => cases b <;> simp [ih]

theorem PS_flat (pt : Str → Except PErr T) : ∀ (ts : List Str) (pre : List (List (Node T))) (cur : List (Node T)) (rest out),
    (∀ t ∈ ts, Word t ∨ Kw "AND" t ∨ Kw "OR" t) → PS pt ts (pre ++ [cur]) = .ok (rest, out) →
    ∃ xs : List T, out.flatten = pre.flatten ++ cur ++ xs.map .test ∧
      ∀ x, x ∈ xs ↔ ∃ t ∈ ts, Word t ∧ pt t = .ok x := by
  intro ts
  induction ts with
  | nil =>
    intro pre cur rest out _ h
    rw [PS_nil] at h
    split at h
    · cases h
    · cases h; exact ⟨[], by simp, by simp⟩
  | cons t ts ih =>
    intro pre cur rest out hts h
    have hts' : ∀ t ∈ ts, Word t ∨ Kw "AND" t ∨ Kw "OR" t := fun t ht => hts t (by simp [ht])
    rcases hts t (by simp) with ht | ht | ht
    · rw [PS_word ht] at h
      cases hp : pt t with
      | error e => rw [hp] at h; cases h
      | ok x =>
        rw [hp] at h
        simp only [appendLast_append] at h
        obtain ⟨xs, h1, h2⟩ := ih _ _ _ _ hts' h
        refine ⟨x :: xs, by simp [h1], ?_⟩
        intro y
        simp only [List.mem_cons, h2]
        constructor
        · rintro (rfl | ⟨t', h', hw, hy⟩)
          · exact ⟨t, .inl rfl, ht, hp⟩
          · exact ⟨t', .inr h', hw, hy⟩
        · rintro ⟨t', rfl | h', hw, hy⟩
          · rw [hp] at hy; cases hy; exact .inl rfl
          · exact .inr ⟨t', h', hw, hy⟩
    · have ht' := isAnd_iff.2 ht
      rw [PS_and ht'] at h
      obtain ⟨xs, h1, h2⟩ := ih _ _ _ _ hts' h
      refine ⟨xs, h1, ?_⟩
      intro y; rw [h2]
      constructor
      · rintro ⟨t', h', hw⟩; exact ⟨t', by simp [h'], hw⟩
      · rintro ⟨t', h', hw, hy⟩
        rcases List.mem_cons.1 h' with rfl | h'
        · exact absurd ht hw.2.2.1
        · exact ⟨t', h', hw, hy⟩
    · have ht' := isOr_iff.2 ht
      rw [PS_or ht'] at h
      obtain ⟨xs, h1, h2⟩ := ih _ _ _ _ hts' h
      refine ⟨xs, by simp [h1], ?_⟩
      intro y; rw [h2]
      constructor
      · rintro ⟨t', h', hw⟩; exact ⟨t', by simp [h'], hw⟩
      · rintro ⟨t', h', hw, hy⟩
        rcases List.mem_cons.1 h' with rfl | h'
        · exact absurd ht hw.2.2.2.1
        · exact ⟨t', h', hw, hy⟩

theorem optimizePairs_tests (speed : T → Nat) (xs : List T) :
    optimizePairs speed (xs.map .test) = xs.map (fun x => (speed x, .test x)) := by
  induction xs with
  | nil => rfl
  | cons x xs ih => simp [optimizePairs, ih, optimizeNode, speedScore]

theorem flatten_perm_of_forall {α β} (f : α → List β) (g : α → List β) (h : ∀ x, (f x).Perm (g x)) (l : List α) :
    (l.map f).flatten.Perm (l.map g).flatten := by
  induction l with
  | nil => exact .refl _
  | cons a l ih => simpa using (h a).append ih

theorem optimizePairs_snd_eq (speed : T → Nat) (l : List (Node T)) :
    (optimizePairs speed l).map Prod.snd = l.map (optimizeNode speed) := by
  induction l with
  | nil => rfl
  | cons x xs ih => simp [optimizePairs, ih]

theorem optimizeTop_flatten_perm (speed : T → Nat) (seqs : List (List (Node T))) :
    (optimizeTop speed seqs).flatten.Perm (seqs.flatten.map (optimizeNode speed)) := by
  refine (optimizeTop_perm speed seqs).flatten.trans ?_
  rw [List.map_flatten]
  apply flatten_perm_of_forall
  intro l
  rw [← optimizePairs_snd_eq]
  exact sorted_pairs_perm _

theorem perm_map_test {xs : List T} {l : List (Node T)} (h : l.Perm (xs.map .test)) : ∃ ys : List T, l = ys.map .test ∧ ys.Perm xs := by
  have hall : ∀ n ∈ l, ∃ x, n = .test x := by
    intro n hn; obtain ⟨x, _, rfl⟩ := List.mem_map.1 (h.mem_iff.1 hn); exact ⟨x, rfl⟩
  have hex : ∃ ys : List T, l = ys.map .test := by
    clear h
    induction l with
    | nil => exact ⟨[], rfl⟩
    | cons n l ih =>
      obtain ⟨x, rfl⟩ := hall n (by simp)
      obtain ⟨ys, rfl⟩ := ih (fun n hn => hall n (by simp [hn]))
      exact ⟨x :: ys, rfl⟩
  obtain ⟨ys, rfl⟩ := hex
  refine ⟨ys, rfl, ?_⟩
  have := h.filterMap (fun n : Node T => match n with | .test t => some t | _ => none)
  have key : ∀ zs : List T, (zs.map Node.test).filterMap (fun n : Node T => match n with | .test t => some t | _ => none) = zs := by
    intro zs; induction zs with
    | nil => rfl
    | cons z zs ih => simp [ih]
  rwa [key, key] at this

/-- C06: with a flat list of exclude tests (words, with ANDs and ORs sprinkled in as accepted) an entry is excluded iff at least one of the tests is
true for it, whatever the order and the plugins' speeds; a missing attribute never excludes. -/
theorem C06_excluded_iff (pt : Str → Except PErr T) (speed : T → Nat) (ts : List Str) (env : T → Option Bool) (r : Option Bool)
    (hts : ∀ t ∈ ts, Word t ∨ Kw "AND" t ∨ Kw "OR" t) (h : excluder pt speed ts env = .ok r) :
    ∃ b, r = some b ∧ (b = true ↔ ∃ t ∈ ts, Word t ∧ ∃ x, pt t = .ok x ∧ env x = some true) := by
  simp only [excluder, parserInit] at h
  cases hparse : parse pt ts with
  | error e => rw [hparse] at h; cases h
  | ok seqs =>
    rw [hparse] at h
    simp only [Except.ok.injEq] at h
    obtain ⟨xs, h1, h2⟩ := PS_flat pt ts [] [] _ _ hts (parse_ok_PS hparse)
    simp only [List.flatten_nil, List.nil_append] at h1
    have hp := optimizeTop_flatten_perm speed seqs
    rw [h1, List.map_map] at hp
    have hcomp : optimizeNode speed ∘ Node.test = (Node.test : T → Node T) := by funext x; simp [optimizeNode]
    rw [hcomp] at hp
    obtain ⟨ys, hys, hperm⟩ := perm_map_test hp
    rw [excluderTest, filterEmpty_optimizeTop] at h
    have hany : ∀ (b : Bool), b = ys.any (fun x => env x == some true) →
        (b = true ↔ ∃ t ∈ ts, Word t ∧ ∃ x, pt t = .ok x ∧ env x = some true) := by
      intro b hb
      rw [hb, any_perm hperm]
      simp only [List.any_eq_true, beq_iff_eq, h2]
      constructor
      · rintro ⟨x, ⟨t, ht, hw, hx⟩, he⟩; exact ⟨t, ht, hw, x, hx, he⟩
      · rintro ⟨t, ht, hw, x, hx, he⟩; exact ⟨x, ⟨t, ht, hw, hx⟩, he⟩
    split at h
    · rename_i hempty
      refine ⟨false, h.symm, hany false ?_⟩
      simp only [filterEmpty, List.isEmpty_iff, h1] at hempty
      have : xs = [] := by simpa using hempty
      subst this
      rw [hperm.eq_nil]; rfl
    · rw [hys, excludeLoop_tests] at h
      exact ⟨_, h.symm, hany _ rfl⟩

/-- C06: lists of valid tests are always accepted. -/
theorem C06_accepted (pt : Str → Except PErr T) (speed : T → Nat) (ts : List Str) (env : T → Option Bool)
    (hts : ∀ t ∈ ts, Word t ∧ ∃ x, pt t = .ok x) : ∃ r, excluder pt speed ts env = .ok r := by
  have key : ∀ (us : List Str) (cur : List (Node T)), (∀ t ∈ us, Word t ∧ ∃ x, pt t = .ok x) → ∃ out, PS pt us [cur] = .ok ([], out) := by
    intro us
    induction us with
    | nil => intro cur _; exact ⟨[cur], by simp [PS_nil]⟩
    | cons t us ih =>
      intro cur hus
      obtain ⟨hw, x, hx⟩ := hus t (by simp)
      rw [PS_word hw, hx]
      exact ih _ (fun t ht => hus t (by simp [ht]))
  obtain ⟨out, hout⟩ := key ts [] hts
  exact ⟨excluderTest (optimizeTop speed out) env, by simp only [excluder, parserInit, parse_eq, hout]⟩

/-- C06: nothing is excluded without tests. -/
theorem C06_empty (pt : Str → Except PErr T) (speed : T → Nat) (env : T → Option Bool) :
    excluder pt speed [] env = .ok (some false) := by
  have h : parse pt [] = .ok [[]] := rfl
  simp only [excluder, parserInit, h, excluderTest, filterEmpty_optimizeTop]
  rfl

example : excluder samplePt (fun s => s.length) (["hidden=y", "a", "b"].map String.toList)
    (fun s => if s = "a".toList then none else some (s = "b".toList)) = .ok (some true) := by decide

/-- Outside the flat lists C06 is about, testing crashes: brackets and NOT parse but raise an AttributeError for every entry. -/
theorem C06_nested_crashes : excluder samplePt (fun _ => 0) (["not", "a"].map String.toList) (fun _ => some true) = .ok none := by decide

end FF
