import Verif.Lemmas.Parser
import Verif.Lemmas.PySort
namespace FF
open Spec
variable {T : Type}

/-- Truth value of a test word for an entry: the test evaluates to true; a missing attribute counts as false. -/
def wordTrue (pt : Str → Except PErr T) (env : T → Option Bool) (s : Str) : Bool :=
  match pt s with
  | .ok t => env t == some true
  | .error _ => false

/-- What parsing a derivable piece of the token list does, by precedence level. -/
def LevelSpec (pt : Str → Except PErr T) (ts : List Str) (f : Formula) : Level → Prop
  | .prim => (∃ t, ts = [t] ∧ f = .atom t ∧ Word t) ∨
      (∃ o us c, ts = o :: us ++ [c] ∧ isOpen o = true ∧ isClose c = true ∧
        ∃ sub : List (List (Node T)), (∀ rest, PS pt (us ++ c :: rest) [[]] = .ok (c :: rest, sub)) ∧
          ∀ env, evalSeqs env sub = f.eval (wordTrue pt env))
  | .item => ∃ n : Node T, (∀ rest pre cur, PS pt (ts ++ rest) (pre ++ [cur]) = PS pt rest (pre ++ [cur ++ [n]])) ∧
      ∀ env, evalNode env n = f.eval (wordTrue pt env)
  | .conj => ∃ ns : List (Node T), ns ≠ [] ∧
      (∀ rest pre cur, PS pt (ts ++ rest) (pre ++ [cur]) = PS pt rest (pre ++ [cur ++ ns])) ∧
      ∀ env, evalAll env ns = f.eval (wordTrue pt env)
  | .disj => ∃ qs : List (List (Node T)), qs ≠ [] ∧ (∀ l ∈ qs, l ≠ []) ∧
      (∀ rest pre, PS pt (ts ++ rest) (pre ++ [[]]) = PS pt rest (pre ++ qs)) ∧
      ∀ env, evalSeqs env qs = f.eval (wordTrue pt env)

theorem evalNode_test (pt : Str → Except PErr T) (env : T → Option Bool) {t : Str} {x : T} (h : pt t = .ok x) :
    evalNode env (.test x) = wordTrue pt env t := by
  simp only [evalNode, wordTrue, h]
  cases env x with
  | none => rfl
  | some b => cases b <;> rfl

theorem derives_spec (pt : Str → Except PErr T) {l : Level} {ts : List Str} {f : Formula} (h : Derives l ts f)
    (hp : ∀ t ∈ f.atoms, ∃ x, pt t = .ok x) : LevelSpec pt ts f l := by
  induction h with
  | atom hw => exact .inl ⟨_, rfl, rfl, hw⟩
  | @group o ts c f ho hc _ ih =>
    obtain ⟨qs, hne, hall, hps, hev⟩ := ih hp
    refine .inr ⟨o, ts, c, rfl, isOpen_iff.2 ho, isClose_iff.2 hc, qs, ?_, hev⟩
    intro rest
    have h1 := hps (c :: rest) []
    simp only [List.nil_append] at h1
    rw [h1, PS_close (isClose_iff.2 hc)]
    obtain ⟨qs', q, rfl⟩ : ∃ a b, qs = a ++ [b] := ⟨_, _, (List.dropLast_concat_getLast hne).symm⟩
    have : q ≠ [] := hall q (by simp)
    rw [lastEmpty_append]
    simp [this]
  | @prim ts f _ ih =>
    rcases ih hp with ⟨t, rfl, rfl, hw⟩ | ⟨o, us, c, rfl, ho, hc, sub, hsub, hev⟩
    · obtain ⟨x, hx⟩ := hp t (by simp [Formula.atoms])
      refine ⟨.test x, ?_, fun env => evalNode_test pt env hx⟩
      intro rest pre cur
      simp only [List.cons_append, List.nil_append]
      rw [PS_word hw, hx]; simp only [appendLast_append]
    · refine ⟨.or (sub.map .and), ?_, ?_⟩
      · intro rest pre cur
        have e : o :: us ++ [c] ++ rest = o :: (us ++ c :: rest) := by simp
        rw [e, PS_open ho, hsub]
        simp only [afterSub, appendLast_append]
      · intro env; rw [evalNode, evalAny_map_and, hev]
  | @neg n ts f hn _ ih =>
    have hn' := isNot_iff.2 hn
    rcases ih hp with ⟨t, rfl, rfl, hw⟩ | ⟨o, us, c, rfl, ho, hc, sub, hsub, hev⟩
    · obtain ⟨x, hx⟩ := hp t (by simp [Formula.atoms])
      refine ⟨.not [.and [.test x]], ?_, ?_⟩
      · intro rest pre cur
        simp only [List.cons_append, List.nil_append]
        rw [PS_not_word hn' hw, hx]; simp only [appendLast_append]
      · intro env
        have := evalNode_test pt env hx
        simp only [evalNode, evalAny, evalAll, Formula.eval] at *
        rw [← this]; simp
    · refine ⟨.not (sub.map .and), ?_, ?_⟩
      · intro rest pre cur
        have e : n :: (o :: us ++ [c]) ++ rest = n :: o :: (us ++ c :: rest) := by simp
        rw [e, PS_not_open hn' ho, hsub]
        simp only [afterSub, appendLast_append]
      · intro env; rw [evalNode, evalAny_map_and, hev]; rfl
  | @item ts f _ ih =>
    obtain ⟨n, h1, h2⟩ := ih hp
    exact ⟨[n], by simp, h1, fun env => by simp [evalAll, h2]⟩
  | @andBefore a ts f ha _ ih =>
    obtain ⟨ns, hne, h1, h2⟩ := ih hp
    refine ⟨ns, hne, ?_, h2⟩
    intro rest pre cur
    rw [List.cons_append, PS_and (isAnd_iff.2 ha), h1]
  | @andAfter a ts f ha _ ih =>
    obtain ⟨ns, hne, h1, h2⟩ := ih hp
    refine ⟨ns, hne, ?_, h2⟩
    intro rest pre cur
    rw [List.append_assoc, h1, List.singleton_append, PS_and (isAnd_iff.2 ha)]
  | @conj ts us f g _ _ ih1 ih2 =>
    obtain ⟨ns, hne, h1, h2⟩ := ih1 (fun t ht => hp t (by simp [Formula.atoms, ht]))
    obtain ⟨ms, hne', h1', h2'⟩ := ih2 (fun t ht => hp t (by simp [Formula.atoms, ht]))
    refine ⟨ns ++ ms, by simp [hne], ?_, ?_⟩
    · intro rest pre cur
      rw [List.append_assoc, h1, h1', List.append_assoc]
    · intro env; rw [evalAll_append, h2, h2']; rfl
  | @single ts f _ ih =>
    obtain ⟨ns, hne, h1, h2⟩ := ih hp
    refine ⟨[ns], by simp, by simpa using hne, ?_, fun env => by simp [evalSeqs, h2]⟩
    intro rest pre; rw [h1]; simp
  | @disj ts o us f g _ ho _ ih1 ih2 =>
    obtain ⟨qs, hne, hall, h1, h2⟩ := ih1 (fun t ht => hp t (by simp [Formula.atoms, ht]))
    obtain ⟨ps, hne', hall', h1', h2'⟩ := ih2 (fun t ht => hp t (by simp [Formula.atoms, ht]))
    refine ⟨qs ++ ps, by simp [hne], ?_, ?_, ?_⟩
    · intro l hl; rcases List.mem_append.1 hl with h | h
      · exact hall l h
      · exact hall' l h
    · intro rest pre
      rw [List.append_assoc, h1, List.cons_append, PS_or (isOr_iff.2 ho), h1', List.append_assoc]
    · intro env; simp only [evalSeqs, List.any_append, Formula.eval] at *; rw [h2, h2']

/-! ### optimize preserves evaluation -/

theorem sorted_pairs_perm (ps : List (Nat × Node T)) :
    ((pySortKey (· ≤ ·) Prod.fst false ps).map Prod.snd).Perm (ps.map Prod.snd) := by
  simp only [pySortKey]; exact (pySort_perm _ _).map _

mutual
theorem eval_optimizeNode (speed : T → Nat) (env : T → Option Bool) : ∀ n : Node T,
    evalNode env (optimizeNode speed n) = evalNode env n
  | .test t => by rw [optimizeNode]
  | .and l => by
    rw [optimizeNode, evalNode, evalNode, evalAll_eq_all, all_perm (sorted_pairs_perm _), ← evalAll_eq_all]
    exact (eval_optimizePairs speed env l).1
  | .or l => by
    rw [optimizeNode, evalNode, evalNode, evalAny_eq_any, any_perm (sorted_pairs_perm _), ← evalAny_eq_any]
    exact (eval_optimizePairs speed env l).2
  | .not l => by
    rw [optimizeNode, evalNode, evalNode, evalAny_eq_any, any_perm (sorted_pairs_perm _), ← evalAny_eq_any]
    rw [(eval_optimizePairs speed env l).2]
theorem eval_optimizePairs (speed : T → Nat) (env : T → Option Bool) : ∀ l : List (Node T),
    evalAll env ((optimizePairs speed l).map Prod.snd) = evalAll env l ∧
    evalAny env ((optimizePairs speed l).map Prod.snd) = evalAny env l
  | [] => by simp [optimizePairs, evalAll, evalAny]
  | n :: ns => by
    have h1 := eval_optimizeNode speed env n
    have h2 := eval_optimizePairs speed env ns
    simp only [optimizePairs, List.map_cons, evalAll, evalAny, h1, h2.1, h2.2, and_self]
end

theorem optimizePairs_length (speed : T → Nat) (l : List (Node T)) : (optimizePairs speed l).length = l.length := by
  induction l with
  | nil => rfl
  | cons a l ih => simp [optimizePairs, ih]

theorem optimizeTop_perm (speed : T → Nat) (seqs : List (List (Node T))) :
    (optimizeTop speed seqs).Perm (seqs.map (fun l => (pySortKey (· ≤ ·) Prod.fst false (optimizePairs speed l)).map Prod.snd)) := by
  unfold optimizeTop
  simp only [pySortKey]
  have := (pySort_perm (fun a b : Nat × List (Node T) => decide (a.1 ≤ b.1)) (seqs.map (fun l => (speedSum speed l,
      (pySortKey (· ≤ ·) Prod.fst false (optimizePairs speed l)).map Prod.snd)))).map Prod.snd
  simpa [List.map_map, Function.comp_def, pySortKey] using this

theorem optimized_list_nil_iff (speed : T → Nat) (l : List (Node T)) :
    (pySortKey (· ≤ ·) Prod.fst false (optimizePairs speed l)).map Prod.snd = [] ↔ l = [] := by
  rw [← List.length_eq_zero_iff, (sorted_pairs_perm _).length_eq, List.length_map, optimizePairs_length, List.length_eq_zero_iff]

theorem evalSeqs_optimizeTop (speed : T → Nat) (env : T → Option Bool) (seqs : List (List (Node T))) :
    evalSeqs env (optimizeTop speed seqs) = evalSeqs env seqs := by
  rw [evalSeqs, any_perm (optimizeTop_perm speed seqs), List.any_map, evalSeqs]
  congr 1
  funext l
  simp only [Function.comp_def]
  rw [evalAll_eq_all, all_perm (sorted_pairs_perm _), ← evalAll_eq_all]
  exact (eval_optimizePairs speed env l).1

theorem filterEmpty_optimizeTop (speed : T → Nat) (seqs : List (List (Node T))) :
    filterEmpty (optimizeTop speed seqs) = filterEmpty seqs := by
  rw [Bool.eq_iff_iff]
  simp only [filterEmpty, List.isEmpty_iff, List.flatten_eq_nil_iff]
  have hp := optimizeTop_perm speed seqs
  constructor
  · intro h l hl
    have := h _ (hp.mem_iff.2 (List.mem_map.2 ⟨l, hl, rfl⟩))
    exact (optimized_list_nil_iff speed l).1 this
  · intro h l hl
    obtain ⟨m, hm, rfl⟩ := List.mem_map.1 (hp.mem_iff.1 hl)
    exact (optimized_list_nil_iff speed m).2 (h m hm)

theorem matcherTest_optimizeTop (speed : T → Nat) (env : T → Option Bool) (seqs : List (List (Node T))) :
    matcherTest (optimizeTop speed seqs) env = matcherTest seqs env := by
  simp only [matcherTest, filterEmpty_optimizeTop, evalAny_map_and, evalSeqs_optimizeTop]

/-! ### Shape of accepted inputs -/

/-- The shape of every accepted token list, empty alternatives allowed. -/
inductive Lax : List Str → Prop
  | nil : Lax []
  | word {t ts} : Word t → Lax ts → Lax (t :: ts)
  | and {t ts} : isAnd t = true → Lax ts → Lax (t :: ts)
  | or {t ts} : isOr t = true → Lax ts → Lax (t :: ts)
  | group {o m c ts} : isOpen o = true → isClose c = true → Lax m → Lax ts → Lax (o :: m ++ c :: ts)
  | notWord {n t ts} : isNot n = true → Word t → Lax ts → Lax (n :: t :: ts)
  | notGroup {n o m c ts} : isNot n = true → isOpen o = true → isClose c = true → Lax m → Lax ts →
      Lax (n :: o :: m ++ c :: ts)

/-- `rest` is where `parse_sequence` returns: the end or a closing bracket. -/
def Stop (rest : List Str) : Prop := rest = [] ∨ ∃ c r, rest = c :: r ∧ isClose c = true

theorem PS_lax (pt : Str → Except PErr T) : ∀ n ts seqs rest out, ts.length ≤ n → PS pt ts seqs = .ok (rest, out) →
    ∃ mid, ts = mid ++ rest ∧ Lax mid ∧ Stop rest := by
  intro n
  induction n with
  | zero =>
    intro ts seqs rest out hn h
    cases ts with
    | nil =>
      rw [PS_nil] at h
      split at h
      · cases h
      · cases h; exact ⟨[], rfl, .nil, .inl rfl⟩
    | cons t ts => simp at hn
  | succ n ih =>
    intro ts seqs rest out hn h
    have hsub : ∀ mk ts', ts'.length ≤ n → afterSub pt mk seqs (PS pt ts' [[]]) = .ok (rest, out) →
        ∃ m c mid', ts' = m ++ c :: mid' ++ rest ∧ isClose c = true ∧ Lax m ∧ Lax mid' ∧ Stop rest := by
      intro mk ts' hl hh
      unfold afterSub at hh
      split at hh
      · cases hh
      · cases hh
      · rename_i c ts'' sub heq
        obtain ⟨m, h1, h2, h3⟩ := ih _ _ _ _ hl heq
        have hlen := PS_length heq
        obtain ⟨mid', h4, h5, h6⟩ := ih _ _ _ _ (by simp at hlen; omega) hh
        refine ⟨m, c, mid', by rw [h1, h4]; simp, ?_, h2, h5, h6⟩
        rcases h3 with h3 | ⟨c', r, h3, h3'⟩
        · cases h3
        · simp at h3; rw [h3.1]; exact h3'
    cases ts with
    | nil =>
      rw [PS_nil] at h
      split at h
      · cases h
      · cases h; exact ⟨[], rfl, .nil, .inl rfl⟩
    | cons t ts =>
      simp only [List.length_cons] at hn
      rcases token_cases t with h1 | h1 | h1 | h1 | h1 | h1
      · rw [PS_open h1] at h
        obtain ⟨m, c, mid', rfl, hc, hm, hmid, hstop⟩ := hsub _ _ (by omega) h
        exact ⟨t :: m ++ c :: mid', by simp, .group h1 hc hm hmid, hstop⟩
      · rw [PS_close h1] at h
        split at h
        · cases h
        · cases h; exact ⟨[], rfl, .nil, .inr ⟨t, ts, rfl, h1⟩⟩
      · rw [PS_and h1] at h
        obtain ⟨mid, rfl, hm, hs⟩ := ih _ _ _ _ (by omega) h
        exact ⟨t :: mid, rfl, .and h1 hm, hs⟩
      · rw [PS_or h1] at h
        obtain ⟨mid, rfl, hm, hs⟩ := ih _ _ _ _ (by omega) h
        exact ⟨t :: mid, rfl, .or h1 hm, hs⟩
      · cases ts with
        | nil => rw [PS_not_nil h1] at h; cases h
        | cons t2 ts =>
          simp only [List.length_cons] at hn
          by_cases h2 : isOpen t2 = true
          · rw [PS_not_open h1 h2] at h
            obtain ⟨m, c, mid', rfl, hc, hm, hmid, hstop⟩ := hsub _ _ (by omega) h
            exact ⟨t :: t2 :: m ++ c :: mid', by simp, .notGroup h1 h2 hc hm hmid, hstop⟩
          · by_cases h3 : Word t2
            · rw [PS_not_word h1 h3] at h
              split at h
              · cases h
              · obtain ⟨mid, rfl, hm, hs⟩ := ih _ _ _ _ (by omega) h
                exact ⟨t :: t2 :: mid, rfl, .notWord h1 h3 hm, hs⟩
            · rw [PS_not_bad h1 (by simpa using h2) h3] at h; cases h
      · rw [PS_word h1] at h
        split at h
        · cases h
        · obtain ⟨mid, rfl, hm, hs⟩ := ih _ _ _ _ (by omega) h
          exact ⟨t :: mid, rfl, .word h1 hm, hs⟩

theorem Lax.balanced {ts : List Str} (h : Lax ts) : Balanced ts := by
  induction h with
  | nil => exact .nil
  | word hw _ ih => exact .other hw.1 hw.2.1 ih
  | and ha _ ih =>
    obtain ⟨h1, h2, _⟩ := and_facts ha
    exact .other (fun h => by rw [← isOpen_iff] at h; simp [h1] at h) (fun h => by rw [← isClose_iff] at h; simp [h2] at h) ih
  | or ha _ ih =>
    obtain ⟨h1, h2, _⟩ := or_facts ha
    exact .other (fun h => by rw [← isOpen_iff] at h; simp [h1] at h) (fun h => by rw [← isClose_iff] at h; simp [h2] at h) ih
  | group ho hc _ _ ih1 ih2 => exact .nest (isOpen_iff.1 ho) (isClose_iff.1 hc) ih1 ih2
  | notWord ha hw _ ih =>
    obtain ⟨h1, h2, _⟩ := not_facts ha
    exact .other (fun h => by rw [← isOpen_iff] at h; simp [h1] at h) (fun h => by rw [← isClose_iff] at h; simp [h2] at h)
      (.other hw.1 hw.2.1 ih)
  | notGroup ha ho hc _ _ ih1 ih2 =>
    obtain ⟨h1, h2, _⟩ := not_facts ha
    exact .other (fun h => by rw [← isOpen_iff] at h; simp [h1] at h) (fun h => by rw [← isClose_iff] at h; simp [h2] at h)
      (.nest (isOpen_iff.1 ho) (isClose_iff.1 hc) ih1 ih2)

theorem notsFollowed_nil : NotsFollowed [] := by intro a n b h; simp at h

theorem notsFollowed_cons {t : Str} {ts : List Str} (h : NotsFollowed ts)
    (ht : isNot t = true → ∃ t' b', ts = t' :: b' ∧ (Word t' ∨ Open t')) : NotsFollowed (t :: ts) := by
  intro a n b hab hn
  cases a with
  | nil => simp at hab; obtain ⟨rfl, rfl⟩ := hab; exact ht (isNot_iff.2 hn)
  | cons x xs => simp at hab; obtain ⟨rfl, rfl⟩ := hab; exact h _ _ _ rfl hn

theorem notsFollowed_append_cons {m ts : List Str} {c : Str} (h1 : NotsFollowed m) (h2 : NotsFollowed ts)
    (hc : isNot c = false) : NotsFollowed (m ++ c :: ts) := by
  induction m with
  | nil => exact notsFollowed_cons h2 (by simp [hc])
  | cons x xs ih =>
    refine notsFollowed_cons (ih ?_) ?_
    · intro a n b hab hn; exact h1 (x :: a) n b (by simp [hab]) hn
    · intro hx
      obtain ⟨t, b', hb, ht⟩ := h1 [] x xs rfl (isNot_iff.1 hx)
      exact ⟨t, b' ++ c :: ts, by simp [hb], ht⟩

theorem close_not_isNot {c : Str} (h : isClose c = true) : isNot c = false := by
  rcases isClose_iff.1 h with rfl | rfl <;> decide

theorem open_not_isNot {c : Str} (h : isOpen c = true) : isNot c = false := by
  rcases isOpen_iff.1 h with rfl | rfl <;> decide

theorem Lax.notsFollowed {ts : List Str} (h : Lax ts) : NotsFollowed ts := by
  induction h with
  | nil => exact notsFollowed_nil
  | word hw _ ih => exact notsFollowed_cons ih (by simp [(word_iff.1 hw).2.2.2.2])
  | and ha _ ih => exact notsFollowed_cons ih (by simp [(and_facts ha).2.2.2])
  | or ha _ ih => exact notsFollowed_cons ih (by simp [(or_facts ha).2.2.2])
  | group ho hc _ _ ih1 ih2 =>
    exact notsFollowed_cons (notsFollowed_append_cons ih1 ih2 (close_not_isNot hc)) (by simp [open_not_isNot ho])
  | notWord ha hw _ ih =>
    exact notsFollowed_cons (notsFollowed_cons ih (by simp [(word_iff.1 hw).2.2.2.2])) (fun _ => ⟨_, _, rfl, .inl hw⟩)
  | notGroup ha ho hc _ _ ih1 ih2 =>
    exact notsFollowed_cons (notsFollowed_cons (notsFollowed_append_cons ih1 ih2 (close_not_isNot hc)) (by simp [open_not_isNot ho]))
      (fun _ => ⟨_, _, rfl, .inr (isOpen_iff.1 ho)⟩)

/-! ### Accepted inputs without empty alternatives are derivable -/

/-- One alternative: a conjunction (`true`) or nothing but ANDs (`false`). -/
def Conj0 (a : List Str) : Bool → Prop
  | true => ∃ f, Derives .conj a f
  | false => ∀ t ∈ a, Kw "AND" t

/-- Alternatives separated by OR, with their non-emptiness flags. -/
inductive Body : List Str → List Bool → Prop
  | one {a e} : Conj0 a e → Body a [e]
  | more {a e o b es} : Conj0 a e → isOr o = true → Body b es → Body (a ++ o :: b) (e :: es)

theorem conj_ands {x : List Str} {f : Formula} (hx : Derives .conj x f) (a : List Str) (ha : ∀ t ∈ a, Kw "AND" t) :
    Derives .conj (x ++ a) f := by
  induction a generalizing x with
  | nil => simpa using hx
  | cons t a ih =>
    have : x ++ t :: a = (x ++ [t]) ++ a := by simp
    rw [this]
    exact ih (.andAfter (ha t (by simp)) hx) (fun t ht => ha t (by simp [ht]))

theorem Conj0.item {x a : List Str} {f : Formula} {e : Bool} (hx : Derives .item x f) (ha : Conj0 a e) : Conj0 (x ++ a) true := by
  cases e with
  | true => obtain ⟨g, hg⟩ := ha; exact ⟨_, .conj (.item hx) hg⟩
  | false => exact ⟨f, conj_ands (.item hx) a ha⟩

theorem Body.item {x b : List Str} {f : Formula} {es : List Bool} (hx : Derives .item x f) (hb : Body b es) :
    Body (x ++ b) (true :: es.tail) := by
  cases hb with
  | one ha => exact .one (ha.item hx)
  | more ha ho hb => rw [← List.append_assoc]; exact .more (ha.item hx) ho hb

theorem Body.and {t : Str} {b : List Str} {es : List Bool} (ht : isAnd t = true) (hb : Body b es) : Body (t :: b) es := by
  have key : ∀ a e, Conj0 a e → Conj0 (t :: a) e := by
    intro a e h
    cases e with
    | true => obtain ⟨g, hg⟩ := h; exact ⟨g, .andBefore (isAnd_iff.1 ht) hg⟩
    | false =>
      intro u hu
      rcases List.mem_cons.1 hu with rfl | hu
      · exact isAnd_iff.1 ht
      · exact h u hu
  cases hb with
  | one ha => exact .one (key _ _ ha)
  | more ha ho hb => rw [← List.cons_append]; exact .more (key _ _ ha) ho hb

theorem Body.ne_nil {b es} (h : Body b es) : es ≠ [] := by cases h <;> simp

theorem Body.derives {b es} (h : Body b es) (hall : ∀ e ∈ es, e = true) : ∃ f, Derives .disj b f := by
  induction h with
  | @one a e ha =>
    have := hall e (by simp); subst this
    obtain ⟨f, hf⟩ := ha; exact ⟨f, .single hf⟩
  | @more a e o b es ha ho _ ih =>
    have := hall e (by simp); subst this
    obtain ⟨f, hf⟩ := ha
    obtain ⟨g, hg⟩ := ih (fun e he => hall e (by simp [he]))
    exact ⟨_, .disj (.single hf) (isOr_iff.1 ho) hg⟩

theorem noEmptyAlt_left {a b : List Str} (h : NoEmptyAlt (a ++ b)) : NoEmptyAlt b := by
  intro u x ands o v hb hx ha
  exact h (a ++ u) x ands o v (by simp [hb]) hx ha

theorem noEmptyAlt_right {a b : List Str} (h : NoEmptyAlt (a ++ b)) : NoEmptyAlt a := by
  intro u x ands o v hb hx ha
  exact h u x ands o (v ++ b) (by simp [hb]) hx ha

/-- All alternatives are non-empty if the last one is and there is no empty-alternative pattern. -/
theorem Body.all_true {b es} (h : Body b es) : ∀ x, (Open x ∨ Kw "OR" x) → NoEmptyAlt (x :: b) →
    es.getLast? = some true → ∀ e ∈ es, e = true := by
  induction h with
  | @one a e ha => intro x hx hn hl e' he'; simp at hl he'; rw [he', hl]
  | @more a e o b es ha ho hb ih =>
    intro x hx hn hl e' he'
    have hes := hb.ne_nil
    have hl' : es.getLast? = some true := by
      rw [List.getLast?_cons] at hl
      cases hh : es.getLast? with
      | none => rw [List.getLast?_eq_none_iff] at hh; exact absurd hh hes
      | some y => rw [hh] at hl; simpa using hl
    rcases List.mem_cons.1 he' with rfl | he'
    · cases e' with
      | true => rfl
      | false => exact absurd (isOr_iff.1 ho) (hn [] x a o b (by simp) hx ha)
    · refine ih o (.inr (isOr_iff.1 ho)) ?_ hl' e' he'
      have : x :: (a ++ o :: b) = (x :: a) ++ (o :: b) := by simp
      rw [this] at hn
      exact noEmptyAlt_left hn

theorem PS_body (pt : Str → Except PErr T) : ∀ n ts pre cur rest out, ts.length ≤ n → NoEmptyAlt ts →
    PS pt ts (pre ++ [cur]) = .ok (rest, out) →
    ∃ mid es zs, ts = mid ++ rest ∧ Stop rest ∧ Body mid es ∧ out = pre ++ zs ∧
      zs.map (fun l => !l.isEmpty) = (!cur.isEmpty || es.head?.getD false) :: es.tail ∧
      (rest = [] → out.length ≤ 1 ∨ ∀ l ∈ out, l ≠ []) ∧
      (rest ≠ [] → lastEmpty out = false) := by
  intro n
  induction n with
  | zero =>
    intro ts pre cur rest out hn hne h
    cases ts with
    | nil =>
      rw [PS_nil] at h
      split at h
      · cases h
      · rename_i hcond
        cases h
        refine ⟨[], [false], [cur], rfl, .inl rfl, .one (by simp [Conj0]), rfl, by simp, ?_, by simp⟩
        intro _
        by_cases hl : (pre ++ [cur]).length ≤ 1
        · exact .inl hl
        · right
          intro l hl' hnil
          apply hcond
          simp only [Bool.and_eq_true, decide_eq_true_eq, List.any_eq_true, List.isEmpty_iff]
          exact ⟨by omega, l, hl', hnil⟩
    | cons t ts => simp at hn
  | succ n ih =>
    intro ts pre cur rest out hn hne h
    -- continue after an item
    have hitem : ∀ x f y ts', ts = x ++ ts' → Derives .item x f → ts'.length ≤ n →
        PS pt ts' (appendLast y (pre ++ [cur])) = .ok (rest, out) →
        ∃ mid es zs, ts = mid ++ rest ∧ Stop rest ∧ Body mid es ∧ out = pre ++ zs ∧
          zs.map (fun l => !l.isEmpty) = (!cur.isEmpty || es.head?.getD false) :: es.tail ∧
          (rest = [] → out.length ≤ 1 ∨ ∀ l ∈ out, l ≠ []) ∧ (rest ≠ [] → lastEmpty out = false) := by
      intro x f y ts' hts hx hl hh
      rw [appendLast_append] at hh
      obtain ⟨mid, es, zs, h1, h2, h3, h4, h5, h6, h7⟩ := ih _ _ _ _ _ hl (noEmptyAlt_left (hts ▸ hne)) hh
      refine ⟨x ++ mid, true :: es.tail, zs, by rw [hts, h1]; simp, h2, h3.item hx, h4, ?_, h6, h7⟩
      rw [h5]; simp
    -- a bracket
    have hsub : ∀ mk pre' ts', ts = pre' ++ ts' → (∃ o pre'', pre' = pre'' ++ [o] ∧ Open o) → ts'.length ≤ n →
        afterSub pt mk (pre ++ [cur]) (PS pt ts' [[]]) = .ok (rest, out) →
        ∃ m c ts'' y f, ts' = m ++ c :: ts'' ∧ isClose c = true ∧ Derives .disj m f ∧ ts''.length ≤ n ∧
          PS pt ts'' (appendLast y (pre ++ [cur])) = .ok (rest, out) := by
      intro mk pre' ts' hts ⟨o, pre'', hpre, ho⟩ hl hh
      unfold afterSub at hh
      split at hh
      · cases hh
      · cases hh
      · rename_i c ts'' sub heq
        have hne2 : NoEmptyAlt (o :: ts') := by
          rw [hts, hpre, List.append_assoc] at hne
          exact noEmptyAlt_left hne
        have hne1 : NoEmptyAlt ts' := noEmptyAlt_left (a := [o]) hne2
        have hlen := PS_length heq
        obtain ⟨m, es, zs, h1, h2, h3, h4, h5, h6, h7⟩ := ih ts' [] [] (c :: ts'') sub hl hne1 heq
        rcases h2 with h2 | ⟨c', r, h2, h2'⟩
        · cases h2
        · simp at h2; obtain ⟨rfl, rfl⟩ := h2
          have hlast := h7 (by simp)
          simp only [List.nil_append] at h4
          subst h4
          have hes : sub.map (fun l => !l.isEmpty) = es := by
            rw [h5]
            cases es with
            | nil => exact absurd rfl h3.ne_nil
            | cons e es => simp
          have hl' : es.getLast? = some true := by
            rw [← hes, List.getLast?_map]
            simp only [lastEmpty] at hlast
            cases hg : sub.getLast? with
            | none => rw [hg] at hlast; simp at hlast
            | some l => rw [hg] at hlast; simp at hlast; simp [hlast]
          obtain ⟨f, hf⟩ := h3.derives (h3.all_true o (.inl ho) (by
            rw [h1, ← List.cons_append] at hne2; exact noEmptyAlt_right hne2) hl')
          exact ⟨m, c, ts'', mk sub, f, h1, h2', hf, by simp at hlen; omega, hh⟩
    cases ts with
    | nil => exact (by
        have := ih [] pre cur rest out (by simp) hne h
        exact this)
    | cons t ts =>
      simp only [List.length_cons] at hn
      rcases token_cases t with h1 | h1 | h1 | h1 | h1 | h1
      · rw [PS_open h1] at h
        obtain ⟨m, c, ts'', y, f, he, hc, hf, hl, hh⟩ := hsub _ [t] ts rfl ⟨t, [], rfl, isOpen_iff.1 h1⟩ (by omega) h
        exact hitem (t :: m ++ [c]) f y ts'' (by simp [he]) (.prim (.group (isOpen_iff.1 h1) (isClose_iff.1 hc) hf)) hl hh
      · rw [PS_close h1] at h
        split at h
        · cases h
        · rename_i hle
          cases h
          refine ⟨[], [false], [cur], rfl, .inr ⟨t, ts, rfl, h1⟩, .one (by simp [Conj0]), rfl, by simp, by simp, ?_⟩
          intro _; simpa using hle
      · rw [PS_and h1] at h
        obtain ⟨mid, es, zs, g1, g2, g3, g4, g5, g6, g7⟩ := ih _ _ _ _ _ (by omega) (noEmptyAlt_left (a := [t]) hne) h
        exact ⟨t :: mid, es, zs, by simp [g1], g2, g3.and h1, g4, g5, g6, g7⟩
      · rw [PS_or h1] at h
        obtain ⟨mid, es, zs, g1, g2, g3, g4, g5, g6, g7⟩ := ih _ _ _ _ _ (by omega) (noEmptyAlt_left (a := [t]) hne) h
        refine ⟨t :: mid, false :: es, cur :: zs, by simp [g1], g2, ?_, by simp [g4], ?_, g6, g7⟩
        · exact Body.more (a := []) (by simp [Conj0]) h1 g3
        · cases es with
          | nil => exact absurd rfl g3.ne_nil
          | cons e es => simp [g5]
      · cases ts with
        | nil => rw [PS_not_nil h1] at h; cases h
        | cons t2 ts =>
          simp only [List.length_cons] at hn
          by_cases h2 : isOpen t2 = true
          · rw [PS_not_open h1 h2] at h
            obtain ⟨m, c, ts'', y, f, he, hc, hf, hl, hh⟩ := hsub _ [t, t2] ts rfl ⟨t2, [t], rfl, isOpen_iff.1 h2⟩ (by omega) h
            exact hitem (t :: (t2 :: m ++ [c])) (.neg f) y ts'' (by simp [he])
              (.neg (isNot_iff.1 h1) (.group (isOpen_iff.1 h2) (isClose_iff.1 hc) hf)) hl hh
          · by_cases h3 : Word t2
            · rw [PS_not_word h1 h3] at h
              split at h
              · cases h
              · exact hitem [t, t2] _ _ ts rfl (.neg (isNot_iff.1 h1) (.atom h3)) (by omega) h
            · rw [PS_not_bad h1 (by simpa using h2) h3] at h; cases h
      · rw [PS_word h1] at h
        split at h
        · cases h
        · exact hitem [t] _ _ ts rfl (.prim (.atom h1)) (by omega) h

end FF
