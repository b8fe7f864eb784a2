import Verif.Model.Needed
import Verif.Spec.Needed
import Verif.Props.Parser
import Verif.Props.Sort
/-! C118: tests are made fastest first, and only as long as the result is open. -/
namespace FF
open Spec
variable {T : Type}

mutual
/-- The tests of a node. -/
def Node.leaves : Node T → List T
  | .test t => [t]
  | .and l => leavesOf l
  | .or l => leavesOf l
  | .not l => leavesOf l
/-- The tests of a sequence. -/
def leavesOf : List (Node T) → List T
  | [] => []
  | n :: ns => n.leaves ++ leavesOf ns
end

mutual
/-- No sequence is empty. -/
def Node.Solid : Node T → Prop
  | .test _ => True
  | .and l => l ≠ [] ∧ SolidAll l
  | .or l => l ≠ [] ∧ SolidAll l
  | .not l => l ≠ [] ∧ SolidAll l
/-- No sequence below is empty. -/
def SolidAll : List (Node T) → Prop
  | [] => True
  | n :: ns => n.Solid ∧ SolidAll ns
end

theorem leavesOf_eq (l : List (Node T)) : leavesOf l = (l.map Node.leaves).flatten := by
  induction l with
  | nil => rfl
  | cons a l ih => simp [leavesOf, ih]

theorem solidAll_iff (l : List (Node T)) : SolidAll l ↔ ∀ n ∈ l, n.Solid := by
  induction l with
  | nil => simp [SolidAll]
  | cons a l ih => simp [SolidAll, ih]

mutual
theorem askNode_fst (env : T → Option Bool) : ∀ n : Node T, (askNode env n).1 = evalNode env n
  | .test t => rfl
  | .and l => by rw [askNode, evalNode, (askUntil_fst env l).1]
  | .or l => by rw [askNode, evalNode, (askUntil_fst env l).2]
  | .not l => by rw [askNode, evalNode, (askUntil_fst env l).2]
theorem askUntil_fst (env : T → Option Bool) : ∀ l : List (Node T),
    (askUntil env false l).1 = evalAll env l ∧ (askUntil env true l).1 = evalAny env l
  | [] => ⟨rfl, rfl⟩
  | n :: ns => by
    have h1 := askNode_fst env n
    have h2 := askUntil_fst env ns
    simp only [askUntil, evalAll, evalAny, h1]
    cases evalNode env n <;> simp [h2.1, h2.2]
end

mutual
theorem askNode_sublist (env : T → Option Bool) : ∀ n : Node T, (askNode env n).2.Sublist n.leaves
  | .test t => by simp [askNode, Node.leaves]
  | .and l => by rw [askNode, Node.leaves]; exact askUntil_sublist env false l
  | .or l => by rw [askNode, Node.leaves]; exact askUntil_sublist env true l
  | .not l => by rw [askNode, Node.leaves]; exact askUntil_sublist env true l
theorem askUntil_sublist (env : T → Option Bool) (stop : Bool) : ∀ l : List (Node T), (askUntil env stop l).2.Sublist (leavesOf l)
  | [] => by simp [askUntil, leavesOf]
  | n :: ns => by
    have h1 := askNode_sublist env n
    have h2 := askUntil_sublist env stop ns
    simp only [askUntil, leavesOf]
    split
    · exact h1.trans (List.sublist_append_left _ _)
    · exact h1.append h2
end

theorem test_value {env env' : T → Option Bool} {t : T} (h : Holds env t ↔ Holds env' t) :
    (match env t with | none => false | some b => b) = (match env' t with | none => false | some b => b) := by
  simp only [Holds] at h
  cases h1 : env t with
  | none => cases h2 : env' t with
    | none => rfl
    | some b => cases b <;> simp_all
  | some a => cases h2 : env' t with
    | none => cases a <;> simp_all
    | some b => cases a <;> cases b <;> simp_all

mutual
theorem askNode_congr (env env' : T → Option Bool) : ∀ n : Node T, AgreeOn env env' (askNode env n).2 → askNode env' n = askNode env n
  | .test t, h => by
    simp only [askNode, Prod.mk.injEq, and_true]
    exact (test_value (h t (by simp [askNode]))).symm
  | .and l, h => by simp only [askNode] at h ⊢; exact askUntil_congr env env' false l h
  | .or l, h => by simp only [askNode] at h ⊢; exact askUntil_congr env env' true l h
  | .not l, h => by simp only [askNode] at h ⊢; rw [askUntil_congr env env' true l h]
theorem askUntil_congr (env env' : T → Option Bool) (stop : Bool) : ∀ l : List (Node T), AgreeOn env env' (askUntil env stop l).2 →
    askUntil env' stop l = askUntil env stop l
  | [], _ => rfl
  | n :: ns, h => by
    simp only [askUntil] at h ⊢
    split at h
    · rename_i hs
      rw [askNode_congr env env' n h, if_pos hs, if_pos hs]
    · rename_i hs
      rw [askNode_congr env env' n (fun t ht => h t (List.mem_append_left _ ht)), if_neg hs, if_neg hs,
        askUntil_congr env env' stop ns (fun t ht => h t (List.mem_append_right _ ht))]
end

/-- The same outcomes for all tests of a node. -/
theorem askNode_leaves {env env' : T → Option Bool} {n : Node T} (h : ∀ t ∈ n.leaves, env' t = env t) : askNode env' n = askNode env n :=
  askNode_congr env env' n fun t ht => by simp only [Holds]; rw [h t ((askNode_sublist env n).subset ht)]

/-- The made tests can come out so that the value is `b`, the tests made before and all others being as they are. -/
def Open2 (env : T → Option Bool) (leaves pre : List T) (value : (T → Option Bool) → Bool) : Prop :=
  ∀ b, ∃ env' : T → Option Bool, (∀ t, t ∉ leaves → env' t = env t) ∧ (∀ t ∈ pre, env' t = env t) ∧ value env' = b

mutual
theorem askNode_ne_nil (env : T → Option Bool) : ∀ n : Node T, n.Solid → (askNode env n).2 ≠ []
  | .test t, _ => by simp [askNode]
  | .and l, h => by simp only [askNode]; exact askUntil_ne_nil env false l h.1 h.2
  | .or l, h => by simp only [askNode]; exact askUntil_ne_nil env true l h.1 h.2
  | .not l, h => by simp only [askNode]; exact askUntil_ne_nil env true l h.1 h.2
theorem askUntil_ne_nil (env : T → Option Bool) (stop : Bool) : ∀ l : List (Node T), l ≠ [] → SolidAll l → (askUntil env stop l).2 ≠ []
  | [], h, _ => absurd rfl h
  | n :: ns, _, h => by
    have := askNode_ne_nil env n h.1
    simp only [askUntil]
    split
    · exact this
    · simp [this]
end

theorem open2_append {env : T → Option Bool} {stop : Bool} {n : Node T} {ns : List (Node T)} {pre : List T}
    (hd : ∀ t ∈ n.leaves, t ∉ leavesOf ns) (hpre : ∀ t ∈ pre, t ∈ n.leaves) (hn : Open2 env n.leaves pre fun e => (askNode e n).1)
    (hns : ∀ e : T → Option Bool, ∃ e' : T → Option Bool, (∀ t, t ∉ leavesOf ns → e' t = e t) ∧ (askUntil e' stop ns).1 = !stop) :
    Open2 env (leavesOf (n :: ns)) pre fun e => (askUntil e stop (n :: ns)).1 := by
  intro b
  by_cases hb : b = stop
  · subst hb
    obtain ⟨e, h1, h2, h3⟩ := hn b
    refine ⟨e, fun t ht => h1 t fun hc => ht (by simp [leavesOf, hc]), h2, ?_⟩
    simp only [askUntil]
    simp only at h3
    rw [if_pos h3]
  · have hb : b = !stop := by cases b <;> cases stop <;> simp_all
    subst hb
    obtain ⟨e, h1, h2, h3⟩ := hn (!stop)
    obtain ⟨e', h4, h5⟩ := hns e
    have hsame : askNode e' n = askNode e n := askNode_leaves fun t ht => h4 t (hd t ht)
    refine ⟨e', fun t ht => ?_, fun t ht => ?_, ?_⟩
    · simp only [leavesOf, List.mem_append, not_or] at ht
      rw [h4 t ht.2, h1 t ht.1]
    · rw [h4 t (hd t (hpre t ht)), h2 t ht]
    · simp only at h3
      simp only [askUntil, hsame]
      rw [if_neg (by rw [h3]; cases stop <;> simp), h5]

open Classical in
mutual
theorem askNode_open (env : T → Option Bool) : ∀ (n : Node T) (pre : List T) (t : T) (post : List T), n.Solid → n.leaves.Nodup →
    (askNode env n).2 = pre ++ t :: post → Open2 env n.leaves pre fun e => (askNode e n).1
  | .test t, pre, u, post, _, _, h => by
    simp only [askNode] at h
    have hp : pre = [] := by
      cases pre with
      | nil => rfl
      | cons a l => simp at h
    subst hp
    intro b
    refine ⟨fun x => if x = t then some b else env x, fun x hx => ?_, by simp, by simp [askNode]⟩
    show (if x = t then some b else env x) = env x
    rw [if_neg (by simpa [Node.leaves] using hx)]
  | .and l, pre, t, post, hs, hd, h => by
    simp only [askNode, Node.leaves] at h hd ⊢; exact askUntil_open env false l pre t post hs.2 hd h
  | .or l, pre, t, post, hs, hd, h => by
    simp only [askNode, Node.leaves] at h hd ⊢; exact askUntil_open env true l pre t post hs.2 hd h
  | .not l, pre, t, post, hs, hd, h => by
    simp only [askNode, Node.leaves] at h hd ⊢
    intro b
    obtain ⟨e, h1, h2, h3⟩ := askUntil_open env true l pre t post hs.2 hd h (!b)
    exact ⟨e, h1, h2, by simp only at h3 ⊢; rw [h3, Bool.not_not]⟩
theorem askUntil_open (env : T → Option Bool) (stop : Bool) : ∀ (l : List (Node T)) (pre : List T) (t : T) (post : List T), SolidAll l → (leavesOf l).Nodup →
    (askUntil env stop l).2 = pre ++ t :: post → Open2 env (leavesOf l) pre fun e => (askUntil e stop l).1
  | [], pre, t, post, _, _, h => by simp [askUntil] at h
  | n :: ns, pre, t, post, hs, hd, h => by
    simp only [leavesOf, List.nodup_append] at hd
    have hdis : ∀ x ∈ n.leaves, x ∉ leavesOf ns := fun x hx hc => hd.2.2 x hx x hc rfl
    have here : ∀ p u q, (askNode env n).2 = p ++ u :: q → pre = p → Open2 env (leavesOf (n :: ns)) pre fun e => (askUntil e stop (n :: ns)).1 := by
      intro p u q hq hp
      subst hp
      refine open2_append hdis (fun x hx => (askNode_sublist env n).subset (by rw [hq]; simp [hx])) (askNode_open env n pre u q hs.1 hd.1 hq) ?_
      intro e
      cases hns : ns with
      | nil => exact ⟨e, fun _ _ => rfl, rfl⟩
      | cons m ms =>
        rw [← hns]
        have hne := askUntil_ne_nil e stop ns (by simp [hns]) hs.2
        obtain ⟨u', q', hq'⟩ := List.exists_cons_of_ne_nil hne
        obtain ⟨e', h1, _, h3⟩ := askUntil_open e stop ns [] u' q' hs.2 hd.2.1 (by simpa using hq') (!stop)
        exact ⟨e', h1, h3⟩
    simp only [askUntil] at h
    split at h
    · exact here pre t post h rfl
    · rename_i hv
      rcases List.append_eq_append_iff.1 h with ⟨a, ha, hb⟩ | ⟨a, ha, hb⟩
      · -- pre = asked of n ++ a
        intro b
        obtain ⟨e, h1, h2, h3⟩ := askUntil_open env stop ns a t post hs.2 hd.2.1 hb b
        have hsame : askNode e n = askNode env n := askNode_leaves fun x hx => h1 x (hdis x hx)
        refine ⟨e, fun x hx => h1 x fun hc => hx (by simp [leavesOf, hc]), fun x hx => ?_, ?_⟩
        · rw [ha] at hx
          rcases List.mem_append.1 hx with hx | hx
          · exact h1 x (hdis x ((askNode_sublist env n).subset hx))
          · exact h2 x hx
        · simp only [askUntil, hsame]
          rw [if_neg hv]; exact h3
      · cases a with
        | nil =>
          simp only [List.append_nil, List.nil_append] at ha hb
          intro b
          obtain ⟨e, h1, h2, h3⟩ := askUntil_open env stop ns [] t post hs.2 hd.2.1 (by simpa using hb.symm) b
          have hsame : askNode e n = askNode env n := askNode_leaves fun x hx => h1 x (hdis x hx)
          refine ⟨e, fun x hx => h1 x fun hc => hx (by simp [leavesOf, hc]), fun x hx => ?_, ?_⟩
          · rw [← ha] at hx; exact h1 x (hdis x ((askNode_sublist env n).subset hx))
          · simp only [askUntil, hsame]
            rw [if_neg hv]; exact h3
        | cons u a =>
          exact here pre u a ha rfl
end

/-! ### The shape of what is parsed -/

/-- What parsing a derivable piece of the token list gives, by precedence level. -/
def ShapeSpec (pt : Str → Except PErr T) (ts : List Str) (f : Formula) : Level → Prop
  | .prim => (∃ t, ts = [t] ∧ f = .atom t ∧ Word t) ∨
      (∃ o us c, ts = o :: us ++ [c] ∧ isOpen o = true ∧ isClose c = true ∧
        ∃ sub : List (List (Node T)), (∀ rest, PS pt (us ++ c :: rest) [[]] = .ok (c :: rest, sub)) ∧
          sub ≠ [] ∧ (∀ l ∈ sub, l ≠ [] ∧ SolidAll l) ∧ f.atoms.map pt = (leavesOf (sub.map .and)).map .ok)
  | .item => ∃ n : Node T, (∀ rest pre cur, PS pt (ts ++ rest) (pre ++ [cur]) = PS pt rest (pre ++ [cur ++ [n]])) ∧
      n.Solid ∧ f.atoms.map pt = n.leaves.map .ok
  | .conj => ∃ ns : List (Node T), ns ≠ [] ∧
      (∀ rest pre cur, PS pt (ts ++ rest) (pre ++ [cur]) = PS pt rest (pre ++ [cur ++ ns])) ∧
      SolidAll ns ∧ f.atoms.map pt = (leavesOf ns).map .ok
  | .disj => ∃ qs : List (List (Node T)), qs ≠ [] ∧ (∀ l ∈ qs, l ≠ [] ∧ SolidAll l) ∧
      (∀ rest pre, PS pt (ts ++ rest) (pre ++ [[]]) = PS pt rest (pre ++ qs)) ∧
      f.atoms.map pt = (leavesOf (qs.map .and)).map .ok

theorem leavesOf_append (l m : List (Node T)) : leavesOf (l ++ m) = leavesOf l ++ leavesOf m := by
  simp [leavesOf_eq]

theorem solidAll_and {sub : List (List (Node T))} (h : ∀ l ∈ sub, l ≠ [] ∧ SolidAll l) : SolidAll (sub.map .and) := by
  rw [solidAll_iff]
  intro n hn
  obtain ⟨l, hl, rfl⟩ := List.mem_map.1 hn
  exact h l hl

theorem derives_shape (pt : Str → Except PErr T) {l : Level} {ts : List Str} {f : Formula} (h : Derives l ts f)
    (hp : ∀ t ∈ f.atoms, ∃ x, pt t = .ok x) : ShapeSpec pt ts f l := by
  induction h with
  | atom hw => exact .inl ⟨_, rfl, rfl, hw⟩
  | @group o ts c f ho hc _ ih =>
    obtain ⟨qs, hne, hall, hps, hl⟩ := ih hp
    refine .inr ⟨o, ts, c, rfl, isOpen_iff.2 ho, isClose_iff.2 hc, qs, ?_, hne, hall, hl⟩
    intro rest
    have h1 := hps (c :: rest) []
    simp only [List.nil_append] at h1
    rw [h1, PS_close (isClose_iff.2 hc)]
    obtain ⟨qs', q, rfl⟩ : ∃ a b, qs = a ++ [b] := ⟨_, _, (List.dropLast_concat_getLast hne).symm⟩
    have : q ≠ [] := (hall q (by simp)).1
    rw [lastEmpty_append]
    simp [this]
  | @prim ts f _ ih =>
    rcases ih hp with ⟨t, rfl, rfl, hw⟩ | ⟨o, us, c, rfl, ho, hc, sub, hsub, hne, hall, hl⟩
    · obtain ⟨x, hx⟩ := hp t (by simp [Formula.atoms])
      refine ⟨.test x, ?_, trivial, by simp [Formula.atoms, Node.leaves, hx]⟩
      intro rest pre cur
      simp only [List.cons_append, List.nil_append]
      rw [PS_word hw, hx]; simp only [appendLast_append]
    · refine ⟨.or (sub.map .and), ?_, ⟨by simpa using hne, solidAll_and hall⟩, by simpa [Node.leaves] using hl⟩
      intro rest pre cur
      have e : o :: us ++ [c] ++ rest = o :: (us ++ c :: rest) := by simp
      rw [e, PS_open ho, hsub]
      simp only [afterSub, appendLast_append]
  | @neg n ts f hn _ ih =>
    have hn' := isNot_iff.2 hn
    rcases ih hp with ⟨t, rfl, rfl, hw⟩ | ⟨o, us, c, rfl, ho, hc, sub, hsub, hne, hall, hl⟩
    · obtain ⟨x, hx⟩ := hp t (by simp [Formula.atoms])
      refine ⟨.not [.and [.test x]], ?_, by simp [Node.Solid, SolidAll], by simp [Formula.atoms, Node.leaves, leavesOf, hx]⟩
      intro rest pre cur
      simp only [List.cons_append, List.nil_append]
      rw [PS_not_word hn' hw, hx]; simp only [appendLast_append]
    · refine ⟨.not (sub.map .and), ?_, ⟨by simpa using hne, solidAll_and hall⟩, by simpa [Node.leaves, Formula.atoms] using hl⟩
      intro rest pre cur
      have e : n :: (o :: us ++ [c]) ++ rest = n :: o :: (us ++ c :: rest) := by simp
      rw [e, PS_not_open hn' ho, hsub]
      simp only [afterSub, appendLast_append]
  | @item ts f _ ih =>
    obtain ⟨n, h1, h2, h3⟩ := ih hp
    exact ⟨[n], by simp, h1, by simp [SolidAll, h2], by simpa [leavesOf] using h3⟩
  | @andBefore a ts f ha _ ih =>
    obtain ⟨ns, hne, h1, h2⟩ := ih hp
    refine ⟨ns, hne, ?_, h2⟩
    intro rest pre cur
    rw [List.cons_append, PS_and (isAnd_iff.2 ha), h1]
  | @andAfter a ts f ha _ ih =>
    obtain ⟨ns, hne, h1, h2⟩ := ih hp
    refine ⟨ns, hne, ?_, h2⟩
    intro rest pre cur
    rw [List.append_assoc, h1, List.singleton_append, PS_and (isAnd_iff.2 ha)]
  | @conj ts us f g _ _ ih1 ih2 =>
    obtain ⟨ns, hne, h1, h2, h3⟩ := ih1 (fun t ht => hp t (by simp [Formula.atoms, ht]))
    obtain ⟨ms, hne', h1', h2', h3'⟩ := ih2 (fun t ht => hp t (by simp [Formula.atoms, ht]))
    refine ⟨ns ++ ms, by simp [hne], ?_, ?_, ?_⟩
    · intro rest pre cur
      rw [List.append_assoc, h1, h1', List.append_assoc]
    · rw [solidAll_iff] at *
      intro n hn
      rcases List.mem_append.1 hn with hn | hn
      · exact h2 n hn
      · exact h2' n hn
    · simp only [Formula.atoms, List.map_append, leavesOf_append, h3, h3']
  | @single ts f _ ih =>
    obtain ⟨ns, hne, h1, h2, h3⟩ := ih hp
    refine ⟨[ns], by simp, by simpa using ⟨hne, h2⟩, ?_, by simpa [leavesOf, Node.leaves] using h3⟩
    intro rest pre; rw [h1]; simp
  | @disj ts o us f g _ ho _ ih1 ih2 =>
    obtain ⟨qs, hne, hall, h1, h2⟩ := ih1 (fun t ht => hp t (by simp [Formula.atoms, ht]))
    obtain ⟨ps, hne', hall', h1', h2'⟩ := ih2 (fun t ht => hp t (by simp [Formula.atoms, ht]))
    refine ⟨qs ++ ps, by simp [hne], ?_, ?_, ?_⟩
    · intro l hl; rcases List.mem_append.1 hl with h | h
      · exact hall l h
      · exact hall' l h
    · intro rest pre
      rw [List.append_assoc, h1, List.cons_append, PS_or (isOr_iff.2 ho), h1', List.append_assoc]
    · simp only [Formula.atoms, List.map_append, leavesOf_append, h2, h2']

theorem parse_shape (pt : Str → Except PErr T) {ts : List Str} {f : Formula} (h : Derives .disj ts f) (hp : ∀ t ∈ f.atoms, ∃ x, pt t = .ok x) :
    ∃ qs : List (List (Node T)), parse pt ts = .ok qs ∧ qs ≠ [] ∧ (∀ l ∈ qs, l ≠ [] ∧ SolidAll l) ∧ f.atoms.map pt = (leavesOf (qs.map .and)).map .ok := by
  obtain ⟨qs, hne, hall, h1, h2⟩ := derives_shape pt h hp
  refine ⟨qs, ?_, hne, hall, h2⟩
  have hps := h1 [] []
  simp only [List.append_nil, List.nil_append] at hps
  rw [parse_eq, hps, PS_nil, if_neg]
  simp only [Bool.and_eq_true, decide_eq_true_eq, List.any_eq_true, List.isEmpty_iff, not_and, not_exists]
  intro _ l hl hnil; exact (hall l hl).1 hnil

/-! ### Sorting keeps the shape -/

theorem leavesOf_perm {l m : List (Node T)} (h : l.Perm m) : (leavesOf l).Perm (leavesOf m) := by
  rw [leavesOf_eq, leavesOf_eq]; exact (h.map _).flatten

mutual
theorem leaves_optimizeNode (speed : T → Nat) : ∀ n : Node T, (optimizeNode speed n).leaves.Perm n.leaves
  | .test t => by rw [optimizeNode]
  | .and l => by
    rw [optimizeNode, Node.leaves, Node.leaves]
    exact (leavesOf_perm (sorted_pairs_perm _)).trans (leaves_optimizePairs speed l)
  | .or l => by
    rw [optimizeNode, Node.leaves, Node.leaves]
    exact (leavesOf_perm (sorted_pairs_perm _)).trans (leaves_optimizePairs speed l)
  | .not l => by
    rw [optimizeNode, Node.leaves, Node.leaves]
    exact (leavesOf_perm (sorted_pairs_perm _)).trans (leaves_optimizePairs speed l)
theorem leaves_optimizePairs (speed : T → Nat) : ∀ l : List (Node T), (leavesOf ((optimizePairs speed l).map Prod.snd)).Perm (leavesOf l)
  | [] => by simp [optimizePairs, leavesOf]
  | n :: ns => by
    simp only [optimizePairs, List.map_cons, leavesOf]
    exact (leaves_optimizeNode speed n).append (leaves_optimizePairs speed ns)
end

theorem solidAll_perm {l m : List (Node T)} (h : l.Perm m) (hs : SolidAll m) : SolidAll l := by
  rw [solidAll_iff] at *
  exact fun n hn => hs n (h.mem_iff.1 hn)

mutual
theorem solid_optimizeNode (speed : T → Nat) : ∀ n : Node T, n.Solid → (optimizeNode speed n).Solid
  | .test t, h => by rw [optimizeNode]; exact h
  | .and l, h => by
    rw [optimizeNode]
    exact ⟨fun hc => h.1 ((optimized_list_nil_iff speed l).1 hc), solidAll_perm (sorted_pairs_perm _) (solid_optimizePairs speed l h.2)⟩
  | .or l, h => by
    rw [optimizeNode]
    exact ⟨fun hc => h.1 ((optimized_list_nil_iff speed l).1 hc), solidAll_perm (sorted_pairs_perm _) (solid_optimizePairs speed l h.2)⟩
  | .not l, h => by
    rw [optimizeNode]
    exact ⟨fun hc => h.1 ((optimized_list_nil_iff speed l).1 hc), solidAll_perm (sorted_pairs_perm _) (solid_optimizePairs speed l h.2)⟩
theorem solid_optimizePairs (speed : T → Nat) : ∀ l : List (Node T), SolidAll l → SolidAll ((optimizePairs speed l).map Prod.snd)
  | [], _ => by simp [optimizePairs, SolidAll]
  | n :: ns, h => by
    simp only [optimizePairs, List.map_cons]
    exact ⟨solid_optimizeNode speed n h.1, solid_optimizePairs speed ns h.2⟩
end

theorem leaves_optimizeTop (speed : T → Nat) (seqs : List (List (Node T))) :
    (leavesOf ((optimizeTop speed seqs).map .and)).Perm (leavesOf (seqs.map .and)) := by
  refine (leavesOf_perm ((optimizeTop_perm speed seqs).map _)).trans ?_
  rw [leavesOf_eq, leavesOf_eq, List.map_map, List.map_map, List.map_map]
  apply flatten_perm_of_forall
  intro l
  simp only [Function.comp_def, Node.leaves]
  exact (leavesOf_perm (sorted_pairs_perm _)).trans (leaves_optimizePairs speed l)

theorem solid_optimizeTop (speed : T → Nat) {seqs : List (List (Node T))} (h : ∀ l ∈ seqs, l ≠ [] ∧ SolidAll l) :
    ∀ l ∈ optimizeTop speed seqs, l ≠ [] ∧ SolidAll l := by
  intro l hl
  obtain ⟨m, hm, rfl⟩ := List.mem_map.1 ((optimizeTop_perm speed seqs).mem_iff.1 hl)
  exact ⟨fun hc => (h m hm).1 ((optimized_list_nil_iff speed m).1 hc), solidAll_perm (sorted_pairs_perm _) (solid_optimizePairs speed m (h m hm).2)⟩

theorem matcherAsk_fst (seqs : List (List (Node T))) (env : T → Option Bool) : (matcherAsk seqs env).1 = matcherTest seqs env := by
  unfold matcherAsk matcherTest
  split
  · rfl
  · exact (askUntil_fst env _).2

/-! ### C118 -/

/-- C118: the tests that have been made settle the result: whatever the other tests were, it would be the same. -/
theorem C118_enough (pt : Str → Except PErr T) (speed : T → Nat) (ts : List Str) (env env' : T → Option Bool) (b : Bool) (asked : List T)
    (h : matcherAsks pt speed ts env = .ok (b, asked)) (ha : AgreeOn env env' asked) :
    matcher pt speed ts env = .ok b ∧ matcher pt speed ts env' = .ok b := by
  simp only [matcherAsks, matcher] at *
  cases hi : parserInit pt speed ts with
  | error e => rw [hi] at h; cases h
  | ok seqs =>
    rw [hi] at h
    simp only [Except.ok.injEq] at h ⊢
    have e1 := matcherAsk_fst seqs env
    have e2 : matcherAsk seqs env' = matcherAsk seqs env := by
      unfold matcherAsk at h ⊢
      split
      · rfl
      · rename_i hf
        rw [if_neg hf] at h
        exact askUntil_congr env env' true _ (by rw [h]; exact ha)
    rw [← matcherAsk_fst, ← matcherAsk_fst, e2, h]
    exact ⟨rfl, rfl⟩

/-- C118: no test is made that is not needed. If the tests of a query are different from each other, then whenever a test is made the tests before it have not
settled the result: the entry could still be selected, and it could still not be, as far as these tests are concerned. -/
theorem C118_needed (pt : Str → Except PErr T) (speed : T → Nat) (ts : List Str) (f : Formula) (hf : Derives .disj ts f)
    (xs : List T) (hx : f.atoms.map pt = xs.map .ok) (hd : xs.Nodup) (env : T → Option Bool) (b : Bool) (pre : List T) (t : T) (post : List T)
    (h : matcherAsks pt speed ts env = .ok (b, pre ++ t :: post)) :
    ∀ b', ∃ env', AgreeOn env env' pre ∧ f.eval (wordTrue pt env') = b' := by
  have hp : ∀ w ∈ f.atoms, ∃ x, pt w = .ok x := by
    intro w hw
    have : pt w ∈ xs.map Except.ok := by rw [← hx]; exact List.mem_map.2 ⟨w, hw, rfl⟩
    obtain ⟨x, _, hx⟩ := List.mem_map.1 this
    exact ⟨x, hx.symm⟩
  obtain ⟨qs, hps, hne, hall, hl⟩ := parse_shape pt hf hp
  have hxs : xs = leavesOf (qs.map .and) := by
    have := hx.symm.trans hl
    exact (List.map_inj_right (fun a b hab => by simpa using hab)).1 this
  intro b'
  have hm : ∀ e, matcher pt speed ts e = .ok (f.eval (wordTrue pt e)) := fun e => C01_boolean_semantics pt speed ts f hf hp e
  simp only [matcherAsks, matcher, parserInit, hps, Except.ok.injEq] at h hm
  have hfe : filterEmpty (optimizeTop speed qs) = false := by
    rw [filterEmpty_optimizeTop, filterEmpty]
    obtain ⟨q, qs', rfl⟩ := List.exists_cons_of_ne_nil hne
    have := (hall q (by simp)).1
    simp [this]
  simp only [matcherAsk, hfe, Bool.false_eq_true, if_false] at h
  have hop := askUntil_open env true ((optimizeTop speed qs).map .and) pre t post (solidAll_and (solid_optimizeTop speed hall))
    ((leaves_optimizeTop speed qs).nodup_iff.2 (hxs ▸ hd)) (by rw [h]) b'
  obtain ⟨e, _, h2, h3⟩ := hop
  refine ⟨e, fun u hu => by simp only [Holds]; rw [h2 u hu], ?_⟩
  rw [← hm e, matcherTest, hfe, if_neg (by simp), ← (askUntil_fst e _).2]
  exact h3

/-- C118: at least one test is made for an entry, and every test is made once at most. -/
theorem C118_once (pt : Str → Except PErr T) (speed : T → Nat) (ts : List Str) (f : Formula) (hf : Derives .disj ts f)
    (xs : List T) (hx : f.atoms.map pt = xs.map .ok) (env : T → Option Bool) (b : Bool) (asked : List T)
    (h : matcherAsks pt speed ts env = .ok (b, asked)) : asked ≠ [] ∧ ∃ order, order.Perm xs ∧ asked.Sublist order := by
  have hp : ∀ w ∈ f.atoms, ∃ x, pt w = .ok x := by
    intro w hw
    have : pt w ∈ xs.map Except.ok := by rw [← hx]; exact List.mem_map.2 ⟨w, hw, rfl⟩
    obtain ⟨x, _, hx⟩ := List.mem_map.1 this
    exact ⟨x, hx.symm⟩
  obtain ⟨qs, hps, hne, hall, hl⟩ := parse_shape pt hf hp
  have hxs : xs = leavesOf (qs.map .and) := by
    have := hx.symm.trans hl
    exact (List.map_inj_right (fun a b hab => by simpa using hab)).1 this
  have hfe : filterEmpty (optimizeTop speed qs) = false := by
    rw [filterEmpty_optimizeTop, filterEmpty]
    obtain ⟨q, qs', rfl⟩ := List.exists_cons_of_ne_nil hne
    have := (hall q (by simp)).1
    simp [this]
  simp only [matcherAsks, parserInit, hps, Except.ok.injEq, matcherAsk, hfe, Bool.false_eq_true, if_false] at h
  have hne' : (optimizeTop speed qs).map Node.and ≠ [] := by
    have := (optimizeTop_perm speed qs).length_eq
    intro hc
    have h0 := congrArg List.length hc
    simp only [List.length_map, List.length_nil] at h0 this
    exact hne (List.length_eq_zero_iff.1 (by omega))
  refine ⟨?_, leavesOf ((optimizeTop speed qs).map .and), hxs ▸ leaves_optimizeTop speed qs, ?_⟩
  · have := askUntil_ne_nil env true _ hne' (solidAll_and (solid_optimizeTop speed hall))
    rwa [h] at this
  · have := askUntil_sublist env true ((optimizeTop speed qs).map .and)
    rwa [h] at this

/-! ### Tests side by side, alternatives -/

theorem PS_words (pt : Str → Except PErr T) : ∀ (ws : List Str) (xs : List T) (rest : List Str) (pre : List (List (Node T))) (cur : List (Node T)),
    (∀ w ∈ ws, Word w) → ws.map pt = xs.map .ok → PS pt (ws ++ rest) (pre ++ [cur]) = PS pt rest (pre ++ [cur ++ xs.map .test])
  | [], xs, rest, pre, cur, _, hx => by
    have : xs = [] := by cases xs <;> simp_all
    simp [this]
  | w :: ws, xs, rest, pre, cur, hw, hx => by
    cases xs with
    | nil => simp at hx
    | cons x xs =>
      simp only [List.map_cons, List.cons.injEq] at hx
      rw [List.cons_append, PS_word (hw w (by simp)), hx.1]
      simp only [appendLast_append]
      have := PS_words pt ws xs rest pre (cur ++ [Node.test x]) (fun w hw' => hw w (by simp [hw'])) hx.2
      simpa using this

theorem PS_alternatives (pt : Str → Except PErr T) (or' : Str) (ho : Kw "OR" or') : ∀ (gs : List (List Str)) (xss : List (List T)) (pre : List (List (Node T))),
    gs ≠ [] → (∀ g ∈ gs, ∀ w ∈ g, Word w) → gs.map (·.map pt) = xss.map (·.map .ok) →
    PS pt (alternatives or' gs) (pre ++ [[]]) = PS pt [] (pre ++ xss.map (·.map .test))
  | [], _, _, h, _, _ => absurd rfl h
  | [g], xss, pre, _, hw, hx => by
    match xss, hx with
    | [], hx => simp at hx
    | [xs], hx =>
      have := PS_words pt g xs [] pre [] (hw g (by simp)) (by simpa using hx)
      simpa [alternatives] using this
    | _ :: _ :: _, hx => simp at hx
  | g :: g2 :: gs, xss, pre, _, hw, hx => by
    cases xss with
    | nil => simp at hx
    | cons xs xss =>
      have hx : g.map pt = xs.map .ok ∧ (g2 :: gs).map (·.map pt) = xss.map (·.map .ok) := by
        rw [List.map_cons, List.map_cons (l := xss)] at hx
        exact List.cons.inj hx
      simp only [alternatives]
      rw [PS_words pt g xs _ pre [] (hw g (by simp)) hx.1, PS_or (isOr_iff.2 ho),
        PS_alternatives pt or' ho (g2 :: gs) xss _ (by simp) (fun g hg => hw g (by simp [hg])) hx.2]
      simp

theorem sorted_pairs_map {α β : Type} (key : α → Nat) (f : α → β) (l : List α) :
    (pySortKey (· ≤ ·) Prod.fst false (l.map fun a => (key a, f a))).map Prod.snd = (pySortKey (· ≤ ·) key false l).map f := by
  simp only [pySortKey, Bool.false_eq_true, if_false]
  have h := pySort_map (fun a b : Nat × β => decide (a.1 ≤ b.1)) (fun a => (key a, f a)) l
  rw [h, List.map_map]
  rfl

theorem speedSum_tests (speed : T → Nat) (xs : List T) : speedSum speed (xs.map .test) = (xs.map speed).sum := by
  induction xs with
  | nil => rfl
  | cons x xs ih => simp [speedSum, speedScore, ih]

theorem optimizeTop_tests (speed : T → Nat) (xss : List (List T)) : optimizeTop speed (xss.map (·.map .test)) =
    (pySortKey (· ≤ ·) (fun xs => (xs.map speed).sum) false xss).map fun xs => (pySortKey (· ≤ ·) speed false xs).map .test := by
  unfold optimizeTop
  rw [List.map_map]
  have e : ((fun l : List (Node T) => (speedSum speed l, (pySortKey (· ≤ ·) Prod.fst false (optimizePairs speed l)).map Prod.snd)) ∘ fun x : List T => x.map .test)
      = fun xs => ((xs.map speed).sum, (pySortKey (· ≤ ·) speed false xs).map .test) := by
    funext xs
    simp only [Function.comp_def, speedSum_tests, optimizePairs_tests, sorted_pairs_map]
  rw [e]
  exact sorted_pairs_map (fun xs : List T => (xs.map speed).sum) (fun xs => (pySortKey (· ≤ ·) speed false xs).map Node.test) xss

theorem ranked_sort {α : Type} (rank : α → Nat) (l : List α) : Ranked rank l (pySortKey (· ≤ ·) rank false l) := by
  have ht : TotalPre (fun a b : α => decide (rank a ≤ rank b)) :=
    ⟨fun a b => by simp only [decide_eq_true_eq]; omega, fun a b c => by simp only [decide_eq_true_eq]; omega⟩
  simp only [pySortKey, Bool.false_eq_true, if_false]
  refine ⟨pySort_perm _ _, (pySort_sorted ht l).imp (by simp), ?_⟩
  intro k
  by_cases hk : ∃ c ∈ l, rank c = k
  · obtain ⟨c, _, rfl⟩ := hk
    have := pySort_stable ht c l
    have e : (fun a => decide (rank a = rank c)) = eqv (fun a b : α => decide (rank a ≤ rank b)) c := by
      funext a
      rw [Bool.eq_iff_iff]
      simp only [eqv, decide_eq_true_eq, Bool.and_eq_true]; omega
    rw [e]; exact this
  · have e : ∀ m : List α, m.Perm l → m.filter (fun a => decide (rank a = k)) = [] := by
      intro m hm
      rw [List.filter_eq_nil_iff]
      intro a ha
      simp only [decide_eq_true_eq]
      exact fun hc => hk ⟨a, hm.mem_iff.1 ha, hc⟩
    rw [e _ (pySort_perm _ _), e _ (.refl _)]

theorem askUntil_stop {env : T → Option Bool} {stop : Bool} {n : Node T} (ns : List (Node T)) (h : (askNode env n).1 = stop) :
    askUntil env stop (n :: ns) = (stop, (askNode env n).2) := by rw [askUntil, if_pos h]

theorem askUntil_go {env : T → Option Bool} {stop : Bool} {n : Node T} (ns : List (Node T)) (h : ¬ (askNode env n).1 = stop) :
    askUntil env stop (n :: ns) = ((askUntil env stop ns).1, (askNode env n).2 ++ (askUntil env stop ns).2) := by rw [askUntil, if_neg h]

theorem askTests (env : T → Option Bool) (l : List T) : UpTo (fun t => ¬ Holds env t) l (askUntil env false (l.map .test)).2 := by
  induction l with
  | nil => exact ⟨[], by simp [askUntil], by simp [askUntil], by simp⟩
  | cons x l ih =>
    obtain ⟨rest, h1, h2, h3⟩ := ih
    rw [List.map_cons]
    cases hx : env x with
    | none => rw [askUntil_stop _ (by simp [askNode, hx])]; exact ⟨l, by simp [askNode], by simp [askNode], by simp [askNode, Holds, hx]⟩
    | some b => cases b with
      | false => rw [askUntil_stop _ (by simp [askNode, hx])]; exact ⟨l, by simp [askNode], by simp [askNode], by simp [askNode, Holds, hx]⟩
      | true =>
        rw [askUntil_go _ (by simp [askNode, hx])]
        simp only [askNode, List.singleton_append]
        refine ⟨rest, by simp [← h1], ?_, ?_⟩
        · intro a ha
          cases hl : (askUntil env false (l.map .test)).2 with
          | nil => rw [hl] at ha; simp at ha
          | cons y ys =>
            rw [hl, List.dropLast_cons₂, List.mem_cons] at ha
            rcases ha with rfl | ha
            · simp [Holds, hx]
            · exact h2 a (by rw [hl]; exact ha)
        · intro hr
          obtain ⟨a, ha, hn⟩ := h3 hr
          refine ⟨a, ?_, hn⟩
          cases hl : (askUntil env false (l.map .test)).2 with
          | nil => rw [hl] at ha; simp at ha
          | cons y ys => rw [hl] at ha; rw [List.getLast?_cons_cons]; exact ha

theorem Spec.UpTo.before {α : Type} {p : α → Prop} {order asked : List α} (h : UpTo p order asked) {x : α} (hx : x ∈ asked) :
    ∃ l m, order = l ++ x :: m ∧ ∀ y ∈ l, ¬ p y := by
  obtain ⟨rest, rfl, h2, _⟩ := h
  obtain ⟨l, m, rfl⟩ := List.append_of_mem hx
  refine ⟨l, m ++ rest, by simp, fun y hy => h2 y ?_⟩
  rw [List.dropLast_append_of_ne_nil (by simp)]
  exact List.mem_append_left _ hy

theorem askAlternatives (env : T → Option Bool) (g : List T → List T) : ∀ (order : List (List T)) (x : T),
    x ∈ (askUntil env true (order.map fun xs => .and ((g xs).map .test))).2 →
    ∃ l xs m, order = l ++ xs :: m ∧ x ∈ (askUntil env false ((g xs).map .test)).2 ∧ ∀ ys ∈ l, ∃ y ∈ g ys, ¬ Holds env y
  | [], x, h => by simp [askUntil] at h
  | xs :: order, x, h => by
    rw [List.map_cons] at h
    by_cases hv : (askNode env (.and ((g xs).map .test))).1 = true
    · rw [askUntil_stop _ hv] at h
      exact ⟨[], xs, order, rfl, h, by simp⟩
    · rw [askUntil_go _ hv] at h
      rcases List.mem_append.1 h with h | h
      · exact ⟨[], xs, order, rfl, h, by simp⟩
      · obtain ⟨l, zs, m, h1, h2, h3⟩ := askAlternatives env g order x h
        refine ⟨xs :: l, zs, m, by simp [h1], h2, ?_⟩
        intro ys hys
        rcases List.mem_cons.1 hys with rfl | hys
        · rw [askNode, (askUntil_fst env _).1, evalAll_eq_all, Bool.not_eq_true, List.all_eq_false] at hv
          obtain ⟨n, hn, hv⟩ := hv
          obtain ⟨y, hy, rfl⟩ := List.mem_map.1 hn
          refine ⟨y, hy, fun hc => hv ?_⟩
          simp only [evalNode]
          rw [show env y = some true from hc]
        · exact h3 ys hys

theorem parse_alternatives (pt : Str → Except PErr T) (or' : Str) (ho : Kw "OR" or') (gs : List (List Str)) (xss : List (List T))
    (hne : gs ≠ []) (hg : ∀ g ∈ gs, g ≠ [] ∧ ∀ w ∈ g, Word w) (hx : gs.map (·.map pt) = xss.map (·.map .ok)) :
    parse pt (alternatives or' gs) = .ok (xss.map (·.map .test)) ∧ xss ≠ [] ∧ ∀ xs ∈ xss, xs ≠ [] := by
  have hxs : ∀ xs ∈ xss, xs ≠ [] := by
    intro xs h hc
    have : xs.map Except.ok ∈ gs.map (·.map pt) := by rw [hx]; exact List.mem_map.2 ⟨xs, h, rfl⟩
    obtain ⟨g, hg', he⟩ := List.mem_map.1 this
    rw [hc] at he
    exact (hg g hg').1 (by simpa using he)
  have hxne : xss ≠ [] := by
    rintro rfl
    exact hne (by simpa using hx)
  refine ⟨?_, hxne, hxs⟩
  have h := PS_alternatives pt or' ho gs xss [] hne (fun g h => (hg g h).2) hx
  simp only [List.nil_append] at h
  rw [parse_eq, h, PS_nil, if_neg]
  simp only [Bool.and_eq_true, decide_eq_true_eq, List.any_eq_true, List.isEmpty_iff, not_and, not_exists]
  intro _ l hl hc
  obtain ⟨xs, hx', rfl⟩ := List.mem_map.1 hl
  exact hxs xs hx' (by simpa using hc)

theorem asks_alternatives (pt : Str → Except PErr T) (speed : T → Nat) (or' : Str) (ho : Kw "OR" or') (gs : List (List Str)) (xss : List (List T))
    (hne : gs ≠ []) (hg : ∀ g ∈ gs, g ≠ [] ∧ ∀ w ∈ g, Word w) (hx : gs.map (·.map pt) = xss.map (·.map .ok)) (env : T → Option Bool) :
    matcherAsks pt speed (alternatives or' gs) env = .ok (askUntil env true
      ((pySortKey (· ≤ ·) (fun xs => (xs.map speed).sum) false xss).map fun xs => .and ((pySortKey (· ≤ ·) speed false xs).map .test))) := by
  obtain ⟨h1, h2, h3⟩ := parse_alternatives pt or' ho gs xss hne hg hx
  simp only [matcherAsks, parserInit, h1, Except.ok.injEq, matcherAsk]
  rw [if_neg, optimizeTop_tests, List.map_map]
  · rfl
  · rw [filterEmpty_optimizeTop, filterEmpty]
    obtain ⟨q, qs', rfl⟩ := List.exists_cons_of_ne_nil h2
    have := h3 q (by simp)
    simp [this]

/-- C118: tests side by side are made in the order of their speed, those with the same speed as they are written, until one of them fails. -/
theorem C118_order (pt : Str → Except PErr T) (speed : T → Nat) (ws : List Str) (xs : List T) (hne : ws ≠ []) (hw : ∀ w ∈ ws, Word w)
    (hx : ws.map pt = xs.map .ok) (env : T → Option Bool) :
    ∃ b order asked, matcherAsks pt speed ws env = .ok (b, asked) ∧ Ranked speed xs order ∧ UpTo (fun t => ¬ Holds env t) order asked := by
  have h := asks_alternatives pt speed "OR".toList (isOr_iff.1 (by decide)) [ws] [xs] (by simp) (by simpa using ⟨hne, hw⟩) (by simpa using hx) env
  simp only [alternatives] at h
  have e : pySortKey (fun a b : Nat => decide (a ≤ b)) (fun xs : List T => (xs.map speed).sum) false [xs] = [xs] := rfl
  rw [e] at h
  have hu := askTests env (pySortKey (· ≤ ·) speed false xs)
  by_cases hv : (askNode env (.and ((pySortKey (fun a b : Nat => decide (a ≤ b)) speed false xs).map .test))).1 = true
  · rw [List.map_cons, List.map_nil, askUntil_stop _ hv] at h
    exact ⟨_, _, _, h, ranked_sort speed xs, hu⟩
  · rw [List.map_cons, List.map_nil, askUntil_go _ hv] at h
    exact ⟨_, _, _, h, ranked_sort speed xs, by simpa [askUntil, askNode] using hu⟩

theorem excludeTests (env : T → Option Bool) (l : List T) : UpTo (Holds env) l (excludeAsk env (l.map .test)) := by
  induction l with
  | nil => exact ⟨[], by simp [excludeAsk], by simp [excludeAsk], by simp⟩
  | cons x l ih =>
    obtain ⟨rest, h1, h2, h3⟩ := ih
    rw [List.map_cons, excludeAsk]
    by_cases hx : env x = some true
    · rw [if_pos hx]; exact ⟨l, by simp, by simp, by simp [Holds, hx]⟩
    · rw [if_neg hx]
      refine ⟨rest, by simp [← h1], ?_, ?_⟩
      · intro a ha
        cases hl : excludeAsk env (l.map .test) with
        | nil => rw [hl] at ha; simp at ha
        | cons y ys =>
          rw [hl, List.dropLast_cons₂, List.mem_cons] at ha
          rcases ha with rfl | ha
          · exact hx
          · exact h2 a (by rw [hl]; exact ha)
      · intro hr
        obtain ⟨a, ha, hn⟩ := h3 hr
        refine ⟨a, ?_, hn⟩
        cases hl : excludeAsk env (l.map .test) with
        | nil => rw [hl] at ha; simp at ha
        | cons y ys => rw [hl] at ha; rw [List.getLast?_cons_cons]; exact ha

theorem excludeLoop_asked (env : T → Option Bool) (l : List T) :
    ∃ b, excludeLoop env (l.map .test) = some b ∧ (b = true ↔ ∃ t ∈ excludeAsk env (l.map .test), Holds env t) := by
  induction l with
  | nil => exact ⟨false, rfl, by simp [excludeAsk]⟩
  | cons x l ih =>
    obtain ⟨b, h1, h2⟩ := ih
    rw [List.map_cons, excludeLoop, excludeAsk]
    cases hx : env x with
    | none => exact ⟨b, by simpa using h1, by simp [h2, Holds, hx]⟩
    | some c => cases c with
      | false => exact ⟨b, by simpa using h1, by simp [h2, Holds, hx]⟩
      | true => exact ⟨true, rfl, by simp [Holds, hx]⟩

/-- C118: exclude tests are made in the order of their speed, those with the same speed as they are written, until one of them holds; an entry is excluded if that
happens. -/
theorem C118_exclude (pt : Str → Except PErr T) (speed : T → Nat) (ws : List Str) (xs : List T) (hne : ws ≠ []) (hw : ∀ w ∈ ws, Word w)
    (hx : ws.map pt = xs.map .ok) (env : T → Option Bool) :
    ∃ b order asked, excluder pt speed ws env = .ok (some b) ∧ (b = true ↔ ∃ t ∈ asked, Holds env t) ∧
      excluderAsks pt speed ws env = .ok asked ∧ Ranked speed xs order ∧ UpTo (Holds env) order asked := by
  obtain ⟨h1, _, h3⟩ := parse_alternatives pt "OR".toList (isOr_iff.1 (by decide)) [ws] [xs] (by simp) (by simpa using ⟨hne, hw⟩) (by simpa using hx)
  simp only [alternatives] at h1
  have e : pySortKey (fun a b : Nat => decide (a ≤ b)) (fun xs : List T => (xs.map speed).sum) false [xs] = [xs] := rfl
  have hfe : filterEmpty (optimizeTop speed ([xs].map (·.map Node.test))) = false := by
    rw [filterEmpty_optimizeTop, filterEmpty]
    have := h3 xs (by simp)
    simp [this]
  obtain ⟨b, hb, hi⟩ := excludeLoop_asked env (pySortKey (· ≤ ·) speed false xs)
  refine ⟨b, pySortKey (· ≤ ·) speed false xs, _, ?_, hi, ?_, ranked_sort speed xs, excludeTests env _⟩
  · simp only [excluder, parserInit, h1, Except.ok.injEq, excluderTest, hfe, Bool.false_eq_true, if_false]
    rw [optimizeTop_tests, e]
    simpa using hb
  · simp only [excluderAsks, parserInit, h1, Except.ok.injEq, hfe, Bool.false_eq_true, if_false]
    rw [optimizeTop_tests, e]
    simp

/-- C118, for queries without brackets and NOT: a test is made for an entry only if all faster tests of the same alternative hold, and if each alternative
whose tests take less time in total has a test that fails. -/
theorem C118_slow_partial (pt : Str → Except PErr T) (speed : T → Nat) (or' : Str) (ho : Kw "OR" or') (gs : List (List Str)) (xss : List (List T))
    (hne : gs ≠ []) (hg : ∀ g ∈ gs, g ≠ [] ∧ ∀ w ∈ g, Word w) (hx : gs.map (·.map pt) = xss.map (·.map .ok)) (env : T → Option Bool) :
    ∃ b asked, matcherAsks pt speed (alternatives or' gs) env = .ok (b, asked) ∧
      ∀ x ∈ asked, ∃ xs ∈ xss, x ∈ xs ∧ (∀ y ∈ xs, speed y < speed x → Holds env y) ∧
        ∀ ys ∈ xss, (ys.map speed).sum < (xs.map speed).sum → ∃ y ∈ ys, ¬ Holds env y := by
  refine ⟨_, _, asks_alternatives pt speed or' ho gs xss hne hg hx env, ?_⟩
  intro x hx'
  obtain ⟨l, xs, m, h1, h2, h3⟩ := askAlternatives env (fun xs => pySortKey (· ≤ ·) speed false xs) _ x hx'
  have r := ranked_sort (fun xs : List T => (xs.map speed).sum) xss
  have r' := ranked_sort speed xs
  rw [h1] at r
  refine ⟨xs, r.all.mem_iff.1 (by simp), ?_, ?_, ?_⟩
  · obtain ⟨rest, hr, _⟩ := askTests env (pySortKey (· ≤ ·) speed false xs)
    exact r'.all.mem_iff.1 (by rw [hr]; exact List.mem_append_left _ h2)
  · intro y hy hlt
    obtain ⟨a, b, hab, hbefore⟩ := (askTests env (pySortKey (· ≤ ·) speed false xs)).before h2
    rw [hab] at r'
    have hy' := r'.all.mem_iff.2 hy
    rcases List.mem_append.1 hy' with hy' | hy'
    · exact Classical.not_not.1 (hbefore y hy')
    · rcases List.mem_cons.1 hy' with rfl | hy'
      · omega
      · have := (List.pairwise_append.1 r'.first).2.1
        have := (List.pairwise_cons.1 this).1 y hy'
        omega
  · intro ys hys hlt
    have hy' := r.all.mem_iff.2 hys
    rcases List.mem_append.1 hy' with hy' | hy'
    · obtain ⟨y, hy, hn⟩ := h3 ys hy'
      exact ⟨y, (ranked_sort speed ys).all.mem_iff.1 hy, hn⟩
    · rcases List.mem_cons.1 hy' with rfl | hy'
      · omega
      · have := (List.pairwise_append.1 r.first).2.1
        have h9 : (xs.map speed).sum ≤ (ys.map speed).sum := (List.pairwise_cons.1 this).1 ys hy'
        omega

/-- C118 is false for brackets: the speed of a bracket is the sum of the speeds of its tests, so the slow test of `( a or b or c ) slow` is made although the bracket
fails, and before it (normal tests have speed 1, slow ones 2). -/
theorem C118_brackets_false :
    matcherAsks (fun w => .ok w) (fun w => if w = "slow".toList then 2 else 1) (["(", "a", "or", "b", "or", "c", ")", "slow"].map String.toList)
      (fun w => some (w = "slow".toList)) = .ok (false, ["slow", "a", "b", "c"].map String.toList) := by
  decide +kernel

/-- The same for alternatives: `slow` is made although the fast tests of the other alternative hold. -/
theorem C118_alternatives_false :
    matcherAsks (fun w => .ok w) (fun w => if w = "slow".toList then 2 else 1) (["a", "b", "c", "or", "slow"].map String.toList)
      (fun w => some (w ≠ "slow".toList)) = .ok (true, ["slow", "a", "b", "c"].map String.toList) := by
  decide +kernel

-- One fast, one normal, one slow test; the normal one fails, so the slow one is not made.
example : matcherAsks (fun w => .ok w) (fun w => w.length) (["slow", "n", "ok"].map String.toList) (fun w => some (w ≠ "ok".toList)) =
    .ok (false, ["n", "ok"].map String.toList) := by decide +kernel
-- A query with brackets whose tests are different.
example : ∃ f : Formula, Derives .disj (["(", "a", "OR", "b", ")", "c"].map String.toList) f ∧
    f.atoms.map samplePt = (["a", "b", "c"].map String.toList).map .ok ∧ (["a", "b", "c"].map String.toList).Nodup := by
  have w : ∀ s : String, s ∈ ["a", "b", "c"] → Derives .conj [s.toList] (.atom s.toList) := by
    intro s hs
    refine .item (.prim (.atom ?_))
    rw [word_iff]
    simp at hs
    rcases hs with rfl | rfl | rfl <;> decide
  refine ⟨.conj (.disj (.atom "a".toList) (.atom "b".toList)) (.atom "c".toList), ?_, by decide, by decide⟩
  refine .single (.conj (ts := ["(", "a", "OR", "b", ")"].map String.toList) (us := [_]) (.item (.prim ?_)) (w "c" (by simp)))
  exact .group (o := "(".toList) (c := ")".toList) (ts := ["a", "OR", "b"].map String.toList) (isOpen_iff.1 (by decide)) (isClose_iff.1 (by decide))
    (.disj (ts := [_]) (us := [_]) (.single (w "a" (by simp))) (isOr_iff.1 (by decide)) (.single (w "b" (by simp))))
example : matcherAsks samplePt (fun _ => 1) (["(", "a", "OR", "b", ")", "c"].map String.toList) (fun w => some (w ≠ "c".toList)) =
    .ok (false, ["c"].map String.toList) := by decide +kernel
example : ∀ g ∈ [["a", "b"], ["c"]].map (·.map String.toList), g ≠ [] ∧ ∀ w ∈ g, Word w := by
  intro g hg
  simp only [List.map_cons, List.map_nil, List.mem_cons, List.not_mem_nil, or_false] at hg
  rcases hg with rfl | rfl <;> refine ⟨by simp, fun w hw => ?_⟩ <;> simp only [List.mem_cons, List.not_mem_nil, or_false] at hw <;> rw [word_iff]
  · rcases hw with rfl | rfl <;> decide
  · subst hw; decide

end FF
