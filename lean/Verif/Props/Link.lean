import Verif.Spec.Link
import Verif.Props.Entry
import Verif.Props.Whole
/-!
C91: where a symbolic link points to.
-/
namespace FF
open Spec

/-! ### The text of a link -/

theorem startsWith_slash (t : Str) : startsWith t ['/'] = true ↔ ∃ r, t = '/' :: r := by
  cases t with
  | nil => simp [startsWith]
  | cons a r =>
    simp only [startsWith, List.isPrefixOf, Bool.and_true, beq_iff_eq, List.cons.injEq, exists_and_left, exists_eq', and_true]
    exact ⟨fun h => h.symm, fun h => h.symm⟩

theorem linkStart_from (t : Str) (p : List Str) : From t p (linkStart t p) := by
  unfold linkStart From
  by_cases h : startsWith t ['/'] = true
  · simp only [h, if_true]; exact Or.inl ⟨(startsWith_slash t).mp h, trivial⟩
  · simp only [h]; exact Or.inr ⟨fun hh => h ((startsWith_slash t).mpr hh), by simp⟩

theorem from_unique {t : Str} {p s : List Str} (h : From t p s) : s = linkStart t p := by
  rcases h with ⟨h1, rfl⟩ | ⟨h1, rfl⟩
  · simp [linkStart, (startsWith_slash t).mpr h1]
  · have : ¬ startsWith t ['/'] = true := fun hh => h1 ((startsWith_slash t).mp hh)
    simp [linkStart, this]

theorem pathParts_parts (t : Str) : Parts t (pathParts t) := by
  unfold pathParts
  by_cases h : startsWith t ['/'] = true
  · simp only [h, if_true]
    obtain ⟨r, rfl⟩ := (startsWith_slash t).mp h
    obtain ⟨h1, h2, h3⟩ := splitOn_parts '/' r
    exact ⟨h1, h2, Or.inr (by simp only [List.drop_succ_cons, List.drop_zero]; rw [← h3])⟩
  · simp only [h]
    obtain ⟨h1, h2, h3⟩ := splitOn_parts '/' t
    refine ⟨h1, h2, Or.inl ⟨h3, ?_⟩⟩
    intro hh
    apply h
    apply (startsWith_slash t).mpr
    cases t with
    | nil => simp at hh
    | cons a r => simp at hh; exact ⟨r, by rw [hh]⟩

theorem parts_unique {t : Str} {cs : List Str} (h : Parts t cs) : cs = pathParts t := by
  obtain ⟨h1, h2, h3⟩ := h
  unfold pathParts
  rcases h3 with ⟨h3, h4⟩ | h3
  · have : ¬ startsWith t ['/'] = true := by
      intro hh
      obtain ⟨r, rfl⟩ := (startsWith_slash t).mp hh
      simp at h4
    simp only [this]
    rw [h3]
    exact (splitOn_joinWith h2 h1).symm
  · have : startsWith t ['/'] = true := (startsWith_slash t).mpr ⟨_, h3⟩
    simp only [this, if_true]
    rw [h3]
    simp only [List.drop_succ_cons, List.drop_zero]
    exact (splitOn_joinWith h2 h1).symm

/-! ### Following a path -/

theorem leads_node {fs : FileSystem} {k : Nat} {p cs r : List Str} (h : Leads fs k p cs r) : fs p ≠ none := by
  cases h with
  | here h => exact h
  | stay h _ _ => rw [h]; simp
  | up h _ => rw [h]; simp
  | down h _ _ _ _ => rw [h]; simp
  | link h _ _ _ _ _ => rw [h]; simp

theorem leads_end {fs : FileSystem} {k : Nat} {p cs r : List Str} (h : Leads fs k p cs r) : fs r ≠ none := by
  induction h with
  | here h => exact h
  | stay _ _ _ ih => exact ih
  | up _ _ ih => exact ih
  | down _ _ _ _ _ ih => exact ih
  | link _ _ _ _ _ _ ih => exact ih

theorem leads_split {fs : FileSystem} {k : Nat} {p cs r : List Str} (h : Leads fs k p cs r) :
    ∀ a b, cs = a ++ b → ∃ m i j, i + j = k ∧ Leads fs i p a m ∧ Leads fs j m b r := by
  induction h with
  | @here p h =>
    intro a b hab
    obtain ⟨rfl, rfl⟩ := List.append_eq_nil_iff.mp hab.symm
    exact ⟨p, 0, 0, rfl, .here h, .here h⟩
  | @stay k p c cs r h1 h2 h3 ih =>
    intro a b hab
    cases a with
    | nil => simp only [List.nil_append] at hab; subst hab; exact ⟨p, 0, k, by omega, .here (by rw [h1]; simp), .stay h1 h2 h3⟩
    | cons x xs =>
      simp only [List.cons_append, List.cons.injEq] at hab
      obtain ⟨rfl, rfl⟩ := hab
      obtain ⟨m, i, j, e, l1, l2⟩ := ih xs b rfl
      exact ⟨m, i, j, e, .stay h1 h2 l1, l2⟩
  | @up k p cs r h1 h3 ih =>
    intro a b hab
    cases a with
    | nil => simp only [List.nil_append] at hab; subst hab; exact ⟨p, 0, k, by omega, .here (by rw [h1]; simp), .up h1 h3⟩
    | cons x xs =>
      simp only [List.cons_append, List.cons.injEq] at hab
      obtain ⟨rfl, rfl⟩ := hab
      obtain ⟨m, i, j, e, l1, l2⟩ := ih xs b rfl
      exact ⟨m, i, j, e, .up h1 l1, l2⟩
  | @down k p c cs r h1 h2 h3 h4 h5 ih =>
    intro a b hab
    cases a with
    | nil => simp only [List.nil_append] at hab; subst hab; exact ⟨p, 0, k, by omega, .here (by rw [h1]; simp), .down h1 h2 h3 h4 h5⟩
    | cons x xs =>
      simp only [List.cons_append, List.cons.injEq] at hab
      obtain ⟨rfl, rfl⟩ := hab
      obtain ⟨m, i, j, e, l1, l2⟩ := ih xs b rfl
      exact ⟨m, i, j, e, .down h1 h2 h3 h4 l1, l2⟩
  | @link k p c cs r t s ts h1 h2 h3 h4 h5 h6 ih =>
    intro a b hab
    cases a with
    | nil => simp only [List.nil_append] at hab; subst hab; exact ⟨p, 0, k + 1, by omega, .here (by rw [h1]; simp), .link h1 h2 h3 h4 h5 h6⟩
    | cons x xs =>
      simp only [List.cons_append, List.cons.injEq] at hab
      obtain ⟨rfl, rfl⟩ := hab
      obtain ⟨m, i, j, e, l1, l2⟩ := ih (ts ++ xs) b (by simp)
      exact ⟨m, i + 1, j, by omega, .link h1 h2 h3 h4 h5 l1, l2⟩

theorem leads_append {fs : FileSystem} {i : Nat} {p a m : List Str} (h : Leads fs i p a m) :
    ∀ {j : Nat} {b r : List Str}, Leads fs j m b r → Leads fs (i + j) p (a ++ b) r := by
  induction h with
  | @here p h => intro j b r hb; simpa using hb
  | @stay k p c cs r h1 h2 h3 ih => intro j b r hb; exact .stay h1 h2 (ih hb)
  | @up k p cs r h1 h3 ih => intro j b r hb; exact .up h1 (ih hb)
  | @down k p c cs r h1 h2 h3 h4 h5 ih => intro j b r hb; exact .down h1 h2 h3 h4 (ih hb)
  | @link k p c cs r t s ts h1 h2 h3 h4 h5 h6 ih =>
    intro j b r hb
    have := ih hb
    rw [List.append_assoc] at this
    have h := Leads.link h1 h2 h3 h4 h5 this
    rw [show k + 1 + j = k + j + 1 by omega]
    exact h

/-- The first step of a way, by the name. -/
theorem leads_stay {fs : FileSystem} {k : Nat} {p c cs r} (h : Leads fs k p (c :: cs) r) (hc : c = [] ∨ c = ['.']) :
    fs p = some .dir ∧ Leads fs k p cs r := by
  cases h with
  | stay h1 _ h3 => exact ⟨h1, h3⟩
  | up h1 h2 => rcases hc with h | h <;> cases h
  | down h1 h2 _ _ _ => exact absurd (hc.elim Or.inl (fun h => Or.inr (Or.inl h))) h2
  | link h1 h2 _ _ _ _ => exact absurd (hc.elim Or.inl (fun h => Or.inr (Or.inl h))) h2

theorem leads_up {fs : FileSystem} {k : Nat} {p cs r} (h : Leads fs k p (['.', '.'] :: cs) r) : fs p = some .dir ∧ Leads fs k p.dropLast cs r := by
  cases h with
  | stay h1 h2 h3 => rcases h2 with h | h <;> simp at h
  | up h1 h2 => exact ⟨h1, h2⟩
  | down h1 h2 _ _ _ => exact absurd (Or.inr (Or.inr rfl)) h2
  | link h1 h2 _ _ _ _ => exact absurd (Or.inr (Or.inr rfl)) h2

theorem leads_name {fs : FileSystem} {k : Nat} {p c cs r} (h : Leads fs k p (c :: cs) r) (hc : ¬ Dots c) :
    fs p = some .dir ∧ ((fs (p ++ [c]) ≠ none ∧ (∀ t, fs (p ++ [c]) ≠ some (.link t)) ∧ Leads fs k (p ++ [c]) cs r) ∨
      ∃ t k', k = k' + 1 ∧ fs (p ++ [c]) = some (.link t) ∧ Leads fs k' (linkStart t p) (pathParts t ++ cs) r) := by
  cases h with
  | stay h1 h2 h3 => exact absurd (h2.elim Or.inl (fun h => Or.inr (Or.inl h))) hc
  | up h1 h2 => exact absurd (Or.inr (Or.inr rfl)) hc
  | down h1 h2 h3 h4 h5 => exact ⟨h1, Or.inl ⟨h3, h4, h5⟩⟩
  | @link k' _ _ _ _ t s ts h1 h2 h3 h4 h5 h6 =>
    have e1 := from_unique h4
    have e2 := parts_unique h5
    subst e1; subst e2
    exact ⟨h1, Or.inr ⟨t, k', rfl, h3, h6⟩⟩

theorem leads_unique {fs : FileSystem} {k : Nat} {p cs r : List Str} (h : Leads fs k p cs r) : ∀ {k' r'}, Leads fs k' p cs r' → k = k' ∧ r = r' := by
  induction h with
  | here h => intro k' r' h'; cases h' with | here _ => exact ⟨rfl, rfl⟩
  | stay h1 h2 h3 ih => intro k' r' h'; exact ih (leads_stay h' h2).2
  | up h1 h3 ih => intro k' r' h'; exact ih (leads_up h').2
  | down h1 h2 h3 h4 h5 ih =>
    intro k' r' h'
    rcases (leads_name h' h2).2 with ⟨_, _, h6⟩ | ⟨t, _, _, h6, _⟩
    · exact ih h6
    · exact absurd h6 (h4 t)
  | @link k p c cs r t s ts h1 h2 h3 h4 h5 h6 ih =>
    intro k' r' h'
    rcases (leads_name h' h2).2 with ⟨_, h7, _⟩ | ⟨t', j, e, h7, h8⟩
    · exact absurd h3 (h7 t)
    · rw [h3] at h7
      injection h7 with h7; injection h7 with h7
      subst h7
      have e1 := from_unique h4
      have e2 := parts_unique h5
      subst e1; subst e2
      obtain ⟨a, b⟩ := ih h8
      exact ⟨by omega, b⟩

/-! ### The walk of the kernel -/

theorem kernelLoop_leads (fs : FileSystem) (left : Nat) (follow : List Str → List Str → Option (List Str × Nat))
    (hf : ∀ p cs r l, follow p cs = some (r, l) ↔ l < left ∧ Leads fs (left - 1 - l) p cs r) :
    ∀ (cs p r : List Str) (l : Nat), kernelLoop fs left follow p cs = some (r, l) ↔ l ≤ left ∧ Leads fs (left - l) p cs r := by
  intro cs
  induction cs with
  | nil =>
    intro p r l
    simp only [kernelLoop]
    constructor
    · intro h
      split at h
      · simp at h
      · rename_i hp
        simp only [Option.some.injEq, Prod.mk.injEq] at h
        obtain ⟨rfl, rfl⟩ := h
        exact ⟨Nat.le_refl _, by rw [Nat.sub_self]; exact .here hp⟩
    · rintro ⟨h1, h2⟩
      generalize hk : left - l = k at h2
      cases h2 with
      | here h => simp only [h, if_false, Option.some.injEq, Prod.mk.injEq, true_and]; omega
  | cons c cs ih =>
    intro p r l
    simp only [kernelLoop]
    by_cases hd : fs p = some .dir
    · simp only [hd, ne_eq, not_true_eq_false, if_false]
      by_cases h1 : c = [] ∨ c = ['.']
      · simp only [h1, if_true]
        rw [ih]
        exact ⟨fun h => ⟨h.1, .stay hd h1 h.2⟩, fun h => ⟨h.1, (leads_stay h.2 h1).2⟩⟩
      · simp only [h1, if_false]
        by_cases h2 : c = ['.', '.']
        · subst h2
          simp only [if_true]
          rw [ih]
          exact ⟨fun h => ⟨h.1, .up hd h.2⟩, fun h => ⟨h.1, (leads_up h.2).2⟩⟩
        · simp only [h2, if_false]
          have hc : ¬ Dots c := by
            rintro (h | h | h)
            · exact h1 (Or.inl h)
            · exact h1 (Or.inr h)
            · exact h2 h
          cases hn : fs (p ++ [c]) with
          | none =>
            simp only [reduceCtorEq, false_iff]
            rintro ⟨_, h⟩
            rcases (leads_name h hc).2 with ⟨h3, _⟩ | ⟨t, _, _, h3, _⟩
            · exact h3 hn
            · rw [hn] at h3; simp at h3
          | some n =>
            cases n with
            | link t =>
              simp only
              rw [hf]
              constructor
              · rintro ⟨h3, h4⟩
                refine ⟨by omega, ?_⟩
                have := Leads.link hd hc hn (linkStart_from t p) (pathParts_parts t) h4
                rw [show left - 1 - l + 1 = left - l by omega] at this
                exact this
              · rintro ⟨_, h⟩
                rcases (leads_name h hc).2 with ⟨_, h3, _⟩ | ⟨t', k, e, h3, h4⟩
                · exact absurd hn (h3 t)
                · rw [hn] at h3
                  injection h3 with h3; injection h3 with h3
                  subst h3
                  refine ⟨by omega, ?_⟩
                  rw [show left - 1 - l = k by omega]
                  exact h4
            | dir =>
              simp only
              rw [ih]
              constructor
              · rintro ⟨h3, h4⟩; exact ⟨h3, .down hd hc (by rw [hn]; simp) (by intro t; rw [hn]; simp) h4⟩
              · rintro ⟨h3, h4⟩
                rcases (leads_name h4 hc).2 with ⟨_, _, h5⟩ | ⟨t', k, e, h5, _⟩
                · exact ⟨h3, h5⟩
                · rw [hn] at h5; simp at h5
            | file =>
              simp only
              rw [ih]
              constructor
              · rintro ⟨h3, h4⟩; exact ⟨h3, .down hd hc (by rw [hn]; simp) (by intro t; rw [hn]; simp) h4⟩
              · rintro ⟨h3, h4⟩
                rcases (leads_name h4 hc).2 with ⟨_, _, h5⟩ | ⟨t', k, e, h5, _⟩
                · exact ⟨h3, h5⟩
                · rw [hn] at h5; simp at h5
    · simp only [hd, ne_eq, not_false_eq_true, if_true, reduceCtorEq, false_iff]
      rintro ⟨_, h⟩
      generalize left - l = k at h
      cases h with
      | stay h _ _ => exact hd h
      | up h _ => exact hd h
      | down h _ _ _ _ => exact hd h
      | link h _ _ _ _ _ => exact hd h

theorem kernelWalk_leads (fs : FileSystem) : ∀ (left : Nat) (p cs r : List Str) (l : Nat),
    kernelWalk fs left p cs = some (r, l) ↔ l ≤ left ∧ Leads fs (left - l) p cs r := by
  intro left
  induction left with
  | zero => intro p cs r l; exact kernelLoop_leads fs 0 _ (by intro p cs r l; simp) cs p r l
  | succ n ih =>
    intro p cs r l
    exact kernelLoop_leads fs (n + 1) _ (by intro p cs r l; rw [ih]; simp only [Nat.add_sub_cancel, Nat.lt_succ_iff]) cs p r l

theorem exists_iff (fs : FileSystem) (ns : List Str) : osPathExists fs ns = true ↔ ∃ k r, k ≤ 40 ∧ Leads fs k [] ns r := by
  unfold osPathExists maxSymlinks
  constructor
  · intro h
    obtain ⟨⟨r, l⟩, hr⟩ := Option.isSome_iff_exists.mp h
    obtain ⟨h1, h2⟩ := (kernelWalk_leads fs 40 [] ns r l).mp hr
    exact ⟨_, r, by omega, h2⟩
  · rintro ⟨k, r, h1, h2⟩
    have := (kernelWalk_leads fs 40 [] ns r (40 - k)).mpr ⟨by omega, by rw [show 40 - (40 - k) = k by omega]; exact h2⟩
    rw [this]; rfl

/-! ### `realpath` -/

/-- The link at `q` leads to `m`. -/
def Resolved (fs : FileSystem) (q : List Str) (i : Nat) (m : List Str) : Prop :=
  ∃ p c t, q = p ++ [c] ∧ fs q = some (.link t) ∧ Leads fs i (linkStart t p) (pathParts t) m

theorem resolved_unique {fs : FileSystem} {q : List Str} {i i' : Nat} {m m' : List Str} (h : Resolved fs q i m) (h' : Resolved fs q i' m') : i = i' ∧ m = m' := by
  obtain ⟨p, c, t, e, hl, h⟩ := h
  obtain ⟨p', c', t', e', hl', h'⟩ := h'
  rw [hl] at hl'
  injection hl' with hl'; injection hl' with hl'
  subst hl'
  rw [e] at e'
  have := (List.append_inj' e' rfl).1
  subst this
  exact leads_unique h h'

/-- What is in `seen` is right: done ones have the place they lead to, those being resolved need at least `k` links. -/
def GoodSeen (fs : FileSystem) (k : Nat) (seen : Seen) : Prop :=
  ∀ q v, seen.lookup q = some v → match v with | some m => ∃ i, Resolved fs q i m | none => ∃ i m, k ≤ i ∧ Resolved fs q i m

theorem goodSeen_mono {fs : FileSystem} {k j : Nat} {seen : Seen} (h : GoodSeen fs k seen) (hj : j ≤ k) : GoodSeen fs j seen := by
  intro q v hv
  have := h q v hv
  cases v with
  | some m => exact this
  | none => obtain ⟨i, m, h1, h2⟩ := this; exact ⟨i, m, by omega, h2⟩

theorem lookup_cons_self {q : List Str} {v : Option (List Str)} (s : Seen) : List.lookup q ((q, v) :: s) = some v := by
  simp [List.lookup]

theorem lookup_cons_other {q q' : List Str} {v : Option (List Str)} (s : Seen) (h : q' ≠ q) : List.lookup q' ((q, v) :: s) = List.lookup q' s := by
  have : (q' == q) = false := by simpa using h
  simp [List.lookup, this]

/-- What `seen` is after a call: nothing more is being resolved. -/
def SeenAfter (fs : FileSystem) (seen seen' : Seen) : Prop :=
  ∀ q v, seen'.lookup q = some v → match v with | some m => ∃ i, Resolved fs q i m | none => seen.lookup q = some none

theorem realLoop_leads (fs : FileSystem) (depth : Nat) (follow : List Str → List Str → Seen → Option (List Str × Bool × Seen))
    (hf : ∀ k p cs r seen, k < depth → Leads fs k p cs r → GoodSeen fs k seen → ∃ seen', follow p cs seen = some (r, true, seen') ∧ SeenAfter fs seen seen') :
    ∀ (cs : List Str) (k : Nat) (p r : List Str) (seen : Seen), k ≤ depth → Leads fs k p cs r → GoodSeen fs k seen →
      ∃ seen', realLoop fs follow p cs seen = some (r, true, seen') ∧ SeenAfter fs seen seen' := by
  intro cs
  induction cs with
  | nil =>
    intro k p r seen hk hl hg
    cases hl with
    | here h =>
      refine ⟨seen, rfl, ?_⟩
      intro q v hv
      have := hg q v hv
      cases v with
      | some m => exact this
      | none => exact hv
  | cons c cs ih =>
    intro k p r seen hk hl hg
    simp only [realLoop]
    by_cases h1 : c = [] ∨ c = ['.']
    · simp only [h1, if_true]
      exact ih k p r seen hk (leads_stay hl h1).2 hg
    · simp only [h1, if_false]
      by_cases h2 : c = ['.', '.']
      · subst h2
        simp only [if_true]
        exact ih k _ r seen hk (leads_up hl).2 hg
      · simp only [h2, if_false]
        have hc : ¬ Dots c := by
          rintro (h | h | h)
          · exact h1 (Or.inl h)
          · exact h1 (Or.inr h)
          · exact h2 h
        rcases (leads_name hl hc).2 with ⟨h3, h4, h5⟩ | ⟨t, k', e, h3, h4⟩
        · have hm := ih k _ r seen hk h5 hg
          cases hn : fs (p ++ [c]) with
          | none => exact absurd hn h3
          | some n =>
            cases n with
            | link t => exact absurd hn (h4 t)
            | dir => exact hm
            | file => exact hm
        · obtain ⟨m, i, j, hij, l1, l2⟩ := leads_split h4 _ _ rfl
          have hres : Resolved fs (p ++ [c]) i m := ⟨p, c, t, rfl, h3, l1⟩
          simp only [h3]
          cases hs : seen.lookup (p ++ [c]) with
          | some v =>
            cases v with
            | some m' =>
              obtain ⟨i', hr'⟩ := hg _ _ hs
              have e2 := (resolved_unique hres hr').2
              subst e2
              exact ih j m r seen (by omega) l2 (goodSeen_mono hg (by omega))
            | none =>
              obtain ⟨i', m', hi', hr'⟩ := hg _ _ hs
              have := (resolved_unique hres hr').1
              omega
          | none =>
            simp only
            have hg1 : GoodSeen fs i ((p ++ [c], none) :: seen) := by
              intro q v hv
              by_cases hq : q = p ++ [c]
              · subst hq
                rw [lookup_cons_self] at hv
                injection hv with hv; subst hv
                exact ⟨i, m, Nat.le_refl _, hres⟩
              · rw [lookup_cons_other _ hq] at hv
                exact goodSeen_mono hg (by omega) q v hv
            obtain ⟨seen1, hf1, hs1⟩ := hf i _ _ m _ (by omega) l1 hg1
            rw [hf1]
            simp only
            have hg2 : GoodSeen fs k ((p ++ [c], some m) :: seen1) := by
              intro q v hv
              by_cases hq : q = p ++ [c]
              · subst hq
                rw [lookup_cons_self] at hv
                injection hv with hv; subst hv
                exact ⟨i, hres⟩
              · rw [lookup_cons_other _ hq] at hv
                have := hs1 q v hv
                cases v with
                | some m' => exact this
                | none =>
                  simp only at this
                  rw [lookup_cons_other _ hq] at this
                  exact hg q none this
            obtain ⟨seen2, hf2, hs2⟩ := ih j m r _ (by omega) l2 (goodSeen_mono hg2 (by omega))
            refine ⟨seen2, hf2, ?_⟩
            intro q v hv
            have := hs2 q v hv
            cases v with
            | some m' => exact this
            | none =>
              simp only at this ⊢
              by_cases hq : q = p ++ [c]
              · subst hq
                rw [lookup_cons_self] at this
                simp at this
              · rw [lookup_cons_other _ hq] at this
                have := hs1 q none this
                simp only at this
                rw [lookup_cons_other _ hq] at this
                exact this

theorem joinRealPath_leads (fs : FileSystem) : ∀ (depth k : Nat) (p cs r : List Str) (seen : Seen), k ≤ depth → Leads fs k p cs r → GoodSeen fs k seen →
    ∃ seen', joinRealPath fs depth p cs seen = some (r, true, seen') ∧ SeenAfter fs seen seen' := by
  intro depth
  induction depth with
  | zero => intro k p cs r seen; exact realLoop_leads fs 0 _ (by intro k p cs r seen h; omega) cs k p r seen
  | succ n ih =>
    intro k p cs r seen
    exact realLoop_leads fs (n + 1) _ (by intro k p cs r seen h; exact ih k p cs r seen (by omega)) cs k p r seen

/-! ### Places -/

theorem tree_parent {fs : FileSystem} (ht : Tree fs) {p : List Str} (h : fs p ≠ none) : fs p.dropLast ≠ none ∧ (p ≠ [] → fs p.dropLast = some .dir) := by
  rcases List.eq_nil_or_concat p with rfl | ⟨q, c, rfl⟩
  · exact ⟨by simpa using h, by simp⟩
  · simp only [List.concat_eq_append] at h ⊢
    rw [List.dropLast_concat]
    have := (ht.2 q c h).1
    exact ⟨by rw [this]; simp, fun _ => this⟩

theorem tree_plain {fs : FileSystem} (ht : Tree fs) : ∀ (n : Nat) (p : List Str), p.length = n → fs p ≠ none → ∀ c ∈ p, ¬ Dots c := by
  intro n
  induction n with
  | zero => intro p hp _ c hc; rw [List.length_eq_zero_iff.mp hp] at hc; simp at hc
  | succ n ih =>
    intro p hp h c hc
    rcases List.eq_nil_or_concat p with rfl | ⟨q, d, rfl⟩
    · simp at hp
    · simp only [List.concat_eq_append] at h hc hp
      obtain ⟨h1, h2, _⟩ := ht.2 q d h
      rcases List.mem_append.mp hc with hc | hc
      · exact ih q (by simpa using hp) (by rw [h1]; simp) c hc
      · simp at hc; subst hc; exact h2

theorem leads_place {fs : FileSystem} (ht : Tree fs) : ∀ (n : Nat) (p : List Str), p.length = n → fs p ≠ none → (∀ t, fs p ≠ some (.link t)) → Leads fs 0 [] p p := by
  intro n
  induction n with
  | zero => intro p hp h _; rw [List.length_eq_zero_iff.mp hp]; rw [List.length_eq_zero_iff.mp hp] at h; exact .here h
  | succ n ih =>
    intro p hp h hl
    rcases List.eq_nil_or_concat p with rfl | ⟨q, d, rfl⟩
    · simp at hp
    · simp only [List.concat_eq_append] at h hl hp ⊢
      obtain ⟨h1, h2, _⟩ := ht.2 q d h
      have := ih q (by simpa using hp) (by rw [h1]; simp) (by intro t; rw [h1]; simp)
      exact leads_append this (.down h1 h2 h hl (.here h))

theorem leads_notlink {fs : FileSystem} (ht : Tree fs) {k : Nat} {p cs r : List Str} (h : Leads fs k p cs r) :
    (∀ t, fs p ≠ some (.link t)) → ∀ t, fs r ≠ some (.link t) := by
  induction h with
  | here h => exact id
  | stay _ _ _ ih => exact ih
  | @up k p cs r h1 _ ih =>
    intro _
    apply ih
    intro t
    by_cases hp : p = []
    · subst hp; simp only [List.dropLast_nil]; rw [h1]; simp
    · rw [(tree_parent ht (by rw [h1]; simp)).2 hp]; simp
  | down _ _ _ h _ ih => intro _; exact ih h
  | @link k p c cs r t s ts h1 _ _ h4 _ _ ih =>
    intro _
    apply ih
    intro t'
    rcases h4 with ⟨_, rfl⟩ | ⟨_, rfl⟩
    · rw [ht.1]; simp
    · rw [h1]; simp

theorem normNames_plain : ∀ (cs acc : List Str), (∀ c ∈ cs, ¬ Dots c) → normNames acc cs = acc ++ cs := by
  intro cs
  induction cs with
  | nil => intro acc _; simp [normNames]
  | cons c cs ih =>
    intro acc h
    have hc := h c (by simp)
    have h1 : ¬ (c = [] ∨ c = ['.']) := fun hh => hc (hh.elim Or.inl (fun h => Or.inr (Or.inl h)))
    have h2 : ¬ c = ['.', '.'] := fun hh => hc (Or.inr (Or.inr hh))
    simp only [normNames, h1, h2, if_false]
    rw [ih _ (fun x hx => h x (by simp [hx]))]
    simp

theorem joinRest_plain (p : List Str) : ∀ (cs : List Str), (∀ c ∈ cs, ¬ Dots c) → joinRest p cs = p ++ cs := by
  intro cs h
  unfold joinRest
  split
  · exact absurd (Or.inl rfl) (h [] (by simp))
  · rfl

/-! ### `realpath` of something that may not exist -/

/-- No symbolic link on the way. -/
def LinkFree (fs : FileSystem) (p : List Str) : Prop := ∀ q, q <+: p → ∀ t, fs q ≠ some (.link t)

theorem linkFree_snoc {fs : FileSystem} {p : List Str} {c : Str} (h : LinkFree fs p) (hc : ∀ t, fs (p ++ [c]) ≠ some (.link t)) : LinkFree fs (p ++ [c]) := by
  intro q hq
  rcases List.prefix_concat_iff.mp hq with rfl | hq
  · exact hc
  · exact h q hq

theorem linkFree_dir {fs : FileSystem} (ht : Tree fs) : ∀ (n : Nat) (p : List Str), p.length = n → fs p = some .dir → LinkFree fs p := by
  intro n
  induction n with
  | zero =>
    intro p hp h q hq t
    rw [List.length_eq_zero_iff.mp hp] at hq h
    rw [List.prefix_nil.mp hq, h]; simp
  | succ n ih =>
    intro p hp h
    rcases List.eq_nil_or_concat p with rfl | ⟨q, d, rfl⟩
    · simp at hp
    · simp only [List.concat_eq_append] at h hp ⊢
      exact linkFree_snoc (ih q (by simpa using hp) (ht.2 q d (by rw [h]; simp)).1) (by intro t; rw [h]; simp)

theorem linkFree_end {fs : FileSystem} (ht : Tree fs) {r : List Str} (h : fs r ≠ none) (hl : ∀ t, fs r ≠ some (.link t)) : LinkFree fs r := by
  rcases List.eq_nil_or_concat r with rfl | ⟨q, d, rfl⟩
  · intro q hq t; rw [List.prefix_nil.mp hq, ht.1]; simp
  · simp only [List.concat_eq_append] at h hl ⊢
    exact linkFree_snoc (linkFree_dir ht _ q rfl (ht.2 q d h).1) hl

theorem leads_free {fs : FileSystem} : ∀ (cs : List Str) (k : Nat) (p r : List Str), Leads fs k p cs r → (∀ c ∈ cs, ¬ Dots c) → LinkFree fs (p ++ cs) → fs (p ++ cs) ≠ none := by
  intro cs
  induction cs with
  | nil => intro k p r h _ _; rw [List.append_nil]; exact leads_node h
  | cons c cs ih =>
    intro k p r h hc hf
    have e : p ++ c :: cs = p ++ [c] ++ cs := by simp
    rcases (leads_name h (hc c (by simp))).2 with ⟨_, _, h3⟩ | ⟨t, _, _, h3, _⟩
    · rw [e] at hf ⊢
      exact ih k _ r h3 (fun x hx => hc x (by simp [hx])) hf
    · exact absurd h3 (hf _ ⟨cs, by simp⟩ t)

/-- What is known about `seen` at a point of the way. -/
structure WaySeen (fs : FileSystem) (p cs : List Str) (seen : Seen) : Prop where
  done : ∀ q m, seen.lookup q = some (some m) → (∀ c ∈ m, ¬ Dots c) ∧ LinkFree fs m ∧ (fs m ≠ none → ∃ i, Resolved fs q i m) ∧ ∀ i m', Resolved fs q i m' → m' = m
  going : ∀ q, seen.lookup q = some none → ∀ i m, Resolved fs q i m → ∃ k r, k ≤ i ∧ Leads fs k p cs r

/-- What is known about a result. -/
structure WayResult (fs : FileSystem) (p cs : List Str) (seen : Seen) (r : List Str) (ok : Bool) (seen' : Seen) : Prop where
  plain : ∀ c ∈ r, ¬ Dots c
  done : ∀ q m, seen'.lookup q = some (some m) → (∀ c ∈ m, ¬ Dots c) ∧ LinkFree fs m ∧ (fs m ≠ none → ∃ i, Resolved fs q i m) ∧ ∀ i m', Resolved fs q i m' → m' = m
  free : ok = true → LinkFree fs r
  going : ok = true → ∀ q, seen'.lookup q = some none → seen.lookup q = some none
  leads : ok = true → fs r ≠ none → ∃ k, Leads fs k p cs r
  only : ok = true → ∀ k r', Leads fs k p cs r' → r' = r
  not : ok = false → ¬ ∃ k r', Leads fs k p cs r'
  loop : ok = false → ∃ q t rest, r = q ++ rest ∧ fs q = some (.link t) ∧ ¬ ∃ i m, Resolved fs q i m

theorem leads_step_link {fs : FileSystem} {k : Nat} {p c cs r t} (h : Leads fs k p (c :: cs) r) (hc : ¬ Dots c) (ht : fs (p ++ [c]) = some (.link t)) :
    ∃ i j m, i + j + 1 = k ∧ Leads fs i (linkStart t p) (pathParts t) m ∧ Resolved fs (p ++ [c]) i m ∧ Leads fs j m cs r := by
  rcases (leads_name h hc).2 with ⟨_, h3, _⟩ | ⟨t', k', e, h3, h4⟩
  · exact absurd ht (h3 t)
  · rw [ht] at h3
    injection h3 with h3; injection h3 with h3
    subst h3
    obtain ⟨m, i, j, hij, l1, l2⟩ := leads_split h4 _ _ rfl
    exact ⟨i, j, m, by omega, l1, ⟨p, c, t, rfl, ht, l1⟩, l2⟩

theorem leads_link {fs : FileSystem} (ht : Tree fs) {p cs r m : List Str} {i j : Nat} {c : Str} (hc : ¬ Dots c)
    (h1 : Resolved fs (p ++ [c]) i m) (h2 : Leads fs j m cs r) : Leads fs (i + j + 1) p (c :: cs) r := by
  obtain ⟨p', c', t, e, hn, h⟩ := h1
  have e1 := (List.append_inj' e rfl).1
  subst e1
  exact .link (ht.2 p c (by rw [hn]; simp)).1 hc hn (linkStart_from t p) (pathParts_parts t) (leads_append h h2)

theorem realLoop_way (fs : FileSystem) (ht : Tree fs) (hpl : UpLinks fs) (follow : List Str → List Str → Seen → Option (List Str × Bool × Seen))
    (hf : ∀ p cs seen r ok seen', follow p cs seen = some (r, ok, seen') → fs p = some .dir → DotsFirst cs → WaySeen fs p cs seen → WayResult fs p cs seen r ok seen') :
    ∀ (cs p : List Str) (seen : Seen) (r : List Str) (ok : Bool) (seen' : Seen), realLoop fs follow p cs seen = some (r, ok, seen') →
      (∀ c ∈ p, ¬ Dots c) → LinkFree fs p → (∀ c ∈ cs, ¬ Dots c) → WaySeen fs p cs seen → WayResult fs p cs seen r ok seen' := by
  intro cs
  induction cs with
  | nil =>
    intro p seen r ok seen' h hp hfree _ hw
    simp only [realLoop, Option.some.injEq, Prod.mk.injEq] at h
    obtain ⟨rfl, rfl, rfl⟩ := h
    refine ⟨hp, hw.done, fun _ => hfree, fun _ q hq => hq, fun _ hn => ⟨0, .here hn⟩, fun _ k r' h => ?_, by simp, by simp⟩
    cases h; rfl
  | cons c cs ih =>
    intro p seen r ok seen' h hp hfree hcs hw
    have hc := hcs c (by simp)
    have hcs' : ∀ x ∈ cs, ¬ Dots x := fun x hx => hcs x (by simp [hx])
    have h1 : ¬ (c = [] ∨ c = ['.']) := fun hh => hc (hh.elim Or.inl (fun h => Or.inr (Or.inl h)))
    have h2 : ¬ c = ['.', '.'] := fun hh => hc (Or.inr (Or.inr hh))
    simp only [realLoop, h1, h2, if_false] at h
    have hp' : ∀ x ∈ p ++ [c], ¬ Dots x := by
      intro x hx
      rcases List.mem_append.mp hx with hx | hx
      · exact hp x hx
      · simp at hx; subst hx; exact hc
    by_cases hlink : ∃ t, fs (p ++ [c]) = some (.link t)
    · obtain ⟨t, hn⟩ := hlink
      simp only [hn] at h
      have hdir := (ht.2 p c (by rw [hn]; simp)).1
      cases hs : seen.lookup (p ++ [c]) with
      | some v =>
        cases v with
        | some m =>
          simp only [hs] at h
          obtain ⟨d1, df, d2, d3⟩ := hw.done _ _ hs
          have hw' : WaySeen fs m cs seen := by
            refine ⟨hw.done, ?_⟩
            intro q hq i m' hr
            obtain ⟨k, r', hk, hl⟩ := hw.going q hq i m' hr
            obtain ⟨i1, j1, m1, e1, _, r1, l1⟩ := leads_step_link hl hc hn
            have := d3 _ _ r1
            subst this
            exact ⟨j1, r', by omega, l1⟩
          have hr := ih m seen r ok seen' h d1 df hcs' hw'
          refine ⟨hr.plain, hr.done, hr.free, hr.going, ?_, ?_, ?_, hr.loop⟩
          · intro hok hrn
            obtain ⟨k, hl⟩ := hr.leads hok hrn
            obtain ⟨i, hres⟩ := d2 (leads_node hl)
            exact ⟨_, leads_link (r := r) ht hc hres hl⟩
          · intro hok k r' hl
            obtain ⟨i1, j1, m1, e1, _, r1, l1⟩ := leads_step_link hl hc hn
            have := d3 _ _ r1
            subst this
            exact hr.only hok _ _ l1
          · rintro hok ⟨k, r', hl⟩
            obtain ⟨i1, j1, m1, e1, _, r1, l1⟩ := leads_step_link hl hc hn
            have := d3 _ _ r1
            subst this
            exact hr.not hok ⟨_, _, l1⟩
        | none =>
          simp only [hs, Option.some.injEq, Prod.mk.injEq] at h
          obtain ⟨rfl, rfl, rfl⟩ := h
          rw [joinRest_plain _ _ hcs']
          have hno : ¬ ∃ i m, Resolved fs (p ++ [c]) i m := by
            rintro ⟨i, m, hr⟩
            obtain ⟨k, r', hk, hl⟩ := hw.going _ hs i m hr
            obtain ⟨i1, j1, m1, e1, _, r1, l1⟩ := leads_step_link hl hc hn
            have := (resolved_unique hr r1).1
            omega
          refine ⟨?_, hw.done, by simp, by simp, by simp, by simp, ?_, fun _ => ⟨p ++ [c], t, cs, rfl, hn, hno⟩⟩
          · intro x hx
            rcases List.mem_append.mp hx with hx | hx
            · exact hp' x hx
            · exact hcs' x hx
          · rintro _ ⟨k, r', hl⟩
            obtain ⟨i1, j1, m1, e1, _, r1, l1⟩ := leads_step_link hl hc hn
            exact hno ⟨_, _, r1⟩
      | none =>
        simp only [hs] at h
        have hstart : fs (linkStart t p) = some .dir := by
          unfold linkStart
          split
          · exact ht.1
          · exact hdir
        have hparts : DotsFirst (pathParts t) := hpl _ _ _ hn (pathParts_parts t)
        have hw1 : WaySeen fs (linkStart t p) (pathParts t) ((p ++ [c], none) :: seen) := by
          constructor
          · intro q m hq
            by_cases e : q = p ++ [c]
            · subst e; rw [lookup_cons_self] at hq; simp at hq
            · rw [lookup_cons_other _ e] at hq; exact hw.done q m hq
          · intro q hq i m hr
            by_cases e : q = p ++ [c]
            · subst e
              obtain ⟨p', c', t', e', hn', hl⟩ := hr
              rw [hn] at hn'
              injection hn' with hn'; injection hn' with hn'
              subst hn'
              have e1 := (List.append_inj' e' rfl).1
              subst e1
              exact ⟨i, m, Nat.le_refl _, hl⟩
            · rw [lookup_cons_other _ e] at hq
              obtain ⟨k, r', hk, hl⟩ := hw.going q hq i m hr
              obtain ⟨i1, j1, m1, e1, l0, _, _⟩ := leads_step_link hl hc hn
              exact ⟨i1, m1, by omega, l0⟩
        cases hfo : follow (linkStart t p) (pathParts t) ((p ++ [c], none) :: seen) with
        | none => simp only [hfo] at h; cases h
        | some res =>
          obtain ⟨m, ok1, seen1⟩ := res
          have hr1 := hf _ _ _ _ _ _ hfo hstart hparts hw1
          cases ok1 with
          | false =>
            simp only [hfo, Option.some.injEq, Prod.mk.injEq] at h
            obtain ⟨rfl, rfl, rfl⟩ := h
            rw [joinRest_plain _ _ hcs']
            refine ⟨?_, hr1.done, by simp, by simp, by simp, by simp, ?_, ?_⟩
            · intro x hx
              rcases List.mem_append.mp hx with hx | hx
              · exact hr1.plain x hx
              · exact hcs' x hx
            · rintro _ ⟨k, r', hl⟩
              obtain ⟨i1, j1, m1, e1, l0, r1, l1⟩ := leads_step_link hl hc hn
              exact hr1.not rfl ⟨_, _, l0⟩
            · intro _
              obtain ⟨q, t', rest, e, hq, hno⟩ := hr1.loop rfl
              exact ⟨q, t', rest ++ cs, by rw [e]; simp, hq, hno⟩
          | true =>
            simp only [hfo] at h
            have hdone : ∀ q m', List.lookup q ((p ++ [c], some m) :: seen1) = some (some m') →
                (∀ c ∈ m', ¬ Dots c) ∧ LinkFree fs m' ∧ (fs m' ≠ none → ∃ i, Resolved fs q i m') ∧ ∀ i m'', Resolved fs q i m'' → m'' = m' := by
              intro q m' hq
              by_cases e : q = p ++ [c]
              · subst e
                rw [lookup_cons_self] at hq
                simp only [Option.some.injEq] at hq
                subst hq
                refine ⟨hr1.plain, hr1.free rfl, ?_, ?_⟩
                · intro hm
                  obtain ⟨k, hl⟩ := hr1.leads rfl hm
                  exact ⟨k, p, c, t, rfl, hn, hl⟩
                · rintro i m'' ⟨p', c', t', e', hn', hl⟩
                  rw [hn] at hn'
                  injection hn' with hn'; injection hn' with hn'
                  subst hn'
                  have e1 := (List.append_inj' e' rfl).1
                  subst e1
                  exact hr1.only rfl _ _ hl
              · rw [lookup_cons_other _ e] at hq
                exact hr1.done q m' hq
            obtain ⟨_, _, d2, d3⟩ := hdone _ _ (lookup_cons_self seen1)
            have hgoing : ∀ q, List.lookup q ((p ++ [c], some m) :: seen1) = some none → seen.lookup q = some none := by
              intro q hq
              by_cases e : q = p ++ [c]
              · subst e; rw [lookup_cons_self] at hq; simp at hq
              · rw [lookup_cons_other _ e] at hq
                have := hr1.going rfl q hq
                rw [lookup_cons_other _ e] at this
                exact this
            have hw2 : WaySeen fs m cs ((p ++ [c], some m) :: seen1) := by
              refine ⟨hdone, ?_⟩
              intro q hq i m' hr
              obtain ⟨k, r', hk, hl⟩ := hw.going q (hgoing q hq) i m' hr
              obtain ⟨i1, j1, m1, e1, _, r1, l1⟩ := leads_step_link hl hc hn
              have := d3 _ _ r1
              subst this
              exact ⟨j1, r', by omega, l1⟩
            have hr := ih m _ r ok seen' h hr1.plain (hr1.free rfl) hcs' hw2
            refine ⟨hr.plain, hr.done, hr.free, fun hok q hq => hgoing q (hr.going hok q hq), ?_, ?_, ?_, hr.loop⟩
            · intro hok hrn
              obtain ⟨k, hl⟩ := hr.leads hok hrn
              obtain ⟨i, hres⟩ := d2 (leads_node hl)
              exact ⟨_, leads_link (r := r) ht hc hres hl⟩
            · intro hok k r' hl
              obtain ⟨i1, j1, m1, e1, _, r1, l1⟩ := leads_step_link hl hc hn
              have := d3 _ _ r1
              subst this
              exact hr.only hok _ _ l1
            · rintro hok ⟨k, r', hl⟩
              obtain ⟨i1, j1, m1, e1, _, r1, l1⟩ := leads_step_link hl hc hn
              have := d3 _ _ r1
              subst this
              exact hr.not hok ⟨_, _, l1⟩
    · have hlink' : ∀ t, fs (p ++ [c]) ≠ some (.link t) := fun t ht => hlink ⟨t, ht⟩
      have h' : realLoop fs follow (p ++ [c]) cs seen = some (r, ok, seen') := by
        cases hn : fs (p ++ [c]) with
        | none => simpa only [hn] using h
        | some n =>
          cases n with
          | link t => exact absurd hn (hlink' t)
          | dir => simpa only [hn] using h
          | file => simpa only [hn] using h
      have step : ∀ {k r'}, Leads fs k p (c :: cs) r' → Leads fs k (p ++ [c]) cs r' := by
        intro k r' hl
        rcases (leads_name hl hc).2 with ⟨_, _, h3⟩ | ⟨t, _, _, h3, _⟩
        · exact h3
        · exact absurd h3 (hlink' t)
      have hw' : WaySeen fs (p ++ [c]) cs seen := by
        refine ⟨hw.done, ?_⟩
        intro q hq i m' hr
        obtain ⟨k, r', hk, hl⟩ := hw.going q hq i m' hr
        exact ⟨k, r', hk, step hl⟩
      have hr := ih _ seen r ok seen' h' hp' (linkFree_snoc hfree hlink') hcs' hw'
      refine ⟨hr.plain, hr.done, hr.free, hr.going, ?_, ?_, ?_, hr.loop⟩
      · intro hok hrn
        obtain ⟨k, hl⟩ := hr.leads hok hrn
        have hne := leads_node hl
        exact ⟨k, .down (ht.2 p c hne).1 hc hne hlink' hl⟩
      · intro hok k r' hl
        exact hr.only hok _ _ (step hl)
      · rintro hok ⟨k, r', hl⟩
        exact hr.not hok ⟨_, _, step hl⟩

/-- Dots at the beginning go up from a directory, for `realpath` and for the kernel. -/
theorem realLoop_dots {fs : FileSystem} (ht : Tree fs) (follow : List Str → List Str → Seen → Option (List Str × Bool × Seen)) (b : List Str) : ∀ (a p : List Str),
    (∀ c ∈ a, Dots c) → fs p = some .dir → ∃ p', fs p' = some .dir ∧ (∀ seen, realLoop fs follow p (a ++ b) seen = realLoop fs follow p' b seen) ∧
      ∀ k r, Leads fs k p (a ++ b) r ↔ Leads fs k p' b r := by
  intro a
  induction a with
  | nil => intro p _ hp; exact ⟨p, hp, fun _ => rfl, fun _ _ => Iff.rfl⟩
  | cons c a ih =>
    intro p ha hp
    have ha' : ∀ c ∈ a, Dots c := fun x hx => ha x (by simp [hx])
    have hdrop : fs p.dropLast = some .dir := by
      rcases List.eq_nil_or_concat p with rfl | ⟨q, d, rfl⟩
      · exact ht.1
      · simp only [List.concat_eq_append] at hp ⊢
        rw [List.dropLast_concat]
        exact (ht.2 q d (by rw [hp]; simp)).1
    by_cases h1 : c = [] ∨ c = ['.']
    · obtain ⟨p', e1, e2, e3⟩ := ih p ha' hp
      refine ⟨p', e1, fun seen => ?_, fun k r => ?_⟩
      · rw [List.cons_append, realLoop, if_pos h1]; exact e2 seen
      · rw [← e3]
        exact ⟨fun h => (leads_stay h h1).2, fun h => .stay hp h1 h⟩
    · have h2 : c = ['.', '.'] := by
        rcases ha c (by simp) with h | h | h
        · exact absurd (Or.inl h) h1
        · exact absurd (Or.inr h) h1
        · exact h
      subst h2
      obtain ⟨p', e1, e2, e3⟩ := ih p.dropLast ha' hdrop
      refine ⟨p', e1, fun seen => ?_, fun k r => ?_⟩
      · rw [List.cons_append, realLoop, if_neg h1, if_pos rfl]; exact e2 seen
      · rw [← e3]
        exact ⟨fun h => (leads_up h).2, fun h => .up hp h⟩

theorem realLoop_way_dots (fs : FileSystem) (ht : Tree fs) (hpl : UpLinks fs) (follow : List Str → List Str → Seen → Option (List Str × Bool × Seen))
    (hf : ∀ p cs seen r ok seen', follow p cs seen = some (r, ok, seen') → fs p = some .dir → DotsFirst cs → WaySeen fs p cs seen → WayResult fs p cs seen r ok seen')
    (cs p : List Str) (seen : Seen) (r : List Str) (ok : Bool) (seen' : Seen) (h : realLoop fs follow p cs seen = some (r, ok, seen')) (hp : fs p = some .dir)
    (hcs : DotsFirst cs) (hw : WaySeen fs p cs seen) : WayResult fs p cs seen r ok seen' := by
  obtain ⟨a, b, rfl, ha, hb⟩ := hcs
  obtain ⟨p', e1, e2, e3⟩ := realLoop_dots ht follow b a p ha hp
  rw [e2] at h
  have hw' : WaySeen fs p' b seen := ⟨hw.done, fun q hq i m hr => by
    obtain ⟨k, r, hk, hl⟩ := hw.going q hq i m hr
    exact ⟨k, r, hk, (e3 k r).1 hl⟩⟩
  have hr := realLoop_way fs ht hpl follow hf b p' seen r ok seen' h (tree_plain ht _ p' rfl (by rw [e1]; simp)) (linkFree_dir ht _ p' rfl e1) hb hw'
  refine ⟨hr.plain, hr.done, hr.free, hr.going, ?_, ?_, ?_, hr.loop⟩
  · intro hok hrn
    obtain ⟨k, hl⟩ := hr.leads hok hrn
    exact ⟨k, (e3 k r).2 hl⟩
  · intro hok k r' hl
    exact hr.only hok k r' ((e3 k r').1 hl)
  · rintro hok ⟨k, r', hl⟩
    exact hr.not hok ⟨k, r', (e3 k r').1 hl⟩

theorem joinRealPath_way (fs : FileSystem) (ht : Tree fs) (hpl : UpLinks fs) : ∀ (depth : Nat) (p cs : List Str) (seen : Seen) (r : List Str) (ok : Bool)
    (seen' : Seen), joinRealPath fs depth p cs seen = some (r, ok, seen') → fs p = some .dir → DotsFirst cs → WaySeen fs p cs seen →
      WayResult fs p cs seen r ok seen' := by
  intro depth
  induction depth with
  | zero => intro p cs seen r ok seen'; exact realLoop_way_dots fs ht hpl _ (by intro _ _ _ _ _ _ h; cases h) cs p seen r ok seen'
  | succ n ih => intro p cs seen r ok seen'; exact realLoop_way_dots fs ht hpl _ ih cs p seen r ok seen'

theorem realLoop_append (fs : FileSystem) (follow : List Str → List Str → Seen → Option (List Str × Bool × Seen)) (b : List Str) :
    ∀ (a p m : List Str) (seen seen' : Seen), realLoop fs follow p a seen = some (m, true, seen') →
      realLoop fs follow p (a ++ b) seen = realLoop fs follow m b seen' := by
  intro a
  induction a with
  | nil =>
    intro p m seen seen' h
    simp only [realLoop, Option.some.injEq, Prod.mk.injEq, true_and] at h
    obtain ⟨rfl, rfl⟩ := h
    rfl
  | cons c cs ih =>
    intro p m seen seen' h
    simp only [realLoop, List.cons_append] at h ⊢
    by_cases h1 : c = [] ∨ c = ['.']
    · simp only [h1, if_true] at h ⊢; exact ih _ _ _ _ h
    · simp only [h1, if_false] at h ⊢
      by_cases h2 : c = ['.', '.']
      · simp only [h2, if_true] at h ⊢; exact ih _ _ _ _ h
      · simp only [h2, if_false] at h ⊢
        cases hn : fs (p ++ [c]) with
        | none => simp only [hn] at h ⊢; exact ih _ _ _ _ h
        | some n =>
          cases n with
          | dir => simp only [hn] at h ⊢; exact ih _ _ _ _ h
          | file => simp only [hn] at h ⊢; exact ih _ _ _ _ h
          | link t =>
            simp only [hn] at h ⊢
            cases hs : seen.lookup (p ++ [c]) with
            | some v =>
              cases v with
              | some q => simp only [hs] at h ⊢; exact ih _ _ _ _ h
              | none => simp [hs] at h
            | none =>
              simp only [hs] at h ⊢
              cases hf : follow (linkStart t p) (pathParts t) ((p ++ [c], none) :: seen) with
              | none => simp [hf] at h
              | some res =>
                obtain ⟨q, ok, seen1⟩ := res
                cases ok with
                | false => simp [hf] at h
                | true => simp only [hf] at h ⊢; exact ih _ _ _ _ h

theorem joinRealPath_append (fs : FileSystem) (depth : Nat) (a b p m : List Str) (seen seen' : Seen)
    (h : joinRealPath fs depth p a seen = some (m, true, seen')) : joinRealPath fs depth p (a ++ b) seen = joinRealPath fs depth m b seen' := by
  cases depth with
  | zero => exact realLoop_append fs _ b a p m seen seen' h
  | succ n => exact realLoop_append fs _ b a p m seen seen' h

/-! ### Joining a directory and a text -/

theorem pathParts_rel {x : Str} (h : ¬ ∃ r, x = '/' :: r) : pathParts x = splitOn '/' x := by
  have : ¬ startsWith x ['/'] = true := fun hh => h ((startsWith_slash x).mp hh)
  simp [pathParts, this]

theorem linkStart_rel {x : Str} (h : ¬ ∃ r, x = '/' :: r) (p : List Str) : linkStart x p = p := by
  have : ¬ startsWith x ['/'] = true := fun hh => h ((startsWith_slash x).mp hh)
  simp [linkStart, this]

/-- Where a path made of a directory and something relative begins and the parts it has, but for the empty part of "" and "/". -/
theorem join_parts (cwd : List Str) {dir x : Str} (hx : x ≠ []) (hr : ¬ ∃ r, x = '/' :: r) :
    linkStart (pathJoin dir x) cwd = linkStart dir cwd ∧
    (pathParts (pathJoin dir x) = pathParts dir ++ splitOn '/' x ∨ (pathParts dir = [[]] ∧ pathParts (pathJoin dir x) = splitOn '/' x)) := by
  unfold pathJoin
  by_cases hd : dir = []
  · subst hd
    simp only [ne_eq, not_true_eq_false, if_false]
    refine ⟨?_, Or.inr ⟨by decide, pathParts_rel hr⟩⟩
    rw [linkStart_rel hr]; rfl
  · simp only [ne_eq, hd, not_false_eq_true, hx, if_true]
    by_cases hs : dir = ['/']
    · subst hs
      simp only [if_true]
      refine ⟨by simp [linkStart, startsWith], Or.inr ⟨by decide, by simp [pathParts, startsWith]⟩⟩
    · simp only [hs, if_false]
      by_cases ha : ∃ r, dir = '/' :: r
      · obtain ⟨r, rfl⟩ := ha
        refine ⟨by simp [linkStart, startsWith], Or.inl ?_⟩
        simp only [pathParts, startsWith, List.isPrefixOf, List.cons_append, beq_self_eq_true, Bool.and_self, if_true, List.drop_succ_cons, List.drop_zero]
        exact splitOn_append_sep' '/' r x
      · have ha' : ¬ ∃ r, dir ++ '/' :: x = '/' :: r := by
          rintro ⟨r, e⟩
          cases dir with
          | nil => exact hd rfl
          | cons y ys => simp at e; exact ha ⟨ys, by rw [e.1]⟩
        refine ⟨by rw [linkStart_rel ha, linkStart_rel ha'], Or.inl ?_⟩
        rw [pathParts_rel ha, pathParts_rel ha']
        exact splitOn_append_sep' '/' dir x

theorem leads_join {fs : FileSystem} {cwd : List Str} {dir x : Str} (hx : x ≠ []) (hr : ¬ ∃ r, x = '/' :: r) {k i : Nat} {p r : List Str}
    (hd : Leads fs i (linkStart dir cwd) (pathParts dir) p) (hp : fs p = some .dir) :
    Leads fs k (linkStart (pathJoin dir x) cwd) (pathParts (pathJoin dir x)) r ↔ ∃ j, i + j = k ∧ Leads fs j p (splitOn '/' x) r := by
  obtain ⟨h1, h2⟩ := join_parts cwd (dir := dir) hx hr
  rw [h1]
  rcases h2 with h2 | ⟨h2, h3⟩
  · rw [h2]
    constructor
    · intro h
      obtain ⟨m, i', j, e, l1, l2⟩ := leads_split h _ _ rfl
      obtain ⟨rfl, rfl⟩ := leads_unique hd l1
      exact ⟨j, e, l2⟩
    · rintro ⟨j, rfl, h⟩
      exact leads_append hd h
  · rw [h3]
    rw [h2] at hd
    have h4 := (leads_stay hd (Or.inl rfl)).2
    generalize hs : linkStart dir cwd = s at h4
    cases h4
    exact ⟨fun h => ⟨k, by omega, h⟩, fun ⟨j, e, h⟩ => by rw [show k = j by omega]; exact h⟩

theorem reaches_iff {fs : FileSystem} {cwd : List Str} {path : Str} {r : List Str} :
    PathReaches fs cwd path r ↔ ∃ k, Leads fs k (linkStart path cwd) (pathParts path) r := by
  constructor
  · rintro ⟨s, cs, k, h1, h2, h3⟩
    rw [from_unique h1, parts_unique h2] at h3
    exact ⟨k, h3⟩
  · rintro ⟨k, h⟩
    exact ⟨_, _, k, linkStart_from _ _, pathParts_parts _, h⟩

theorem statOf_iff {fs : FileSystem} {cwd : List Str} {path : Str} {r : List Str} :
    StatOf fs cwd path r ↔ ∃ k, k ≤ 40 ∧ Leads fs k (linkStart path cwd) (pathParts path) r := by
  constructor
  · rintro ⟨s, cs, k, h1, h2, h3, h4⟩
    rw [from_unique h1, parts_unique h2] at h4
    exact ⟨k, h3, h4⟩
  · rintro ⟨k, h, h'⟩
    exact ⟨_, _, k, linkStart_from _ _, pathParts_parts _, h, h'⟩

theorem name_rel {name : Str} (h : IsFileName name) : name ≠ [] ∧ (¬ ∃ r, name = '/' :: r) ∧ splitOn '/' name = [name] := by
  refine ⟨h.1, ?_, splitOn_not_mem '/' name h.2⟩
  rintro ⟨r, rfl⟩
  exact h.2 (by simp)

/-- The way of a symbolic link: the way to its directory, then that of its text. -/
theorem leads_through {fs : FileSystem} (ht : Tree fs) {cwd : List Str} {dir name text : Str} {p : List Str} (hl : LinkAt fs cwd dir name text p) :
    fs p = some .dir ∧ ∃ i, i ≤ 40 ∧ Leads fs i (linkStart dir cwd) (pathParts dir) p ∧
    ∀ k r, Leads fs k (linkStart (pathJoin dir name) cwd) (pathParts (pathJoin dir name)) r ↔
      ∃ j, i + j + 1 = k ∧ Leads fs j (linkStart text p) (pathParts text) r := by
  obtain ⟨s, cs, i, h1, h2, hi, h3, hn, hdots, hlink, hne⟩ := hl
  rw [from_unique h1, parts_unique h2] at h3
  obtain ⟨n1, n2, n3⟩ := name_rel hn
  have hp := (ht.2 p name (by rw [hlink]; simp)).1
  refine ⟨hp, i, hi, h3, ?_⟩
  intro k r
  rw [leads_join n1 n2 h3 hp, n3]
  constructor
  · rintro ⟨j, e, h⟩
    rcases (leads_name h hdots).2 with ⟨_, h4, _⟩ | ⟨t, k', e', h4, h5⟩
    · exact absurd hlink (h4 text)
    · rw [hlink] at h4
      injection h4 with h4; injection h4 with h4
      subst h4
      rw [List.append_nil] at h5
      exact ⟨k', by omega, h5⟩
  · rintro ⟨j, e, h⟩
    refine ⟨j + 1, by omega, ?_⟩
    exact .link hp hdots hlink (linkStart_from text p) (pathParts_parts text) (by rw [List.append_nil]; exact h)

/-- The way `realpath` is asked about: that of the link, if it is relative or found in the current directory without any path. -/
theorem leads_asked {fs : FileSystem} (ht : Tree fs) {cwd : List Str} {dir name text : Str} {p : List Str} (hl : LinkAt fs cwd dir name text p)
    (hrel : (¬ ∃ r, text = '/' :: r) ∨ dir = []) : ∃ i, i ≤ 40 ∧ Leads fs i (linkStart dir cwd) (pathParts dir) p ∧
    ∀ k r, Leads fs k (linkStart (pathJoin dir text) cwd) (pathParts (pathJoin dir text)) r ↔ ∃ j, i + j = k ∧ Leads fs j (linkStart text p) (pathParts text) r := by
  obtain ⟨hp, i, hi, h3, _⟩ := leads_through ht hl
  have hne : text ≠ [] := by obtain ⟨_, _, _, _, _, _, _, _, _, _, h⟩ := hl; exact h
  refine ⟨i, hi, h3, ?_⟩
  intro k r
  by_cases hr : ∃ r, text = '/' :: r
  · have hd : dir = [] := by rcases hrel with h | h; exact absurd hr h; exact h
    subst hd
    have : linkStart [] cwd = cwd := rfl
    rw [this] at h3
    have h4 := (leads_stay (show Leads fs i cwd [[]] p from h3) (Or.inl rfl)).2
    cases h4
    have e : pathJoin [] text = text := by simp [pathJoin]
    rw [e]
    exact ⟨fun h => ⟨k, by omega, h⟩, fun ⟨j, e, h⟩ => by rw [show k = j by omega]; exact h⟩
  · rw [leads_join hne hr h3 hp, linkStart_rel hr, pathParts_rel hr]

theorem goodSeen_nil (fs : FileSystem) (k : Nat) : GoodSeen fs k [] := by intro q v h; simp [List.lookup] at h

/-- **C91**: what is found out about a symbolic link that leads to a file, if it is relative (or in the current directory, given without a path): its text, the path of the
file it leads to, and that it is not broken. -/
theorem C91_target_partial (fs : FileSystem) (ht : Tree fs) (depth : Nat) (hd : 80 ≤ depth) (cwd : List Str) (hcwd : fs cwd = some .dir) (dir name text : Str)
    (p r : List Str) (hl : LinkAt fs cwd dir name text p) (hrel : (¬ ∃ r, text = '/' :: r) ∨ dir = []) (hs : StatOf fs cwd (pathJoin dir name) r) :
    linkInfo fs depth cwd dir (.link text) = some { link := some text, target := some r, broken := false } := by
  obtain ⟨hp, i, hi, _, hthrough⟩ := leads_through ht hl
  obtain ⟨i', hi', _, hasked⟩ := leads_asked ht hl hrel
  obtain ⟨k, hk, h⟩ := statOf_iff.mp hs
  obtain ⟨j, e, h⟩ := (hthrough k r).mp h
  have h := (hasked (i' + j) r).mpr ⟨j, rfl, h⟩
  obtain ⟨seen', hreal, _⟩ := joinRealPath_leads fs depth _ _ _ r [] (by omega) h (goodSeen_nil fs _)
  have hrn := leads_end h
  have hnl := leads_notlink ht h (by
    intro t
    unfold linkStart
    split
    · rw [ht.1]; simp
    · rw [hcwd]; simp)
  have hplain := tree_plain ht _ r rfl hrn
  have hr : realPath fs depth cwd (pathJoin dir text) = some r := by
    unfold realPath
    rw [hreal]
    simp only [Option.map_some]
    rw [normNames_plain _ _ hplain, List.nil_append]
  have hex : osPathExists fs r = true := (exists_iff fs r).mpr ⟨0, r, by omega, leads_place ht _ r rfl hrn hnl⟩
  simp only [linkInfo, hr, hex, Bool.not_true]

/-- **C91**: a symbolic link is reported as broken if and only if it leads to no file, provided it is relative (or found in the current directory) and the texts of symbolic links
have dots at the beginning only, as in `../../lib/x`. -/
theorem C91_broken_partial (fs : FileSystem) (ht : Tree fs) (hpl : UpLinks fs) (depth : Nat) (hd : 40 ≤ depth) (cwd : List Str) (hcwd : fs cwd = some .dir)
    (dir name text : Str) (p : List Str) (hl : LinkAt fs cwd dir name text p) (hrel : (¬ ∃ r, text = '/' :: r) ∨ dir = []) (info : LinkInfo)
    (hi : linkInfo fs depth cwd dir (.link text) = some info) : info.broken = false ↔ ∃ r, PathReaches fs cwd (pathJoin dir name) r := by
  obtain ⟨hp, i, hi1, _, hthrough⟩ := leads_through ht hl
  obtain ⟨i', hi', hdir, hasked⟩ := leads_asked ht hl hrel
  have hlink : fs (p ++ [name]) = some (.link text) := by obtain ⟨_, _, _, _, _, _, _, _, _, h, _⟩ := hl; exact h
  have hne : text ≠ [] := by obtain ⟨_, _, _, _, _, _, _, _, _, _, h⟩ := hl; exact h
  have htext : DotsFirst (pathParts text) := hpl _ _ _ hlink (pathParts_parts text)
  have hcw : fs (linkStart text p) = some .dir := by
    unfold linkStart
    split
    · exact ht.1
    · exact hp
  have hgo : ∃ seen1, joinRealPath fs depth (linkStart (pathJoin dir text) cwd) (pathParts (pathJoin dir text)) [] =
      joinRealPath fs depth (linkStart text p) (pathParts text) seen1 ∧ WaySeen fs (linkStart text p) (pathParts text) seen1 := by
    by_cases hr : ∃ r, text = '/' :: r
    · have hd : dir = [] := by rcases hrel with h | h; exact absurd hr h; exact h
      subst hd
      have e : pathJoin [] text = text := by simp [pathJoin]
      rw [e]
      refine ⟨[], ?_, ⟨by intro q m h; simp [List.lookup] at h, by intro q h; simp [List.lookup] at h⟩⟩
      obtain ⟨r, rfl⟩ := hr
      simp [linkStart, startsWith]
    · obtain ⟨e1, e2⟩ := join_parts cwd (dir := dir) hne hr
      obtain ⟨seen1, g1, g2⟩ := joinRealPath_leads fs depth i' _ _ p [] (by omega) hdir (goodSeen_nil fs _)
      have hw : WaySeen fs (linkStart text p) (pathParts text) seen1 := by
        constructor
        · intro q m hq
          obtain ⟨i, hres⟩ := g2 q (some m) hq
          have hm : fs m ≠ none := by obtain ⟨_, _, _, _, _, h⟩ := hres; exact leads_end h
          have hml : LinkFree fs m := by
            obtain ⟨p1, c1, t1, e1, n1, h⟩ := hres
            refine linkFree_end ht hm (leads_notlink ht h ?_)
            intro t'
            unfold linkStart
            split
            · rw [ht.1]; simp
            · rw [e1] at n1; rw [(ht.2 p1 c1 (by rw [n1]; simp)).1]; simp
          exact ⟨tree_plain ht _ m rfl hm, hml, fun _ => ⟨i, hres⟩, fun i' m' h => (resolved_unique h hres).2⟩
        · intro q hq
          have := g2 q none hq
          simp [List.lookup] at this
      rcases e2 with e2 | ⟨e2, e3⟩
      · refine ⟨seen1, ?_, hw⟩
        rw [e1, e2, joinRealPath_append fs depth _ _ _ _ _ _ g1, linkStart_rel hr, pathParts_rel hr]
      · refine ⟨[], ?_, ⟨by intro q m h; simp [List.lookup] at h, by intro q h; simp [List.lookup] at h⟩⟩
        rw [e1, e3, linkStart_rel hr, pathParts_rel hr]
        rw [e2] at hdir
        have h4 := (leads_stay hdir (Or.inl rfl)).2
        generalize linkStart dir cwd = s at h4
        cases h4
        rfl
  obtain ⟨seen1, hgo, hw⟩ := hgo
  have hreach : (∃ r, PathReaches fs cwd (pathJoin dir name) r) ↔ ∃ j r, Leads fs j (linkStart text p) (pathParts text) r := by
    constructor
    · rintro ⟨r, h⟩
      obtain ⟨k, h⟩ := reaches_iff.mp h
      obtain ⟨j, _, h⟩ := (hthrough k r).mp h
      exact ⟨j, r, h⟩
    · rintro ⟨j, r, h⟩
      exact ⟨r, reaches_iff.mpr ⟨_, (hthrough _ r).mpr ⟨j, rfl, h⟩⟩⟩
  rw [hreach]
  simp only [linkInfo, realPath, hgo] at hi
  cases hj : joinRealPath fs depth (linkStart text p) (pathParts text) seen1 with
  | none => simp [hj] at hi
  | some res =>
    obtain ⟨r, ok, seen2⟩ := res
    have hres := joinRealPath_way fs ht hpl depth _ _ _ _ _ _ hj hcw htext hw
    simp only [hj, Option.map_some, Option.some.injEq] at hi
    rw [normNames_plain _ _ hres.plain, List.nil_append] at hi
    subst hi
    simp only [Bool.not_eq_false']
    rw [exists_iff]
    cases ok with
    | true =>
      constructor
      · rintro ⟨k, r', _, h⟩
        have := leads_free r k [] r' h hres.plain (by rw [List.nil_append]; exact hres.free rfl)
        rw [List.nil_append] at this
        obtain ⟨k, h⟩ := hres.leads rfl this
        exact ⟨k, r, h⟩
      · rintro ⟨j, r', h⟩
        have := hres.only rfl _ _ h
        subst this
        have hnl := leads_notlink ht h (by
          intro t
          unfold linkStart
          split
          · rw [ht.1]; simp
          · rw [hp]; simp)
        exact ⟨0, r', by omega, leads_place ht _ r' rfl (leads_end h) hnl⟩
    | false =>
      constructor
      · rintro ⟨k, r', _, h⟩
        obtain ⟨q, t, rest, rfl, hq, hno⟩ := hres.loop rfl
        exfalso
        apply hno
        rcases List.eq_nil_or_concat q with rfl | ⟨base, c, rfl⟩
        · rw [ht.1] at hq; simp at hq
        · simp only [List.concat_eq_append] at hq h ⊢
          obtain ⟨hb, hc, _⟩ := ht.2 base c (by rw [hq]; simp)
          have hplace := leads_place ht _ base rfl (by rw [hb]; simp) (by intro t; rw [hb]; simp)
          rw [List.append_assoc] at h
          obtain ⟨m, i1, j1, _, l1, l2⟩ := leads_split h _ _ rfl
          obtain ⟨_, e⟩ := leads_unique hplace l1
          subst e
          obtain ⟨i2, _, m2, _, _, r2, _⟩ := leads_step_link l2 hc hq
          exact ⟨i2, m2, r2⟩
      · rintro ⟨j, r', h⟩
        exact absurd ⟨j, r', h⟩ (hres.not rfl)

/-- **C91**: for anything but a symbolic link there is no link and no target, and it is not broken. -/
theorem C91_other (fs : FileSystem) (depth : Nat) (cwd : List Str) (dir : Str) (n : FileNode) (hn : ∀ t, n ≠ .link t) :
    linkInfo fs depth cwd dir n = some { link := none, target := none, broken := false } := by
  cases n with
  | link t => exact absurd rfl (hn t)
  | dir => rfl
  | file => rfl

/-! ### Some file systems -/

/-- A file system with the given files. -/
def fileSystemOf (l : List (List Str × FileNode)) : FileSystem := fun p => if p = [] then some .dir else l.lookup p

theorem lookup_mem {l : List (List Str × FileNode)} {p : List Str} {n : FileNode} (h : l.lookup p = some n) : (p, n) ∈ l := by
  induction l with
  | nil => simp [List.lookup] at h
  | cons e l ih =>
    obtain ⟨q, m⟩ := e
    by_cases hq : p = q
    · subst hq; simp [List.lookup] at h; subst h; simp
    · have : (p == q) = false := by simpa using hq
      simp only [List.lookup, this] at h
      exact List.mem_cons_of_mem _ (ih h)

theorem tree_of {l : List (List Str × FileNode)} (h : ∀ e ∈ l, fileSystemOf l e.1.dropLast = some .dir ∧
    (∀ c ∈ e.1.getLast?, ¬ (c = [] ∨ c = ['.'] ∨ c = ['.', '.']) ∧ '/' ∉ c)) : Tree (fileSystemOf l) := by
  refine ⟨rfl, ?_⟩
  intro p c hp
  cases hl : fileSystemOf l (p ++ [c]) with
  | none => exact absurd hl hp
  | some n =>
    simp only [fileSystemOf, List.append_eq_nil_iff, List.cons_ne_nil, and_false, if_false] at hl
    obtain ⟨h1, h2⟩ := h _ (lookup_mem hl)
    simp only [List.dropLast_concat] at h1
    exact ⟨h1, h2 c (by simp)⟩

/-- `/a/l` is a symbolic link to `/etc`, `/a/m` one to `../b`, `/a/n` one to nowhere, `/a/o` one to itself, `/p` one to `x/../b`, `/b` one to `a`. -/
def demoFs : FileSystem := fileSystemOf
  [([['a']], .dir), ([['e', 't', 'c']], .dir), ([['a'], ['l']], .link ['/', 'e', 't', 'c']), ([['a'], ['m']], .link ['.', '.', '/', 'b']),
   ([['a'], ['n']], .link ['x', '/', 'y']), ([['a'], ['o']], .link ['o']), ([['p']], .link ['x', '/', '.', '.', '/', 'b']),
   ([['b']], .link ['a'])]

set_option maxRecDepth 20000 in
theorem demoFs_tree : Tree demoFs := tree_of (by decide)

theorem demoFs_link (dir name text : Str) (p : List Str) (hp : demoFs p = some .dir) (hd : dir = pathOf p) (hf : p = [] ∨ p = [['a']])
    (hn : IsFileName name ∧ ¬ (name = [] ∨ name = ['.'] ∨ name = ['.', '.'])) (hl : demoFs (p ++ [name]) = some (.link text)) (ht : text ≠ []) :
    LinkAt demoFs [] dir name text p := by
  subst hd
  refine ⟨_, _, 0, linkStart_from _ _, pathParts_parts _, by omega, ?_, hn.1, hn.2, hl, ht⟩
  rcases hf with rfl | rfl
  · exact .stay rfl (Or.inl rfl) (.here (by decide))
  · exact .down rfl (by unfold Dots; decide) (by decide) (by intro t h; have h2 : some FileNode.dir = some (FileNode.link t) := hp.symm.trans h; cases h2) (.here (by decide))

/-- The hypotheses of `C91_target_partial` are met by the symbolic link `a/m`, which leads to the directory `a` by way of another one. -/
example : linkInfo demoFs 1000 [] ['a'] (.link ['.', '.', '/', 'b']) = some { link := some ['.', '.', '/', 'b'], target := some [['a']], broken := false } := by
  refine C91_target_partial demoFs demoFs_tree 1000 (by omega) [] rfl ['a'] ['m'] ['.', '.', '/', 'b'] [['a']] _
    (demoFs_link _ _ _ _ rfl rfl (Or.inr rfl) (by unfold IsFileName; decide) rfl (by decide)) (Or.inl (by rintro ⟨r, h⟩; simp at h)) ?_
  refine statOf_iff.mpr ⟨2, by omega, ?_⟩
  exact ((kernelWalk_leads demoFs 40 _ _ _ 38).mp (by decide +kernel)).2

/-- `a/l` leads to `/etc`, but is said to be broken and to have the target `/a/etc`. -/
theorem C91_absolute_false : ∃ (fs : FileSystem) (dir name text : Str) (p r : List Str), Tree fs ∧ LinkAt fs [] dir name text p ∧
    StatOf fs [] (pathJoin dir name) r ∧ ∀ depth, ∃ t, linkInfo fs depth [] dir (.link text) = some { link := some text, target := some t, broken := true } ∧ t ≠ r := by
  refine ⟨demoFs, ['a'], ['l'], ['/', 'e', 't', 'c'], [['a']], [['e', 't', 'c']], demoFs_tree,
    demoFs_link _ _ _ _ rfl rfl (Or.inr rfl) (by unfold IsFileName; decide) rfl (by decide), statOf_iff.mpr ⟨1, by omega, ?_⟩, ?_⟩
  · exact ((kernelWalk_leads demoFs 40 _ _ _ 39).mp (by decide +kernel)).2
  · intro depth
    refine ⟨[['a'], ['e', 't', 'c']], ?_, by decide⟩
    cases depth <;> rfl

/-- `p` leads to no file, as there is no `x`, but is said not to be broken. -/
theorem C91_dots_false : ∃ (fs : FileSystem) (dir name text : Str) (p t : List Str), Tree fs ∧ LinkAt fs [] dir name text p ∧ (¬ ∃ r, text = '/' :: r) ∧
    (¬ ∃ r, PathReaches fs [] (pathJoin dir name) r) ∧ ∀ depth, linkInfo fs (depth + 1) [] dir (.link text) = some { link := some text, target := some t, broken := false } := by
  refine ⟨demoFs, [], ['p'], ['x', '/', '.', '.', '/', 'b'], [], [['a']], demoFs_tree,
    demoFs_link _ _ _ _ rfl rfl (Or.inl rfl) (by unfold IsFileName; decide) rfl (by decide), (by rintro ⟨r, h⟩; simp at h), ?_, ?_⟩
  · rintro ⟨r, h⟩
    obtain ⟨_, _, _, _, h2⟩ := leads_through demoFs_tree (demoFs_link [] ['p'] ['x', '/', '.', '.', '/', 'b'] [] rfl rfl (Or.inl rfl)
      (by unfold IsFileName; decide) rfl (by decide))
    obtain ⟨k, h⟩ := reaches_iff.mp h
    obtain ⟨j, _, h⟩ := (h2 k r).mp h
    have h : Leads demoFs j [] (['x'] :: [['.', '.'], ['b']]) r := h
    rcases (leads_name h (by unfold Dots; decide)).2 with ⟨h3, _, _⟩ | ⟨t, _, _, h3, _⟩
    · exact h3 (by decide)
    · have : demoFs [['x']] = none := by decide
      have h4 : none = some (FileNode.link t) := this.symm.trans h3
      cases h4
  · intro depth
    cases depth <;> rfl

/-- A file system with dots at the beginning of a link: `/a/n` leads nowhere, `/a/o` to itself, `/a/u` to `/b` and so to `/a`. -/
def plainFs : FileSystem := fileSystemOf
  [([['a']], .dir), ([['a'], ['n']], .link ['x', '/', 'y']), ([['a'], ['o']], .link ['o']), ([['a'], ['u']], .link ['.', '.', '/', 'b']), ([['b']], .link ['a'])]

set_option maxRecDepth 20000 in
theorem plainFs_tree : Tree plainFs := tree_of (by decide)

theorem plainFs_up : UpLinks plainFs := by
  intro p t ts h hp
  rw [parts_unique hp]
  have h' : plainFs p = some (.link t) := h
  unfold plainFs fileSystemOf at h'
  split at h'
  · simp at h'
  · have hm := lookup_mem h'
    simp only [List.mem_cons, Prod.mk.injEq, FileNode.link.injEq, reduceCtorEq, and_false, false_or, List.not_mem_nil, or_false] at hm
    rcases hm with ⟨_, rfl⟩ | ⟨_, rfl⟩ | ⟨_, rfl⟩ | ⟨_, rfl⟩
    · exact ⟨[], [['x'], ['y']], rfl, by unfold Dots; decide, by unfold Dots; decide⟩
    · exact ⟨[], [['o']], rfl, by unfold Dots; decide, by unfold Dots; decide⟩
    · exact ⟨[['.', '.']], [['b']], rfl, by unfold Dots; decide, by unfold Dots; decide⟩
    · exact ⟨[], [['a']], rfl, by unfold Dots; decide, by unfold Dots; decide⟩

theorem plainFs_link (name text : Str) (h : IsFileName name ∧ ¬ Dots name ∧ plainFs [['a'], name] = some (.link text) ∧ text ≠ []) :
    LinkAt plainFs [] ['a'] name text [['a']] :=
  ⟨_, _, 0, linkStart_from _ _, pathParts_parts _, by omega, ((kernelWalk_leads plainFs 40 _ _ _ 40).mp (by decide +kernel)).2, h.1, h.2.1, h.2.2.1, h.2.2.2⟩

/-- The hypotheses of `C91_broken_partial` are met by the symbolic link `a/o` to itself, which leads nowhere, and by `a/u`, which leads to `/a`. -/
example : (¬ ∃ r, PathReaches plainFs [] ['a', '/', 'o'] r) ∧ ∃ r, PathReaches plainFs [] ['a', '/', 'u'] r := by
  constructor
  · intro h
    have h1 : linkInfo plainFs 40 [] ['a'] (.link ['o']) = some { link := some ['o'], target := some [['a'], ['o']], broken := true } := by decide +kernel
    have := (C91_broken_partial plainFs plainFs_tree plainFs_up 40 (by omega) [] rfl ['a'] ['o'] ['o'] [['a']]
      (plainFs_link ['o'] ['o'] ⟨by unfold IsFileName; decide, by unfold Dots; decide, rfl, by decide⟩) (Or.inl (by rintro ⟨r, h⟩; simp at h)) _ h1).mpr h
    cases this
  · have h1 : linkInfo plainFs 40 [] ['a'] (.link ['.', '.', '/', 'b']) = some { link := some ['.', '.', '/', 'b'], target := some [['a']], broken := false } := by decide +kernel
    exact (C91_broken_partial plainFs plainFs_tree plainFs_up 40 (by omega) [] rfl ['a'] ['u'] ['.', '.', '/', 'b'] [['a']]
      (plainFs_link ['u'] ['.', '.', '/', 'b'] ⟨by unfold IsFileName; decide, by unfold Dots; decide, rfl, by decide⟩) (Or.inl (by rintro ⟨r, h⟩; simp at h)) _ h1).mp rfl

end FF
