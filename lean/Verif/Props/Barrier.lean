import Verif.Spec.Barrier
namespace FF
open Spec

theorem BSteps.inv {P : Bar → Prop} (hP : ∀ {s t}, BStep s t → P s → P t) {s t : Bar} (h : BSteps s t) (hs : P s) : P t := by
  induction h with
  | refl => exact hs
  | step _ h ih => exact hP h ih

theorem BSteps.trans {s t u : Bar} (h1 : BSteps s t) (h2 : BSteps t u) : BSteps s u := by
  induction h2 with
  | refl => exact h1
  | step _ h ih => exact .step ih h

/-! ### The lock -/

/-- The process holds the lock. -/
def BPos.holds : BPos → Bool
  | .enter | .look _ | .notify _ _ | .exit _ | .reset => true
  | _ => false

/-- The process is counted by the semaphore for the sleepers. -/
def BPos.sleeps : BPos → Bool
  | .asleep | .drained | .dead => true
  | _ => false

def BPos.notifies : BPos → Bool
  | .notify _ _ => true
  | _ => false

/-- How many processes it waits for. -/
def BPos.owed : BPos → Nat
  | .notify k _ => k
  | _ => 0

def sleepers (s : Bar) : Nat := s.procs.countP BPos.sleeps
def holders (s : Bar) : Nat := s.procs.countP BPos.holds
def notifiers (s : Bar) : Nat := s.procs.countP BPos.notifies
def owed (s : Bar) : Nat := (s.procs.map BPos.owed).sum

theorem owed_zero {l : List BPos} (h : l.countP BPos.notifies = 0) : (l.map BPos.owed).sum = 0 := by
  induction l with
  | nil => rfl
  | cons x l ih =>
    rw [List.countP_cons] at h
    rw [List.map_cons, List.sum_cons, ih (by omega)]
    cases x <;> simp [BPos.notifies, BPos.owed] at h ⊢

theorem notifies_holds {l : List BPos} : l.countP BPos.notifies ≤ l.countP BPos.holds :=
  List.countP_mono_left fun x _ h => by cases x <;> simp_all [BPos.notifies, BPos.holds]

theorem afterWait_holds (ok : Bool) : (afterWait ok).holds = false := by cases ok <;> rfl
theorem afterWait_sleeps (ok : Bool) : (afterWait ok).sleeps = false := by cases ok <;> rfl
theorem afterWait_notifies (ok : Bool) : (afterWait ok).notifies = false := by cases ok <;> rfl
theorem afterWait_owed (ok : Bool) : (afterWait ok).owed = 0 := by cases ok <;> rfl

/-- The semaphores, the lock and the numbers of processes. -/
def SemsAt (s : BShared) (H N A O : Nat) : Prop :=
  H = s.locked.toNat ∧ (N = 0 → s.tokens = 0 ∧ s.sleeping = A + s.woken) ∧ (N ≠ 0 → s.sleeping = 0 ∧ s.woken + A = O)

theorem BAct.sems {n : Nat} {s s' : BShared} {x x' : BPos} (h : BAct n (s, x) (s', x')) (H N A O : Nat) (hN : N ≤ H) (hO : N = 0 → O = 0)
    (hs : SemsAt s (H + x.holds.toNat) (N + x.notifies.toNat) (A + x.sleeps.toNat) (O + x.owed)) :
    SemsAt s' (H + x'.holds.toNat) (N + x'.notifies.toNat) (A + x'.sleeps.toNat) (O + x'.owed) := by
  obtain ⟨ph, c, lk, S, W, T⟩ := s
  obtain ⟨h1, h2, h3⟩ := hs
  have hl := Bool.toNat_le lk
  generalize hx : ((⟨ph, c, lk, S, W, T⟩ : BShared), x) = p at h
  generalize hy : (s', x') = q at h
  unfold SemsAt
  cases h <;> simp only [Prod.mk.injEq, BShared.notifyAll] at hx hy <;> obtain ⟨rfl, rfl⟩ := hx <;> obtain ⟨rfl, rfl⟩ := hy <;>
    (try simp only [afterWait_holds, afterWait_sleeps, afterWait_notifies, afterWait_owed]) <;>
    simp only [BPos.holds, BPos.notifies, BPos.sleeps, BPos.owed, Bool.toNat_true, Bool.toNat_false, Nat.add_zero] at h1 h2 h3 ⊢ <;>
    simp_all <;> omega


def Sems (s : Bar) : Prop := SemsAt s.shared (holders s) (notifiers s) (sleepers s) (owed s)

theorem toNat_ite (b : Bool) : (if b = true then 1 else 0) = b.toNat := by cases b <;> rfl

/-- The numbers of a process and of the others. -/
theorem split_counts (l r : List BPos) (x : BPos) (s : BShared) :
    Sems ⟨s, l ++ x :: r⟩ ↔ SemsAt s (l.countP BPos.holds + r.countP BPos.holds + x.holds.toNat) (l.countP BPos.notifies + r.countP BPos.notifies + x.notifies.toNat)
      (l.countP BPos.sleeps + r.countP BPos.sleeps + x.sleeps.toNat) ((l.map BPos.owed).sum + (r.map BPos.owed).sum + x.owed) := by
  simp only [Sems, holders, notifiers, sleepers, owed, List.countP_append, List.countP_cons, List.map_append, List.map_cons, List.sum_append, List.sum_cons, toNat_ite]
  have e : ∀ a b c : Nat, a + (b + c) = a + b + c := fun a b c => by omega
  have e' : ∀ a b c : Nat, a + (b + c) = a + c + b := fun a b c => by omega
  rw [e, e, e, e']

theorem Sems.step {s t : Bar} (h : BStep s t) (hs : Sems s) : Sems t := by
  cases h with
  | @act s l x r s' x' h =>
    rw [split_counts] at hs ⊢
    refine h.sems _ _ _ _ ?_ ?_ hs
    · have := notifies_holds (l := l)
      have := notifies_holds (l := r)
      omega
    · intro h0
      rw [owed_zero (by omega), owed_zero (by omega)]

theorem Sems.init (n : Nat) : Sems (Bar.init n) := by
  have h : ∀ p : BPos → Bool, p .out = false → (List.replicate n BPos.out).countP p = 0 := by
    intro p hp
    rw [List.countP_replicate]
    simp [hp]
  have ho : ((List.replicate n BPos.out).map BPos.owed).sum = 0 := owed_zero (h _ rfl)
  simp [Sems, SemsAt, Bar.init, holders, notifiers, sleepers, owed, h BPos.holds rfl, h BPos.notifies rfl, h BPos.sleeps rfl]

/-! ### A process that is killed while it waits -/

/-- After a process has been killed while it was asleep. -/
structure Stuck (s : Bar) : Prop where
  sems : Sems s
  dead : .dead ∈ s.procs
  inside : ∀ ok, .exit ok ∉ s.procs
  quiet : notifiers s = 0 → s.shared.phase = .filling
  main : ¬ MainBack s

theorem BAct.stuck {n : Nat} {s s' : BShared} {x x' : BPos} (h : BAct n (s, x) (s', x')) {H N A O : Nat} (hN : N ≤ H) (hO : N = 0 → O = 0) (hA : x ≠ .dead → A ≠ 0)
    (hs : SemsAt s (H + x.holds.toNat) (N + x.notifies.toNat) (A + x.sleeps.toNat) (O + x.owed)) (hx : ∀ ok, x ≠ .exit ok) (hq : N + x.notifies.toNat = 0 → s.phase = .filling) :
    x ≠ .dead ∧ (∀ ok, x' ≠ .exit ok) ∧ (∀ ok, x' ≠ .back ok) ∧ (N + x'.notifies.toNat = 0 → s'.phase = .filling) := by
  obtain ⟨h1, h2, h3⟩ := hs
  have hl := Bool.toNat_le s.locked
  have hold : x.holds = true → N = 0 := by
    intro hh
    rw [hh, Bool.toNat_true] at h1
    omega
  have hfill : x.holds = true → x.notifies = false → s.phase = .filling := by
    intro a b
    exact hq (by rw [hold a, b]; rfl)
  have owes : ∀ next, x ≠ .notify 0 next := by
    rintro next rfl
    have e := hold rfl
    have := (h3 (by simp [BPos.notifies])).2
    rw [hO e] at this
    simp only [BPos.owed, BPos.sleeps, Bool.toNat_false] at this
    exact hA (by simp) (by omega)
  generalize hx : (s, x) = p at h
  generalize hy : (s', x') = q at h
  cases h <;> simp only [Prod.mk.injEq, BShared.notifyAll] at hx hy <;> obtain ⟨rfl, rfl⟩ := hx <;> obtain ⟨rfl, rfl⟩ := hy
  case exit => exact absurd rfl (‹∀ ok, BPos.exit _ ≠ BPos.exit ok› _)
  case exitLast => exact absurd rfl (‹∀ ok, BPos.exit _ ≠ BPos.exit ok› _)
  case notified => exact absurd rfl (owes _)
  case notifiedRet => exact absurd rfl (owes _)
  case notifiedDone => exact absurd rfl (owes _)
  case passed h => rw [hfill rfl rfl] at h; cases h
  case broken h => rw [hfill rfl rfl] at h; rcases h with h | h <;> cases h
  case drain h => rw [hfill rfl rfl] at h; rcases h with h | h <;> cases h
  case refuse h => rw [hfill rfl rfl] at h; cases h
  all_goals
    refine ⟨by simp, by simp, by simp, ?_⟩
    first
    | exact hq
    | (intro h0; simp [BPos.notifies] at h0)

theorem Stuck.step {s t : Bar} (h : BStep s t) (hs : Stuck s) : Stuck t := by
  have hsem := Sems.step h hs.sems
  cases h with
  | @act s l x r s' x' h =>
    obtain ⟨h1, h2, h3, h4, h5⟩ := hs
    rw [split_counts] at h1
    have hn : ∀ (sh : BShared) (y : BPos), notifiers ⟨sh, l ++ y :: r⟩ = l.countP BPos.notifies + r.countP BPos.notifies + y.notifies.toNat := by
      intro sh y
      simp only [notifiers, List.countP_append, List.countP_cons, toNat_ite]
      omega
    have hA : x ≠ .dead → l.countP BPos.sleeps + r.countP BPos.sleeps ≠ 0 := by
      intro hx h0
      simp only [List.mem_append, List.mem_cons] at h2
      have hl : l.countP BPos.sleeps = 0 := by omega
      have hr : r.countP BPos.sleeps = 0 := by omega
      rcases h2 with h2 | h2 | h2
      · exact List.countP_eq_zero.1 hl _ h2 rfl
      · exact hx h2.symm
      · exact List.countP_eq_zero.1 hr _ h2 rfl
    obtain ⟨g1, g2, g3, g4⟩ := h.stuck (by have := notifies_holds (l := l); have := notifies_holds (l := r); omega)
      (fun h0 => by rw [owed_zero (by omega), owed_zero (by omega)]) hA h1 (fun ok hx => h3 ok (by simp [hx])) (by rw [← hn s]; exact h4)
    refine ⟨hsem, ?_, fun ok hm => ?_, ?_, ?_⟩
    · simp only [List.mem_append, List.mem_cons] at h2 ⊢
      rcases h2 with h2 | h2 | h2
      · exact .inl h2
      · exact absurd h2.symm g1
      · exact .inr (.inr h2)
    · simp only [List.mem_append, List.mem_cons] at hm
      rcases hm with hm | hm | hm
      · exact h3 ok (by simp [hm])
      · exact g2 ok hm.symm
      · exact h3 ok (by simp [hm])
    · rw [hn]
      exact g4
    · rintro ⟨ok, rest, hm⟩
      cases l with
      | nil =>
        simp only [List.nil_append, List.cons.injEq] at hm
        exact g3 ok hm.1
      | cons y l =>
        simp only [List.cons_append, List.cons.injEq] at hm
        exact h5 ⟨ok, _, by rw [hm.1]; rfl⟩

/-- C131: if a process is killed while it waits for the others, the main process does not come back from `barrier_wait` anymore: it neither leaves its loop nor looks
whether the processes are still alive. In every execution, with any number of processes. -/
theorem C131_hang {n : Nat} {s t u : Bar} (h : BSteps (Bar.init n) s) (hk : Killed s t) (hm : ¬ MainBack s) (hu : BSteps t u) : ¬ MainBack u := by
  have hs : Sems s := h.inv (fun h => Sems.step h) (Sems.init n)
  refine (hu.inv (fun h => Stuck.step h) (?_ : Stuck t)).main
  cases hk with
  | @mk s l r hp hl =>
    have e : Sems ⟨s, l ++ .dead :: r⟩ := by
      rw [split_counts] at hs ⊢
      exact hs
    have hh : holders ⟨s, l ++ .dead :: r⟩ = 0 := by
      have := e.1
      simp only [hl, Bool.toNat_false] at this
      exact this
    refine ⟨e, by simp, fun ok hx => ?_, fun _ => hp, ?_⟩
    · exact List.countP_eq_zero.1 hh _ hx rfl
    · rintro ⟨ok, rest, hx⟩
      cases l with
      | nil => simp at hx
      | cons y l =>
        simp only [List.cons_append, List.cons.injEq] at hx
        exact hm ⟨ok, _, by rw [hx.1]; rfl⟩

/-! ### All or none -/

/-- The process is counted by the barrier. -/
def BPos.inside : BPos → Bool
  | .asleep | .up _ | .look _ | .notify _ (.leave _) | .exit _ => true
  | _ => false

/-- The process passes the barrier. -/
def BPos.passes : BPos → Bool
  | .asleep | .up _ | .look _ | .notify _ (.leave true) | .exit true | .back true => true
  | _ => false

/-- The process has passed the barrier. -/
def BPos.over : BPos → Bool
  | .back true | .notify _ (.ret true) => true
  | _ => false

/-- The process knows that the barrier is passed. -/
def BPos.knows : BPos → Bool
  | .back true | .notify _ (.ret true) | .notify _ (.leave true) | .exit true => true
  | _ => false

/-- What is known about the shared state, a process and the others. -/
def GateAt (s : BShared) (x : BPos) (others : List BPos) : Prop :=
  s.count = others.countP BPos.inside + x.inside.toNat ∧
  ((s.phase = .draining ∧ x.passes = true ∧ ∀ y ∈ others, y.passes = true) ∨ (s.phase ≠ .draining ∧ x.over = true ∧ ∀ y ∈ others, y.over = true) ∨
    (s.phase ≠ .draining ∧ x.knows = false ∧ ∀ y ∈ others, y.knows = false))

theorem passes_over {y : BPos} (h1 : y.passes = true) (h2 : y.inside = false) : y.over = true := by
  cases y with
  | notify k next => cases next <;> simp_all [BPos.passes, BPos.inside]
  | back ok => cases ok <;> simp_all [BPos.passes, BPos.over]
  | _ => simp_all [BPos.passes, BPos.inside]

theorem inside_passes {y : BPos} (h1 : y.inside = true) (h2 : y.holds = false) : y.passes = true := by
  cases y <;> simp_all [BPos.passes, BPos.inside, BPos.holds]

theorem BAct.gate {n : Nat} {s s' : BShared} {x x' : BPos} (h : BAct n (s, x) (s', x')) {others : List BPos} (hlen : others.length + 1 = n)
    (hh : x.holds = true → ∀ y ∈ others, y.holds = false) (hs : GateAt s x others) : GateAt s' x' others := by
  obtain ⟨hc, hs⟩ := hs
  generalize hx : (s, x) = p at h
  generalize hy : (s', x') = q at h
  rcases hs with ⟨hp, hxp, ho⟩ | ⟨hp, hxo, ho⟩ | ⟨hp, hxk, ho⟩
  · -- the barrier is being passed
    cases h <;> simp only [Prod.mk.injEq, BShared.notifyAll] at hx hy <;> obtain ⟨rfl, rfl⟩ := hx <;> obtain ⟨rfl, rfl⟩ := hy <;>
      (try simp only [BPos.passes, Bool.false_eq_true] at hxp)
    case wake => exact ⟨hc, .inl ⟨hp, rfl, ho⟩⟩
    case timeout => exact ⟨hc, .inl ⟨hp, rfl, ho⟩⟩
    case relock => exact ⟨hc, .inl ⟨hp, rfl, ho⟩⟩
    case passed => exact ⟨hc, .inl ⟨hp, rfl, ho⟩⟩
    case broken h => rw [hp] at h; rcases h with h | h <;> cases h
    case «break» h => rw [hp] at h; cases h
    case again h => rw [hp] at h; cases h
    case woke k next _ =>
      cases next with
      | leave ok => cases ok <;> first | exact ⟨hc, .inl ⟨hp, rfl, ho⟩⟩ | simp [BPos.passes] at hxp
      | _ => simp [BPos.passes] at hxp
    case notified ok => cases ok <;> first | exact ⟨hc, .inl ⟨hp, rfl, ho⟩⟩ | simp at hxp
    case exitLast ok h1 _ =>
      cases ok with
      | false => simp at hxp
      | true =>
        simp only [BPos.inside, Bool.toNat_true] at hc
        have h0 : others.countP BPos.inside = 0 := by omega
        refine ⟨by simp [BPos.inside, h0], .inr (.inl ⟨by simp, rfl, fun y hy => ?_⟩)⟩
        exact passes_over (ho y hy) (by simpa using List.countP_eq_zero.1 h0 y hy)
    case exit ok _ =>
      cases ok with
      | false => simp at hxp
      | true =>
        simp only [BPos.inside, Bool.toNat_true] at hc
        exact ⟨by simp [afterWait, BPos.inside, hc], .inl ⟨hp, rfl, ho⟩⟩
  · -- all have passed
    cases h <;> simp only [Prod.mk.injEq, BShared.notifyAll] at hx hy <;> obtain ⟨rfl, rfl⟩ := hx <;> obtain ⟨rfl, rfl⟩ := hy <;>
      (try simp only [BPos.over, Bool.false_eq_true] at hxo)
    case woke k next _ =>
      cases next with
      | ret ok => cases ok <;> first | exact ⟨hc, .inr (.inl ⟨hp, rfl, ho⟩)⟩ | simp [BPos.over] at hxo
      | _ => simp [BPos.over] at hxo
    case notifiedRet ok => cases ok <;> first | exact ⟨hc, .inr (.inl ⟨hp, rfl, ho⟩)⟩ | simp at hxo
  · cases h <;> simp only [Prod.mk.injEq, BShared.notifyAll] at hx hy <;> obtain ⟨rfl, rfl⟩ := hx <;> obtain ⟨rfl, rfl⟩ := hy
    case release h1 h2 =>
      simp only [BPos.inside, Bool.toNat_false, Nat.add_zero] at hc
      have hall : others.countP BPos.inside = others.length := by omega
      refine ⟨by simp [BPos.inside, hc], .inl ⟨rfl, rfl, fun y hy => ?_⟩⟩
      exact inside_passes (List.countP_eq_length.1 hall y hy) (hh rfl y hy)
    case sleep h1 h2 =>
      simp only [BPos.inside, Bool.toNat_false, Nat.add_zero] at hc
      exact ⟨by simp [BPos.inside, hc], .inr (.inr ⟨hp, rfl, ho⟩)⟩
    case passed h => exact absurd h hp
    case «break» => exact ⟨hc, .inr (.inr ⟨by simp, rfl, ho⟩)⟩
    case woke k next _ =>
      refine ⟨?_, .inr (.inr ⟨hp, ?_, ho⟩)⟩
      · cases next <;> exact hc
      · cases next with
        | done => rfl
        | _ ok => cases ok <;> simp_all [BPos.knows]
    case notified ok => cases ok <;> first | exact ⟨hc, .inr (.inr ⟨hp, rfl, ho⟩)⟩ | simp [BPos.knows] at hxk
    case notifiedRet ok => cases ok <;> first | exact ⟨hc, .inr (.inr ⟨hp, rfl, ho⟩)⟩ | simp [BPos.knows] at hxk
    case exitLast ok h1 _ =>
      simp only [BPos.inside, Bool.toNat_true] at hc
      cases ok with
      | true => simp [BPos.knows] at hxk
      | false => exact ⟨by simp [BPos.inside]; omega, .inr (.inr ⟨by simp, rfl, ho⟩)⟩
    case exit ok _ =>
      simp only [BPos.inside, Bool.toNat_true] at hc
      cases ok with
      | true => simp [BPos.knows] at hxk
      | false => exact ⟨by simp [afterWait, BPos.inside, hc], .inr (.inr ⟨hp, rfl, ho⟩)⟩
    case reset =>
      refine ⟨hc, .inr (.inr ⟨?_, rfl, ho⟩)⟩
      split
      · simp
      · split
        · simp
        · exact hp
    all_goals exact ⟨hc, .inr (.inr ⟨hp, rfl, ho⟩)⟩

theorem gate_perm (l r : List BPos) (x : BPos) (s : BShared) (p : BPos → Bool) : (∀ y ∈ l ++ x :: r, p y = true) ↔ p x = true ∧ ∀ y ∈ l ++ r, p y = true := by
  simp only [List.mem_append, List.mem_cons]
  exact ⟨fun h => ⟨h x (.inr (.inl rfl)), fun y hy => h y (hy.imp_right .inr)⟩, fun ⟨h1, h2⟩ y hy => by
    rcases hy with hy | rfl | hy
    · exact h2 y (.inl hy)
    · exact h1
    · exact h2 y (.inr hy)⟩

/-- What is known at all times: the barrier is being passed by all, all have passed it, or none knows about that. -/
def Gated (s : Bar) : Prop :=
  s.shared.count = s.procs.countP BPos.inside ∧
  ((s.shared.phase = .draining ∧ ∀ y ∈ s.procs, y.passes = true) ∨ (s.shared.phase ≠ .draining ∧ ∀ y ∈ s.procs, y.over = true) ∨
    (s.shared.phase ≠ .draining ∧ ∀ y ∈ s.procs, y.knows = false))

theorem gated_iff (l r : List BPos) (x : BPos) (s : BShared) : Gated ⟨s, l ++ x :: r⟩ ↔ GateAt s x (l ++ r) := by
  have hk := gate_perm l r x s (fun y => !y.knows)
  simp only [Bool.not_eq_true'] at hk
  simp only [Gated, GateAt, gate_perm l r x s, hk, List.countP_append, List.countP_cons, toNat_ite]
  have e : ∀ a b c : Nat, a + (b + c) = a + b + c := fun a b c => by omega
  rw [e]

theorem Gated.step {s t : Bar} (h : BStep s t) (hse : Sems s) (hs : Gated s) : Gated t := by
  cases h with
  | @act s l x r s' x' h =>
    rw [gated_iff] at hs ⊢
    refine h.gate (by simp [Nat.add_assoc]) (fun hx y hy => ?_) hs
    rw [split_counts] at hse
    have h1 := hse.1
    rw [hx, Bool.toNat_true] at h1
    have := Bool.toNat_le s.locked
    have h0 : (l ++ r).countP BPos.holds = 0 := by rw [List.countP_append]; omega
    simpa using List.countP_eq_zero.1 h0 y hy

theorem Gated.init (n : Nat) : Gated (Bar.init n) := by
  refine ⟨by simp [Bar.init, List.countP_replicate, BPos.inside], .inr (.inr ⟨by simp [Bar.init], fun y hy => ?_⟩)⟩
  simp only [Bar.init, List.mem_replicate] at hy
  rw [hy.2]
  rfl

theorem BSteps.gated {n : Nat} {s : Bar} (h : BSteps (Bar.init n) s) : Sems s ∧ Gated s :=
  h.inv (P := fun s => Sems s ∧ Gated s) (fun h hs => ⟨Sems.step h hs.1, Gated.step h hs.1 hs.2⟩) ⟨Sems.init n, Gated.init n⟩

/-- C131: the barrier lets all processes pass or none: when one of them has passed, all the others have come to the barrier, and none of them has been or will be sent
back. -/
theorem C131_all_or_none {n : Nat} {s t : Bar} (h : BSteps (Bar.init n) s) (hp : Passed s) (ht : BSteps s t) : ¬ Returned t := by
  have key : Sems t ∧ Gated t ∧ Passed t := by
    refine ht.inv (P := fun s => Sems s ∧ Gated s ∧ Passed s) (fun h hs => ⟨Sems.step h hs.1, Gated.step h hs.1 hs.2.1, ?_⟩) ⟨h.gated.1, h.gated.2, hp⟩
    have hp := hs.2.2
    clear hs
    cases h with
    | @act s l x r s' x' h =>
      simp only [Passed, List.mem_append, List.mem_cons] at hp ⊢
      rcases hp with hp | hp | hp
      · exact .inl hp
      · subst hp
        generalize hx : (s, BPos.back true) = a at h
        cases h <;> cases hx
      · exact .inr (.inr hp)
  obtain ⟨_, ⟨_, hg⟩, hp⟩ := key
  have hno : ∀ y ∈ t.procs, y.passes = true ∨ y.over = true := by
    rcases hg with ⟨_, h⟩ | ⟨_, h⟩ | ⟨_, h⟩
    · exact fun y hy => .inl (h y hy)
    · exact fun y hy => .inr (h y hy)
    · exact absurd (h _ hp) (by simp [BPos.knows])
  rintro (h | h | h) <;> · have := hno _ h; simp [BPos.passes, BPos.over] at this


theorem BSteps.head {s t u : Bar} (h : BStep s t) (hs : BSteps t u) : BSteps s u := (BSteps.step .refl h).trans hs

/-- One worker waits for the others. -/
def demoWaits : Bar := ⟨⟨.filling, 1, false, 1, 0, 0⟩, [.out, .asleep]⟩

theorem demo_waits : BSteps (Bar.init 2) demoWaits := by
  refine .head (BStep.act (l := [.out]) (r := []) .call) ?_
  refine .head (BStep.act (l := [.out]) (r := []) (.lock rfl)) ?_
  exact .head (BStep.act (l := [.out]) (r := []) (.sleep rfl (by decide))) .refl

/-- The main process and the worker pass the barrier; the main process has been sent back before. -/
example : ∃ s, BSteps (Bar.init 2) s ∧ Passed s ∧ s.procs = [.back true, .back true] := by
  refine ⟨⟨⟨.filling, 0, false, 0, 0, 0⟩, [.back true, .back true]⟩, ?_, by simp [Passed], rfl⟩
  refine .head (BStep.act (l := []) (r := [.out]) .call) ?_
  refine .head (BStep.act (l := []) (r := [.out]) (.lock rfl)) ?_
  refine .head (BStep.act (l := []) (r := [.out]) (.sleep rfl (by decide))) ?_
  refine .head (BStep.act (l := []) (r := [.out]) .timeout) ?_
  refine .head (BStep.act (l := []) (r := [.out]) (.relock rfl)) ?_
  refine .head (BStep.act (l := []) (r := [.out]) (.break rfl)) ?_
  refine .head (BStep.act (l := []) (r := [.out]) .notified) ?_
  refine .head (BStep.act (l := []) (r := [.out]) (.exit (by decide))) ?_
  refine .head (BStep.act (l := []) (r := [.out]) (.lockReset rfl)) ?_
  refine .head (BStep.act (l := []) (r := [.out]) .reset) ?_
  refine .head (BStep.act (l := []) (r := [.out]) .notifiedDone) ?_
  refine .head (BStep.act (l := []) (r := [.out]) .loop) ?_
  refine demo_waits.trans ?_
  refine .head (BStep.act (l := []) (r := [.asleep]) .call) ?_
  refine .head (BStep.act (l := []) (r := [.asleep]) (.lock rfl)) ?_
  refine .head (BStep.act (l := []) (r := [.asleep]) (.release rfl rfl)) ?_
  refine .head (BStep.act (l := [.notify 1 (.leave true)]) (r := []) (.wake (by decide))) ?_
  refine .head (BStep.act (l := []) (r := [.up false]) (.woke (by decide))) ?_
  refine .head (BStep.act (l := []) (r := [.up false]) .notified) ?_
  refine .head (BStep.act (l := []) (r := [.up false]) (.exit (by decide))) ?_
  refine .head (BStep.act (l := [.back true]) (r := []) (.relock rfl)) ?_
  refine .head (BStep.act (l := [.back true]) (r := []) (.passed rfl)) ?_
  refine .head (BStep.act (l := [.back true]) (r := []) (.exitLast rfl (.inr rfl))) ?_
  exact .head (BStep.act (l := [.back true]) (r := []) .notifiedRet) .refl

/-- The hypotheses of `C131_hang` are met. -/
example : ∃ s t, BSteps (Bar.init 2) s ∧ Killed s t ∧ ¬ MainBack s :=
  ⟨demoWaits, _, demo_waits, .mk (l := [.out]) (r := []) rfl rfl, by rintro ⟨ok, rest, h⟩; simp [demoWaits] at h⟩

/-- C131 is false: a process that is killed while it waits for the others makes ff stand still forever. -/
theorem C131_false : ∃ s t u, BSteps (Bar.init 2) s ∧ Killed s t ∧ BSteps t u ∧ ¬ MainBack u ∧ ∀ v, ¬ BStep u v := by
  refine ⟨demoWaits, _, ⟨⟨.draining, 2, true, 0, 0, 1⟩, [.notify 1 (.leave true), .dead]⟩, demo_waits, .mk (l := [.out]) (r := []) rfl rfl, ?_, ?_, ?_⟩
  · refine .head (BStep.act (l := []) (r := [.dead]) .call) ?_
    refine .head (BStep.act (l := []) (r := [.dead]) (.lock rfl)) ?_
    exact .head (BStep.act (l := []) (r := [.dead]) (.release rfl rfl)) .refl
  · rintro ⟨ok, rest, h⟩; simp at h
  · intro v h
    generalize hu : (⟨⟨.draining, 2, true, 0, 0, 1⟩, [.notify 1 (.leave true), .dead]⟩ : Bar) = u at h
    cases h with
    | @act s l x r s' x' h =>
      simp only [Bar.mk.injEq] at hu
      obtain ⟨rfl, hu⟩ := hu
      have hx : x = .notify 1 (.leave true) ∨ x = .dead := by
        have : x ∈ [BPos.notify 1 (.leave true), .dead] := by rw [hu]; simp
        simpa using this
      generalize (l ++ x :: r).length = n at h
      clear hu
      rcases hx with rfl | rfl
      · generalize hp : ((⟨.draining, 2, true, 0, 0, 1⟩ : BShared), BPos.notify 1 (.leave true)) = p at h
        cases h <;> simp only [Prod.mk.injEq, BPos.notify.injEq, reduceCtorEq, and_false] at hp
        case woke k next h =>
          obtain ⟨rfl, _⟩ := hp
          exact absurd h (by decide)
        all_goals (obtain ⟨_, h, _⟩ := hp; cases h)
      · generalize hp : ((⟨.draining, 2, true, 0, 0, 1⟩ : BShared), BPos.dead) = p at h
        cases h <;> simp at hp

end FF
