import Verif.Props.Barrier
/-! C131: without kills the processes can always pass the barrier. -/
namespace FF
open Spec

def BPos.drains : BPos → Bool
  | .drained => true
  | _ => false

/-- The process is going to reset the barrier. -/
def BPos.resets : BPos → Bool
  | .notify _ (.leave false) | .exit false | .acquireReset | .reset => true
  | _ => false

/-- What is known about the phase of the barrier. -/
def LiveAt (n : Nat) (s : BShared) (N A D R : Nat) : Prop :=
  (s.phase = .draining ∨ s.phase = .resetting → 0 < s.count) ∧ (N = 0 → 0 < D → s.phase = .draining ∨ s.phase = .resetting) ∧ (N ≠ 0 → A ≤ s.tokens) ∧
    (s.phase = .broken → 0 < R) ∧ (s.phase = .filling → s.count < n)

theorem afterWait_drains (ok : Bool) : (afterWait ok).drains = false := by cases ok <;> rfl
theorem afterWait_resets (ok : Bool) : (afterWait ok).resets = !ok := by cases ok <;> rfl
theorem exit_resets (ok : Bool) : (BPos.exit ok).resets = !ok := by cases ok <;> rfl
theorem leave_resets (k : Nat) (ok : Bool) : (BPos.notify k (.leave ok)).resets = !ok := by cases ok <;> rfl
theorem ret_resets (k : Nat) (ok : Bool) : (BPos.notify k (.ret ok)).resets = false := by cases ok <;> rfl

theorem notify_resets (k l : Nat) (next : Then) : (BPos.notify k next).resets = (BPos.notify l next).resets := by
  cases next with
  | leave ok => cases ok <;> rfl
  | ret ok => rfl
  | done => rfl

theorem BAct.live {n : Nat} (hn : 0 < n) {s s' : BShared} {x x' : BPos} (h : BAct n (s, x) (s', x')) (H N A O D R : Nat) (hN : N ≤ H) (hO : N = 0 → O = 0) (hD : D ≤ A)
    (hs : SemsAt s (H + x.holds.toNat) (N + x.notifies.toNat) (A + x.sleeps.toNat) (O + x.owed))
    (hl : LiveAt n s (N + x.notifies.toNat) (A + x.sleeps.toNat) (D + x.drains.toNat) (R + x.resets.toNat)) :
    LiveAt n s' (N + x'.notifies.toNat) (A + x'.sleeps.toNat) (D + x'.drains.toNat) (R + x'.resets.toNat) := by
  obtain ⟨ph, c, lk, S, W, T⟩ := s
  obtain ⟨h1, h2, h3⟩ := hs
  obtain ⟨j1, j2, j3, j4, j5⟩ := hl
  have hlk := Bool.toNat_le lk
  generalize hx : ((⟨ph, c, lk, S, W, T⟩ : BShared), x) = p at h
  generalize hy : (s', x') = q at h
  unfold LiveAt
  cases h <;> simp only [Prod.mk.injEq, BShared.notifyAll] at hx hy <;> obtain ⟨rfl, rfl⟩ := hx <;> obtain ⟨rfl, rfl⟩ := hy <;>
    (try simp only [afterWait_sleeps, afterWait_notifies, afterWait_drains, afterWait_resets]) <;>
    (try simp only [exit_resets, leave_resets, ret_resets] at j4 ⊢)
  case woke k next hw =>
    rw [notify_resets k (k + 1) next]
    simp only [BPos.holds, BPos.notifies, BPos.sleeps, BPos.owed, BPos.drains, Bool.toNat_true, Bool.toNat_false, Nat.add_zero] at h1 h2 h3 j1 j2 j3 j4 j5 ⊢
    exact ⟨j1, by omega, j3, j4, j5⟩
  case reset =>
    simp only [BPos.holds, BPos.notifies, BPos.sleeps, BPos.owed, BPos.drains, BPos.resets, Bool.toNat_true, Bool.toNat_false, Nat.add_zero] at h1 h2 h3 j1 j2 j3 j4 j5 ⊢
    have hN0 : N = 0 := by omega
    obtain ⟨e1, e2⟩ := h2 hN0
    refine ⟨?_, by omega, fun _ => by omega, ?_, ?_⟩
    · by_cases hc : c = 0
      · simp [hc]
      · intro _; omega
    · by_cases hc : c = 0
      · simp [hc]
      · cases ph <;> simp [hc]
    · by_cases hc : c = 0
      · simp [hc, hn]
      · cases ph <;> simp [hc]
  case exit ok hne =>
    simp only [BPos.holds, BPos.notifies, BPos.sleeps, BPos.owed, BPos.drains, Bool.toNat_true, Bool.toNat_false, Nat.add_zero] at h1 h2 h3 j1 j2 j3 j4 j5 ⊢
    refine ⟨fun h => ?_, j2, j3, j4, fun h => by have := j5 h; omega⟩
    have hc := j1 h
    have : c ≠ 1 := fun e => hne ⟨e, h.symm⟩
    omega
  all_goals
    simp only [BPos.holds, BPos.notifies, BPos.sleeps, BPos.owed, BPos.drains, BPos.resets, Bool.toNat_true, Bool.toNat_false, Nat.add_zero] at h1 h2 h3 j1 j2 j3 j4 j5 ⊢
    refine ⟨?_, ?_, ?_, ?_, ?_⟩ <;> (first | assumption | (simp_all; done) | (simp_all; omega) | (intro h; have := j4 h; omega))


theorem drains_sleeps {l : List BPos} : l.countP BPos.drains ≤ l.countP BPos.sleeps :=
  List.countP_mono_left fun x _ h => by cases x <;> simp_all [BPos.drains, BPos.sleeps]

structure Live (s : Bar) : Prop where
  sems : Sems s
  gated : Gated s
  phase : LiveAt s.procs.length s.shared (notifiers s) (sleepers s) (s.procs.countP BPos.drains) (s.procs.countP BPos.resets)
  alive : .dead ∉ s.procs

theorem count_split (p : BPos → Bool) (l r : List BPos) (x : BPos) : (l ++ x :: r).countP p = l.countP p + r.countP p + (p x).toNat := by
  simp only [List.countP_append, List.countP_cons, toNat_ite]
  omega

theorem BAct.alive {n : Nat} {a b : BShared × BPos} (h : BAct n a b) : b.2 ≠ .dead := by
  cases h <;> simp only [BShared.notifyAll] <;> (try simp)
  all_goals (unfold afterWait; split <;> simp)

theorem Live.step {s t : Bar} (h : BStep s t) (hs : Live s) : Live t := by
  refine ⟨Sems.step h hs.sems, Gated.step h hs.sems hs.gated, ?_, ?_⟩
  · cases h with
    | @act s l x r s' x' h =>
      have h1 := hs.sems
      have h2 := hs.phase
      rw [split_counts] at h1
      simp only [notifiers, sleepers, count_split] at h2 ⊢
      have e : (l ++ x' :: r).length = (l ++ x :: r).length := by simp
      rw [e]
      refine h.live (by simp only [List.length_append, List.length_cons]; omega) _ _ _ _ _ _ ?_ ?_ ?_ h1 h2
      · have := notifies_holds (l := l)
        have := notifies_holds (l := r)
        omega
      · intro h0
        rw [owed_zero (by omega), owed_zero (by omega)]
      · have := drains_sleeps (l := l)
        have := drains_sleeps (l := r)
        omega
  · cases h with
    | @act s l x r s' x' h =>
      have h1 := hs.alive
      simp only [List.mem_append, List.mem_cons, not_or] at h1 ⊢
      exact ⟨h1.1, fun e => h.alive e.symm, h1.2.2⟩

theorem Live.init (n : Nat) : Live (Bar.init (n + 1)) := by
  have h : ∀ p : BPos → Bool, p .out = false → (List.replicate (n + 1) BPos.out).countP p = 0 := by
    intro p hp
    rw [List.countP_replicate]
    simp [hp]
  refine ⟨Sems.init _, Gated.init _, ?_, by simp [Bar.init, List.mem_replicate]⟩
  simp [LiveAt, Bar.init, notifiers, sleepers, h BPos.notifies rfl, h BPos.sleeps rfl, h BPos.drains rfl]

theorem BSteps.live {n : Nat} {s : Bar} (h : BSteps (Bar.init (n + 1)) s) : Live s := h.inv (fun h hs => Live.step h hs) (Live.init n)

/-! ### All processes leave the barrier -/

/-- How far a process is from having left the barrier. -/
def BPos.far : BPos → Nat
  | .enter => 13
  | .up false => 12
  | .look false => 11
  | .asleep => 10
  | .up true => 9
  | .look true => 8
  | .notify _ (.leave _) => 7
  | .exit _ => 6
  | .notify _ (.ret _) => 5
  | .acquireReset => 4
  | .reset => 3
  | .notify _ .done => 2
  | .back false => 1
  | .drained => 1
  | _ => 0

/-- The steps that lead there. -/
def farAt (n : Nat) (x : BPos) : Nat := x.far * (n + 1) + x.owed

theorem notify_far (k l : Nat) (next : Then) : (BPos.notify k next).far = (BPos.notify l next).far := by cases next <;> rfl

/-- A process that holds the lock gets nearer, unless it waits for others to wake up. -/
theorem holder_nearer {n : Nat} {s : BShared} {x : BPos} (hx : x.holds = true) (hk : s.sleeping - s.woken ≤ n) :
    (∃ s' x', BAct n (s, x) (s', x') ∧ farAt n x' < farAt n x) ∨ (∃ k next, x = .notify (k + 1) next ∧ s.woken = 0) := by
  cases x with
  | enter =>
    refine .inl ?_
    by_cases h1 : s.phase = .draining ∨ s.phase = .resetting
    · exact ⟨_, _, .drain h1, by simp [farAt, BPos.far, BPos.owed] <;> omega⟩
    · by_cases h2 : s.phase = .broken
      · exact ⟨_, _, .refuse h2, by simp [farAt, BPos.far, BPos.owed] <;> omega⟩
      · have h3 : s.phase = .filling := by
          cases h : s.phase <;> simp_all
        by_cases h4 : s.count + 1 = n
        · exact ⟨_, _, .release h3 h4, by simp [farAt, BPos.far, BPos.owed] <;> omega⟩
        · exact ⟨_, _, .sleep h3 h4, by simp [farAt, BPos.far, BPos.owed] <;> omega⟩
  | look t =>
    refine .inl ?_
    by_cases h1 : s.phase = .draining
    · exact ⟨_, _, .passed h1, by cases t <;> simp [farAt, BPos.far, BPos.owed] <;> omega⟩
    · by_cases h2 : s.phase = .resetting ∨ s.phase = .broken
      · exact ⟨_, _, .broken h2, by cases t <;> simp [farAt, BPos.far, BPos.owed] <;> omega⟩
      · have h3 : s.phase = .filling := by
          cases h : s.phase <;> simp_all
        cases t with
        | true => exact ⟨_, _, .break h3, by simp [farAt, BPos.far, BPos.owed] <;> omega⟩
        | false => exact ⟨_, _, .again h3, by simp [farAt, BPos.far, BPos.owed] <;> omega⟩
  | notify k next =>
    cases k with
    | zero =>
      refine .inl ?_
      cases next with
      | leave ok => exact ⟨_, _, .notified, by simp [farAt, BPos.far, BPos.owed] <;> omega⟩
      | ret ok => exact ⟨_, _, .notifiedRet, by cases ok <;> simp [farAt, BPos.far, BPos.owed, afterWait] <;> omega⟩
      | done => exact ⟨_, _, .notifiedDone, by simp [farAt, BPos.far, BPos.owed] <;> omega⟩
    | succ k =>
      by_cases hw : s.woken = 0
      · exact .inr ⟨k, next, rfl, hw⟩
      · refine .inl ⟨_, _, .woke (by omega), ?_⟩
        simp only [farAt, BPos.owed, notify_far k (k + 1)]
        omega
  | exit ok =>
    refine .inl ?_
    by_cases h1 : s.count = 1 ∧ (s.phase = .resetting ∨ s.phase = .draining)
    · exact ⟨_, _, .exitLast h1.1 h1.2, by simp [farAt, BPos.far, BPos.owed] <;> omega⟩
    · exact ⟨_, _, .exit h1, by cases ok <;> simp [farAt, BPos.far, BPos.owed, afterWait] <;> omega⟩
  | reset => exact .inl ⟨_, _, .reset, by simp [farAt, BPos.far, BPos.owed] <;> omega⟩
  | _ => simp [BPos.holds] at hx

/-- So does a process without the lock, if the lock is free. -/
theorem free_nearer {n : Nat} {s : BShared} {x : BPos} (hl : s.locked = false) (hx : x.far ≠ 0) (hd : x ≠ .drained) (hh : x.holds = false) :
    ∃ s' x', BAct n (s, x) (s', x') ∧ farAt n x' < farAt n x := by
  cases x with
  | asleep => exact ⟨_, _, .timeout, by simp [farAt, BPos.far, BPos.owed] <;> omega⟩
  | up t => exact ⟨_, _, .relock hl, by cases t <;> simp [farAt, BPos.far, BPos.owed] <;> omega⟩
  | acquireReset => exact ⟨_, _, .lockReset hl, by simp [farAt, BPos.far, BPos.owed] <;> omega⟩
  | back ok =>
    cases ok with
    | true => simp [BPos.far] at hx
    | false => exact ⟨_, _, .loop, by simp [farAt, BPos.far, BPos.owed]⟩
  | drained => exact absurd rfl hd
  | _ => first | (simp [BPos.holds] at hh; done) | (simp [BPos.far] at hx; done)

def away (s : Bar) : Nat := (s.procs.map (farAt s.procs.length)).sum

theorem away_split (s : BShared) (l r : List BPos) (x : BPos) :
    away ⟨s, l ++ x :: r⟩ = (l.map (farAt (l ++ x :: r).length)).sum + (r.map (farAt (l ++ x :: r).length)).sum + farAt (l ++ x :: r).length x := by
  simp only [away, List.map_append, List.map_cons, List.sum_append, List.sum_cons]
  omega

theorem nearer_step {s s' : BShared} {l r : List BPos} {x x' : BPos} (h : BAct (l ++ x :: r).length (s, x) (s', x'))
    (hf : farAt (l ++ x :: r).length x' < farAt (l ++ x :: r).length x) : ∃ t, BStep ⟨s, l ++ x :: r⟩ t ∧ away t < away ⟨s, l ++ x :: r⟩ := by
  refine ⟨_, .act h, ?_⟩
  rw [away_split, away_split]
  have e : (l ++ x' :: r).length = (l ++ x :: r).length := by simp
  rw [e]
  omega

theorem mem_of_countP {p : BPos → Bool} {l : List BPos} (h : 0 < l.countP p) : ∃ x ∈ l, p x = true := List.countP_pos_iff.1 h

theorem Live.nearer {s : Bar} (hs : Live s) (hx : ∃ x ∈ s.procs, x.far ≠ 0) : ∃ t, BStep s t ∧ away t < away s := by
  obtain ⟨sh, ps⟩ := s
  obtain ⟨h1, h2, h3⟩ := hs.sems
  obtain ⟨j1, j2, j3, j4, j5⟩ := hs.phase
  simp only at *
  have hlk := Bool.toNat_le sh.locked
  have hA : sleepers ⟨sh, ps⟩ ≤ ps.length := List.countP_le_length
  have hNH : notifiers ⟨sh, ps⟩ ≤ holders ⟨sh, ps⟩ := notifies_holds
  cases hl : sh.locked with
  | true =>
    rw [hl, Bool.toNat_true] at h1
    obtain ⟨x, hx, hh⟩ := mem_of_countP (p := BPos.holds) (l := ps) (by unfold holders at h1; simp only at h1; omega)
    obtain ⟨l, r, rfl⟩ := List.append_of_mem hx
    have hk : sh.sleeping - sh.woken ≤ (l ++ x :: r).length := by
      by_cases h0 : notifiers ⟨sh, l ++ x :: r⟩ = 0
      · have := h2 h0; omega
      · have := h3 h0; omega
    rcases holder_nearer hh hk with ⟨s', x', ha, hf⟩ | ⟨k, next, rfl, hw⟩
    · exact nearer_step ha hf
    · have hn : notifiers ⟨sh, l ++ .notify (k + 1) next :: r⟩ ≠ 0 := by
        simp only [notifiers, count_split, BPos.notifies, Bool.toNat_true]; omega
      have ho : k + 1 ≤ owed ⟨sh, l ++ .notify (k + 1) next :: r⟩ := by
        simp only [owed, List.map_append, List.map_cons, List.sum_append, List.sum_cons, BPos.owed]; omega
      have h3' := h3 hn
      have hpos : 0 < sleepers ⟨sh, l ++ .notify (k + 1) next :: r⟩ := by omega
      obtain ⟨y, hy, hys⟩ := mem_of_countP hpos
      have htok : 0 < sh.tokens := by have := j3 hn; omega
      have hyd : y ≠ .dead := fun e => hs.alive (e ▸ hy)
      simp only at hy
      obtain ⟨l', r', e⟩ := List.append_of_mem hy
      rw [e]
      cases y with
      | asleep => exact nearer_step .timeout (by simp [farAt, BPos.far, BPos.owed] <;> omega)
      | drained => exact nearer_step (.wakeDrained htok) (by simp [farAt, BPos.far, BPos.owed])
      | dead => exact absurd rfl hyd
      | _ => simp [BPos.sleeps] at hys
  | false =>
    rw [hl, Bool.toNat_false] at h1
    have hfree : ∀ y ∈ ps, y.holds = false := fun y hy => by simpa using List.countP_eq_zero.1 h1 y hy
    have hex : ∃ y ∈ ps, y.far ≠ 0 ∧ y ≠ .drained := by
      obtain ⟨x, hx, hf⟩ := hx
      by_cases hd : x = .drained
      · subst hd
        have hD : 0 < ps.countP BPos.drains := List.countP_pos_iff.2 ⟨_, hx, rfl⟩
        have hc := j1 (j2 (by omega) hD)
        have hg := hs.gated.1
        simp only at hg
        rw [hg] at hc
        obtain ⟨y, hy, hin⟩ := mem_of_countP hc
        refine ⟨y, hy, ?_, ?_⟩
        · cases y with
          | up t => cases t <;> simp [BPos.far]
          | look t => cases t <;> simp [BPos.far]
          | notify k next => cases next <;> simp [BPos.far]
          | _ => first | (simp [BPos.far]; done) | (simp [BPos.inside] at hin; done)
        · rintro rfl
          simp [BPos.inside] at hin
      · exact ⟨x, hx, hf, hd⟩
    obtain ⟨y, hy, hf, hd⟩ := hex
    obtain ⟨l, r, rfl⟩ := List.append_of_mem hy
    obtain ⟨s', x', ha, hlt⟩ := free_nearer (n := (l ++ y :: r).length) hl hf hd (hfree y hy)
    exact nearer_step ha hlt

theorem Live.leave {s : Bar} (hs : Live s) : ∃ t, BSteps s t ∧ ∀ x ∈ t.procs, x.far = 0 := by
  generalize hk : away s = k
  induction k using Nat.strongRecOn generalizing s with
  | ind k ih =>
    by_cases hx : ∃ x ∈ s.procs, x.far ≠ 0
    · obtain ⟨t, ht, hlt⟩ := hs.nearer hx
      obtain ⟨u, hu, hf⟩ := ih _ (hk ▸ hlt) (hs.step ht) rfl
      exact ⟨u, .head ht hu, hf⟩
    · refine ⟨s, .refl, fun x hx' => ?_⟩
      by_cases h0 : x.far = 0
      · exact h0
      · exact absurd ⟨x, hx', h0⟩ hx

/-! ### All processes pass the barrier -/

/-- The process is on its way to the barrier or waits for the others. -/
def BPos.comes : BPos → Bool
  | .out | .acquire | .drainedUp | .enter | .asleep => true
  | _ => false

def BPos.way : BPos → Nat
  | .out => 3
  | .acquire | .drainedUp => 2
  | .enter => 1
  | _ => 0

theorem Live.home {s : Bar} (hs : Live s) (h0 : ∀ x ∈ s.procs, x.far = 0) : AllPassed s ∨ (s.shared.phase = .filling ∧ ∀ x ∈ s.procs, x.comes = true) := by
  obtain ⟨j1, j2, j3, j4, j5⟩ := hs.phase
  have hc : s.procs.countP BPos.inside = 0 := List.countP_eq_zero.2 fun x hx => by
    have := h0 x hx
    cases x with
    | up t => cases t <;> simp [BPos.far] at this
    | look t => cases t <;> simp [BPos.far] at this
    | notify k next => cases next <;> simp [BPos.far] at this
    | _ => first | (simp [BPos.inside]; done) | (simp [BPos.far] at this; done)
  have hr : s.procs.countP BPos.resets = 0 := List.countP_eq_zero.2 fun x hx => by
    have := h0 x hx
    cases x with
    | notify k next => cases next <;> simp [BPos.far] at this
    | _ => first | (simp [BPos.resets]; done) | (simp [BPos.far] at this; done)
  have hg := hs.gated
  have hcount := hg.1
  rw [hc] at hcount
  have hp : s.shared.phase = .filling := by
    cases h : s.shared.phase with
    | filling => rfl
    | draining => have := j1 (.inl h); omega
    | resetting => have := j1 (.inr h); omega
    | broken => have := j4 h; omega
  rcases hg.2 with ⟨h, _⟩ | ⟨_, h⟩ | ⟨_, h⟩
  · rw [hp] at h; cases h
  · refine .inl fun x hx => ?_
    have h1 := h x hx
    have h2 := h0 x hx
    cases x with
    | back ok => cases ok <;> simp_all [BPos.over]
    | notify k next => cases next <;> simp [BPos.far] at h2
    | _ => simp [BPos.over] at h1
  · refine .inr ⟨hp, fun x hx => ?_⟩
    have h1 := h x hx
    have h2 := h0 x hx
    cases x with
    | back ok => cases ok <;> simp_all [BPos.knows, BPos.far]
    | notify k next => cases next <;> simp [BPos.far] at h2
    | up t => cases t <;> simp [BPos.far] at h2
    | look t => cases t <;> simp [BPos.far] at h2
    | dead => exact absurd hx hs.alive
    | _ => first | rfl | (simp [BPos.far] at h2; done)

theorem way_split (l r : List BPos) (x : BPos) : ((l ++ x :: r).map BPos.way).sum = (l.map BPos.way).sum + (r.map BPos.way).sum + x.way := by
  simp only [List.map_append, List.map_cons, List.sum_append, List.sum_cons]
  omega

theorem coming_step {s s' : BShared} {l r : List BPos} {x x' : BPos} (h : BAct (l ++ x :: r).length (s, x) (s', x')) (hp : s'.phase = .filling) (hx : x'.comes = true)
    (hw : x'.way < x.way) (ha : ∀ y ∈ l ++ x :: r, y.comes = true) :
    ∃ t, BStep ⟨s, l ++ x :: r⟩ t ∧ t.shared.phase = .filling ∧ (∀ y ∈ t.procs, y.comes = true) ∧ (t.procs.map BPos.way).sum < ((l ++ x :: r).map BPos.way).sum := by
  refine ⟨_, .act h, hp, fun y hy => ?_, ?_⟩
  · simp only [List.mem_append, List.mem_cons] at hy ha
    rcases hy with hy | rfl | hy
    · exact ha y (.inl hy)
    · exact hx
    · exact ha y (.inr (.inr hy))
  · rw [way_split, way_split]
    omega

theorem Live.coming {s : Bar} (hs : Live s) (hp : s.shared.phase = .filling) (ha : ∀ x ∈ s.procs, x.comes = true) :
    (∃ t, BStep s t ∧ t.shared.phase = .draining) ∨
      ∃ t, BStep s t ∧ t.shared.phase = .filling ∧ (∀ y ∈ t.procs, y.comes = true) ∧ (t.procs.map BPos.way).sum < (s.procs.map BPos.way).sum := by
  obtain ⟨sh, ps⟩ := s
  obtain ⟨h1, h2, h3⟩ := hs.sems
  obtain ⟨j1, j2, j3, j4, j5⟩ := hs.phase
  have hg := hs.gated.1
  simp only at *
  cases hl : sh.locked with
  | true =>
    rw [hl, Bool.toNat_true] at h1
    obtain ⟨x, hx, hh⟩ := mem_of_countP (p := BPos.holds) (l := ps) (by unfold holders at h1; simp only at h1; omega)
    have hx' : x = .enter := by
      have := ha x hx
      cases x <;> simp_all [BPos.comes, BPos.holds]
    subst hx'
    obtain ⟨l, r, rfl⟩ := List.append_of_mem hx
    by_cases hn : sh.count + 1 = (l ++ BPos.enter :: r).length
    · exact .inl ⟨_, .act (.release hp hn), rfl⟩
    · exact .inr (coming_step (.sleep hp hn) hp rfl (by decide) ha)
  | false =>
    rw [hl, Bool.toNat_false] at h1
    have hex : ∃ x ∈ ps, x ≠ .asleep := by
      have hlt := j5 hp
      rw [hg] at hlt
      by_cases h : ∃ x ∈ ps, x ≠ .asleep
      · exact h
      · have : ps.countP BPos.inside = ps.length := List.countP_eq_length.2 fun y hy => by
          have : y = .asleep := by
            by_cases e : y = .asleep
            · exact e
            · exact absurd ⟨y, hy, e⟩ h
          rw [this]
          rfl
        omega
    obtain ⟨x, hx, hne⟩ := hex
    have hc := ha x hx
    have hh : x.holds = false := by simpa using List.countP_eq_zero.1 h1 x hx
    obtain ⟨l, r, rfl⟩ := List.append_of_mem hx
    refine .inr ?_
    cases x with
    | out => exact coming_step .call hp rfl (by decide) ha
    | acquire => exact coming_step (.lock hl) hp rfl (by decide) ha
    | drainedUp => exact coming_step (.relockDrained hl) hp rfl (by decide) ha
    | asleep => exact absurd rfl hne
    | enter => simp [BPos.holds] at hh
    | _ => simp [BPos.comes] at hc

theorem Live.fill {s : Bar} (hs : Live s) (hp : s.shared.phase = .filling) (ha : ∀ x ∈ s.procs, x.comes = true) : ∃ t, BSteps s t ∧ t.shared.phase = .draining := by
  generalize hk : (s.procs.map BPos.way).sum = k
  induction k using Nat.strongRecOn generalizing s with
  | ind k ih =>
    rcases hs.coming hp ha with ⟨t, ht, h⟩ | ⟨t, ht, h1, h2, h3⟩
    · exact ⟨t, .head ht .refl, h⟩
    · obtain ⟨u, hu, h⟩ := ih _ (hk ▸ h3) (hs.step ht) h1 h2 rfl
      exact ⟨u, .head ht hu, h⟩

theorem Live.through {s t : Bar} (hs : Live s) (h : BStep s t) (hth : s.shared.phase = .draining ∨ ∃ x ∈ s.procs, x.over = true) :
    t.shared.phase = .draining ∨ ∃ x ∈ t.procs, x.over = true := by
  have hg := hs.gated
  cases h with
  | @act s l x r s' x' h =>
    simp only at hth ⊢
    rcases hth with hd | ⟨y, hy, hyo⟩
    · have hpass : x.passes = true := by
        rcases hg.2 with ⟨_, h⟩ | ⟨h, _⟩ | ⟨h, _⟩
        · exact h x (by simp)
        · exact absurd hd h
        · exact absurd hd h
      generalize hx : (s, x) = p at h
      generalize hy : (s', x') = q at h
      cases h <;> simp only [Prod.mk.injEq, BShared.notifyAll] at hx hy <;> obtain ⟨rfl, rfl⟩ := hx <;> obtain ⟨rfl, rfl⟩ := hy
      case exitLast ok _ _ =>
        refine .inr ⟨_, by simp; exact .inr (.inl rfl), ?_⟩
        cases ok <;> simp_all [BPos.passes, BPos.over]
      all_goals simp_all [BPos.passes]
    · refine .inr ?_
      simp only [List.mem_append, List.mem_cons] at hy
      rcases hy with hy | rfl | hy
      · exact ⟨y, by simp [hy], hyo⟩
      · refine ⟨x', by simp, ?_⟩
        generalize hx : (s, y) = p at h
        generalize hy : (s', x') = q at h
        cases h <;> simp only [Prod.mk.injEq, BShared.notifyAll] at hx hy <;> obtain ⟨rfl, rfl⟩ := hx <;> obtain ⟨rfl, rfl⟩ := hy <;>
          (try (simp [BPos.over] at hyo; done))
        case woke k next _ => cases next with
          | ret ok => cases ok <;> simp_all [BPos.over]
          | _ => simp [BPos.over] at hyo
        case notifiedRet ok => cases ok <;> simp_all [BPos.over, afterWait]
      · exact ⟨y, by simp [hy], hyo⟩

/-- C131: if no process is killed, the processes never come into a state from which they cannot pass the barrier all together: whatever has happened so far, with any
number of processes, some execution goes on until all of them have passed it. -/
theorem C131_progress {n : Nat} {s : Bar} (h : BSteps (Bar.init (n + 1)) s) : ∃ t, BSteps s t ∧ AllPassed t := by
  have hs := h.live
  obtain ⟨t, ht, hf⟩ := hs.leave
  have hlt : Live t := ht.inv (fun h hs => Live.step h hs) hs
  rcases hlt.home hf with hall | ⟨hp, hc⟩
  · exact ⟨t, ht, hall⟩
  · obtain ⟨u, hu, hd⟩ := hlt.fill hp hc
    have hlu : Live u := hu.inv (fun h hs => Live.step h hs) hlt
    obtain ⟨v, hv, hfv⟩ := hlu.leave
    have key : Live v ∧ (v.shared.phase = .draining ∨ ∃ x ∈ v.procs, x.over = true) :=
      hv.inv (P := fun s => Live s ∧ (s.shared.phase = .draining ∨ ∃ x ∈ s.procs, x.over = true)) (fun h hs => ⟨hs.1.step h, hs.1.through h hs.2⟩) ⟨hlu, .inl hd⟩
    refine ⟨v, (ht.trans hu).trans hv, ?_⟩
    rcases key.1.home hfv with hall | ⟨hp', hc'⟩
    · exact hall
    · rcases key.2 with h | ⟨x, hx, hxo⟩
      · rw [hp'] at h; cases h
      · have := hc' x hx
        cases x <;> simp [BPos.comes, BPos.over] at this hxo

/-- C131: without kills there is no deadlock in the barrier: as long as not all processes have passed it, one of them can go on. -/
theorem C131_no_deadlock {n : Nat} {s : Bar} (h : BSteps (Bar.init (n + 1)) s) (hn : ¬ AllPassed s) : ∃ t, BStep s t := by
  obtain ⟨t, ht, hall⟩ := C131_progress h
  have key : ∀ {s t : Bar}, BSteps s t → s = t ∨ ∃ u, BStep s u := by
    intro s t h
    induction h with
    | refl => exact .inl rfl
    | step _ h ih =>
      rcases ih with rfl | ih
      · exact .inr ⟨_, h⟩
      · exact .inr ih
  rcases key ht with rfl | h
  · exact absurd hall hn
  · exact h

/-- C131: the assertions of `Condition.notify` hold: no token is left over from an earlier call, and no more processes have woken up than have gone to sleep. So it never
raises AssertionError in a process of ff. -/
theorem C131_assertions {n : Nat} {s : Bar} (h : BSteps (Bar.init n) s) {x : BPos} (hx : x ∈ s.procs) (hm : MayNotify x) :
    s.shared.tokens = 0 ∧ s.shared.woken ≤ s.shared.sleeping := by
  obtain ⟨h1, h2, h3⟩ := h.gated.1
  have hl := Bool.toNat_le s.shared.locked
  obtain ⟨l, r, e⟩ := List.append_of_mem hx
  have hh : x.holds = true ∧ x.notifies = false := by
    rcases hm with rfl | ⟨t, rfl⟩ | ⟨ok, rfl⟩ | rfl <;> exact ⟨rfl, rfl⟩
  have hN : notifiers s = 0 := by
    unfold holders at h1
    unfold notifiers
    rw [e, count_split] at h1 ⊢
    rw [hh.1, Bool.toNat_true] at h1
    rw [hh.2, Bool.toNat_false]
    have := notifies_holds (l := l)
    have := notifies_holds (l := r)
    omega
  have := h2 hN
  omega

/-- One worker waits for the others, and not all processes have passed. -/
example : BSteps (Bar.init (1 + 1)) demoWaits ∧ ¬ AllPassed demoWaits := ⟨demo_waits, fun h => by simp [AllPassed, demoWaits] at h⟩

/-- The main process is about to notify the worker. -/
example : ∃ s, BSteps (Bar.init 2) s ∧ BPos.enter ∈ s.procs ∧ MayNotify .enter ∧ s.shared.sleeping = 1 := by
  refine ⟨⟨⟨.filling, 1, true, 1, 0, 0⟩, [.enter, .asleep]⟩, demo_waits.trans ?_, by simp, .inl rfl, rfl⟩
  refine .head (BStep.act (l := []) (r := [.asleep]) .call) ?_
  exact .head (BStep.act (l := []) (r := [.asleep]) (.lock rfl)) .refl

end FF
