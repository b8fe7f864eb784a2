import Verif.Spec.Ending
import Verif.Props.Exit
/-! C115: what happens when the reader of the output goes away. -/
namespace FF
open Spec

/-- What is known at any time: the reader has got the beginning of what has been written, and if it has got less than what it takes then the rest is in the buffer. -/
structure OutPipe.Ok (n : Nat) (text : Str) (p : OutPipe) : Prop where
  total : p.got ++ p.pending = text
  count : p.got.length + p.left = n

theorem flush_ok {n : Nat} {text : Str} {p : OutPipe} (h : p.Ok n text) : p.flush.1.Ok n text ∧ (p.flush.2 = true ↔ text.length ≤ n) ∧
    (p.flush.2 = true → p.flush.1.got = text) ∧ (p.flush.2 = false → p.flush.1.got = text.take n ∧ p.flush.1.left = 0) := by
  obtain ⟨h1, h2⟩ := h
  have hl : text.length = p.got.length + p.pending.length := by rw [← h1, List.length_append]
  unfold OutPipe.flush
  split
  · rename_i hle
    refine ⟨⟨by simpa using h1, by simp; omega⟩, by simp; omega, fun _ => h1, by simp⟩
  · rename_i hle
    refine ⟨⟨by simpa using h1, by simp; omega⟩, by simp; omega, by simp, fun _ => ⟨?_, rfl⟩⟩
    show p.got ++ p.pending.take p.left = text.take n
    rw [← h1, List.take_append, List.take_of_length_le (l := p.got) (i := n) (by omega), show n - p.got.length = p.left by omega]

theorem print_ok {n : Nat} {text s : Str} {p : OutPipe} (h : p.Ok n text) : ({ p with pending := p.pending ++ s } : OutPipe).Ok n (text ++ s) :=
  ⟨by rw [← h.total]; simp, h.count⟩

theorem runActs_cons (p : OutPipe) (a : OutAct) (acts : List OutAct) : runActs p (a :: acts) = if (a.run p).2 then runActs (a.run p).1 acts else ((a.run p).1, false) := by
  rw [runActs]
  generalize a.run p = x
  obtain ⟨x1, x2⟩ := x
  cases x2 <;> rfl

/-- After the actions: either all has been done, and the text is longer by what they write, or the reader is gone and has got all it takes. -/
theorem runActs_ok {n : Nat} : ∀ (acts : List OutAct) {text : Str} {p : OutPipe}, p.Ok n text →
    ((runActs p acts).2 = true ∧ (runActs p acts).1.Ok n (text ++ written acts)) ∨
    ((runActs p acts).2 = false ∧ (runActs p acts).1.got = (text ++ written acts).take n ∧ (runActs p acts).1.left = 0 ∧ (runActs p acts).1.pending ≠ [] ∧
      n < (text ++ written acts).length) := by
  intro acts
  induction acts with
  | nil => intro text p h; exact .inl ⟨rfl, by simpa [written, runActs] using h⟩
  | cons a acts ih =>
    intro text p h
    -- a flush that fails
    have hfail : ∀ {t : Str} {q : OutPipe} (w : Str), q.Ok n t → q.flush.2 = false →
        q.flush.1.got = (t ++ w).take n ∧ q.flush.1.left = 0 ∧ q.flush.1.pending ≠ [] ∧ n < (t ++ w).length := by
      intro t q w hq hf
      obtain ⟨f1, f2, _, f4⟩ := flush_ok hq
      obtain ⟨f4, f5⟩ := f4 hf
      have hn : n < t.length := by
        have := mt f2.2 (by rw [hf]; simp)
        omega
      refine ⟨?_, f5, ?_, by rw [List.length_append]; omega⟩
      · rw [f4, List.take_append_of_le_length (by omega)]
      · intro e
        have h3 := congrArg List.length f1.total
        rw [e, f4] at h3
        simp at h3
        omega
    cases a with
    | print s spill =>
      have hw : text ++ written (.print s spill :: acts) = (text ++ s) ++ written acts := by simp [written]
      rw [hw]
      cases spill with
      | false =>
        have : runActs p (.print s false :: acts) = runActs { p with pending := p.pending ++ s } acts := rfl
        rw [this]
        exact ih (print_ok h)
      | true =>
        cases hf : (({ p with pending := p.pending ++ s } : OutPipe).flush).2 with
        | true =>
          have : runActs p (.print s true :: acts) = runActs (({ p with pending := p.pending ++ s } : OutPipe).flush).1 acts := by
            rw [runActs_cons]; simp only [OutAct.run, if_true, hf, Bool.false_eq_true, if_false]
          rw [this]
          exact ih (flush_ok (print_ok h)).1
        | false =>
          have : runActs p (.print s true :: acts) = ((({ p with pending := p.pending ++ s } : OutPipe).flush).1, false) := by
            rw [runActs_cons]; simp only [OutAct.run, if_true, hf, Bool.false_eq_true, if_false]
          rw [this]
          exact .inr ⟨rfl, hfail _ (print_ok h) hf⟩
    | flush =>
      have hw : text ++ written (.flush :: acts) = text ++ written acts := by simp [written]
      rw [hw]
      cases hf : p.flush.2 with
      | true =>
        have : runActs p (.flush :: acts) = runActs p.flush.1 acts := by
          rw [runActs_cons]; simp only [OutAct.run, if_true, hf, Bool.false_eq_true, if_false]
        rw [this]
        exact ih (flush_ok h).1
      | false =>
        have : runActs p (.flush :: acts) = (p.flush.1, false) := by
          rw [runActs_cons]; simp only [OutAct.run, if_true, hf, Bool.false_eq_true, if_false]
        rw [this]
        exact .inr ⟨rfl, hfail _ h hf⟩

/-- Nothing gets through any more. -/
theorem runActs_closed : ∀ (acts : List OutAct) {p : OutPipe}, p.left = 0 → p.pending ≠ [] →
    (runActs p acts).1.got = p.got ∧ (runActs p acts).1.left = 0 ∧ (runActs p acts).1.pending ≠ [] := by
  have hflush : ∀ {p : OutPipe}, p.left = 0 → p.pending ≠ [] → p.flush = (p, false) := by
    intro p hl hp
    have : 0 < p.pending.length := List.length_pos_iff.2 hp
    unfold OutPipe.flush
    rw [if_neg (by omega), hl]
    obtain ⟨g, q, l⟩ := p
    simp only at hl
    subst hl
    simp
  intro acts
  induction acts with
  | nil => intro p hl hp; exact ⟨rfl, hl, hp⟩
  | cons a acts ih =>
    intro p hl hp
    cases a with
    | print s spill =>
      have hp' : ({ p with pending := p.pending ++ s } : OutPipe).pending ≠ [] := by simp [hp]
      cases spill with
      | false => exact ih (p := { p with pending := p.pending ++ s }) hl hp'
      | true =>
        have : runActs p (.print s true :: acts) = ({ p with pending := p.pending ++ s }, false) := by
          unfold runActs
          simp only [OutAct.run, if_true]
          rw [hflush (p := { p with pending := p.pending ++ s }) hl hp']
        rw [this]
        exact ⟨rfl, hl, hp'⟩
    | flush =>
      have : runActs p (.flush :: acts) = (p, false) := by
        unfold runActs
        simp only [OutAct.run]
        rw [hflush hl hp]
      rw [this]
      exact ⟨rfl, hl, hp⟩

/-- What a reader gets that takes `n` characters, and the exit status. -/
theorem collectedEnd_eq (n : Nat) (finalize close : List OutAct) (status : Nat) :
    collectedEnd n finalize close status = ((written finalize ++ written close).take n, if (written finalize ++ written close).length ≤ n then status else 120) := by
  have h0 : (⟨[], [], n⟩ : OutPipe).Ok n [] := ⟨rfl, by simp⟩
  have hclosed : ∀ {p : OutPipe}, p.left = 0 → p.pending ≠ [] → p.flush.2 = false ∧ p.flush.1.got = p.got := by
    intro p hl hp
    have : 0 < p.pending.length := List.length_pos_iff.2 hp
    unfold OutPipe.flush
    rw [if_neg (by omega), hl]
    simp
  unfold collectedEnd
  rcases runActs_ok finalize h0 with ⟨_, h1⟩ | ⟨_, h1, h2, h3, h4⟩
  · rw [List.nil_append] at h1
    rcases runActs_ok close h1 with ⟨k1, h5⟩ | ⟨k1, h5, h6, h7, h8⟩
    · obtain ⟨_, f2, f3, f4⟩ := flush_ok h5
      simp only [k1, if_true]
      cases hf : (OutPipe.flush _).2 with
      | true =>
        have hle := f2.1 hf
        rw [f3 hf, List.take_of_length_le hle, if_pos hle]
        simp
      | false =>
        have hle := mt f2.2 (by rw [hf]; simp)
        rw [(f4 hf).1, if_neg hle]
        simp
    · obtain ⟨g1, g2⟩ := hclosed h6 h7
      simp only [g1, g2, h5]
      rw [if_neg (by simp), if_neg (by omega)]
  · rw [List.nil_append] at h1 h4
    obtain ⟨c1, c2, c3⟩ := runActs_closed close h2 h3
    obtain ⟨g1, g2⟩ := hclosed c2 c3
    simp only [g1, g2, c1, h1]
    rw [List.take_append_of_le_length (by omega), if_neg (by simp), if_neg (by rw [List.length_append]; omega)]

/-- **C115**: a reader of results that are collected gets the beginning of the output, as much as it takes, wherever buffers are written and whether records are flushed or not. -/
theorem C115_collected (n : Nat) (finalize close : List OutAct) (status : Nat) : (collectedEnd n finalize close status).1 = (written finalize ++ written close).take n := by
  rw [collectedEnd_eq]

/-- **C115** (partial: only if the reader takes all): the status is that of the search. -/
theorem C115_status_partial (n : Nat) (finalize close : List OutAct) (status : Nat) (h : (written finalize ++ written close).length ≤ n) :
    (collectedEnd n finalize close status).2 = status := by
  rw [collectedEnd_eq, if_pos h]

/-- **C115** (false): whenever the reader does not take all, the status is 120, which is not in the manual, whatever the results. -/
theorem C115_status_false (n : Nat) (finalize close : List OutAct) (status : Nat) (h : n < (written finalize ++ written close).length) :
    (collectedEnd n finalize close status).2 = 120 ∧ ¬ ∃ d, (120, d) ∈ exitCodes := by
  rw [collectedEnd_eq, if_neg (by omega)]
  exact ⟨rfl, fun h => absurd (documented_iff.1 h) (by decide)⟩

/-- **C115** for the kinds of output: records in lines with the counts of `--count` after them, and the list of `--json`. -/
theorem C115_kinds (n : Nat) (lines pieces counts : List (Str × Bool)) (spill : Bool) (status : Nat) :
    (collectedEnd n (lineActs lines) (countActs counts) status).1 = (lines.flatMap Prod.fst ++ counts.flatMap Prod.fst).take n ∧
    (collectedEnd n (jsonActs pieces) (jsonClose spill) status).1 = ('[' :: pieces.flatMap Prod.fst ++ [']', '\n']).take n := by
  have h1 : ∀ l : List (Str × Bool), written (lineActs l) = l.flatMap Prod.fst := by
    intro l
    induction l with
    | nil => rfl
    | cons x l ih =>
      rw [List.flatMap_cons, ← ih]
      rfl
  have h2 : ∀ l : List (Str × Bool), written (l.map fun l => OutAct.print l.1 l.2) = l.flatMap Prod.fst := by
    intro l
    induction l with
    | nil => rfl
    | cons x l ih =>
      rw [List.flatMap_cons, ← ih]
      rfl
  constructor
  · rw [C115_collected, h1]
    unfold countActs
    rw [h2]
  · rw [C115_collected]
    have e : written (jsonActs pieces) = '[' :: pieces.flatMap Prod.fst := by rw [← h2]; rfl
    rw [e]
    rfl

/-! ### Results that are printed by the workers -/

theorem workersRun_got : ∀ (lines : List (Str × Bool)) (n : Nat) (broken : Bool), (broken = true → n = 0) →
    (workersRun n lines broken).1 = (lines.flatMap Prod.fst).take n := by
  intro lines
  induction lines with
  | nil => intro n broken _; simp [workersRun]
  | cons x lines ih =>
    intro n broken hb
    obtain ⟨l, tried⟩ := x
    rw [workersRun, List.flatMap_cons]
    split
    · rename_i h
      simp only [Bool.and_eq_true] at h
      rw [ih n true (fun _ => hb h.1), hb h.1]
      simp
    · split
      · rename_i hl
        simp only
        rw [ih _ broken (fun h => by rw [hb h]; simp), List.take_append, List.take_of_length_le (l := l) hl]
      · rename_i hl
        simp only
        rw [ih 0 true (fun _ => rfl), List.take_append_of_le_length (by omega)]
        simp

/-- The operations on the shared state. -/
theorem workersRun_ops : ∀ (lines : List (Str × Bool)) (n : Nat) (broken : Bool),
    (∀ op ∈ (workersRun n lines broken).2, op = .setResult ∨ op = .setExit 4 ∨ op = .stop) ∧
    (broken = false → (.setExit 4 ∈ (workersRun n lines broken).2 ↔ n < (lines.flatMap Prod.fst).length)) ∧
    (broken = false → (.setResult ∈ (workersRun n lines broken).2 ↔ lines ≠ [])) := by
  intro lines
  induction lines with
  | nil => intro n broken; simp [workersRun]
  | cons x lines ih =>
    intro n broken
    obtain ⟨l, tried⟩ := x
    rw [workersRun, List.flatMap_cons, List.length_append]
    split
    · rename_i h
      simp only [Bool.and_eq_true] at h
      refine ⟨(ih n true).1, fun hb => ?_, fun hb => ?_⟩ <;> (rw [hb] at h; simp at h)
    · split
      · rename_i hl
        obtain ⟨i1, i2, i3⟩ := ih (n - l.length) broken
        refine ⟨?_, fun hb => ?_, fun hb => by simp⟩
        · intro op hop
          rcases List.mem_cons.1 hop with h | h
          · exact .inl h
          · exact i1 op h
        · simp only [List.mem_cons, reduceCtorEq, false_or]
          rw [i2 hb]
          omega
      · rename_i hl
        obtain ⟨i1, i2, i3⟩ := ih 0 true
        refine ⟨?_, fun hb => ?_, fun hb => by simp⟩
        · intro op hop
          rcases List.mem_append.1 hop with h | h
          · simp only [List.mem_cons, List.not_mem_nil, or_false] at h
            exact h
          · exact i1 op h
        · constructor
          · intro _; show n < l.length + _; omega
          · intro _; simp

theorem foldl_ops : ∀ (ops : List Op) (s : Ctx), (∀ op ∈ ops, op = .setResult ∨ op = .setExit 4 ∨ op = .stop) →
    (ops.foldl Ctx.apply s).exitcode = (if Op.setExit 4 ∈ ops then 4 else s.exitcode) ∧
    (ops.foldl Ctx.apply s).hasResult = (s.hasResult || decide (Op.setResult ∈ ops)) := by
  intro ops
  induction ops with
  | nil => intro s _; simp
  | cons op ops ih =>
    intro s h
    obtain ⟨i1, i2⟩ := ih (s.apply op) (fun o ho => h o (by simp [ho]))
    rw [List.foldl_cons, i1, i2]
    rcases h op (by simp) with rfl | rfl | rfl <;> simp [Ctx.apply]

/-- **C115**: and so does a reader of results that are printed by the workers, in the order in which they are written. -/
theorem C115_immediate (n : Nat) (fail : Bool) (lines : List (Str × Bool)) : (immediateEnd n fail lines).1 = (lines.flatMap Prod.fst).take n :=
  workersRun_got lines n false (by simp)

/-- **C115** (partial: only if the reader takes all): the status is that of the search, 0 or, with `--fail`, 1 if there are no results. -/
theorem C115_immediate_partial (n : Nat) (fail : Bool) (lines : List (Str × Bool)) (h : (lines.flatMap Prod.fst).length ≤ n) :
    (immediateEnd n fail lines).2 = if fail = true ∧ lines = [] then 1 else 0 := by
  obtain ⟨o1, o2, o3⟩ := workersRun_ops lines n false
  obtain ⟨f1, f2⟩ := foldl_ops _ Ctx.init o1
  unfold immediateEnd
  simp only [exitStatus]
  have hx : Op.setExit 4 ∉ (workersRun n lines false).2 := fun hm => by have := (o2 rfl).1 hm; omega
  have hr := o3 rfl
  rw [f1, f2, if_neg hx]
  by_cases hl : lines = []
  · have : Op.setResult ∉ (workersRun n lines false).2 := fun hm => hr.1 hm hl
    subst hl
    simp [Ctx.init, this]
  · have := hr.2 hl
    simp [Ctx.init, this, hl]

/-- **C115** (false): whenever the reader does not take all, the status is 4, "One or more ff processes had unrecoverable errors". -/
theorem C115_immediate_false (n : Nat) (fail : Bool) (lines : List (Str × Bool)) (h : n < (lines.flatMap Prod.fst).length) : (immediateEnd n fail lines).2 = 4 := by
  obtain ⟨o1, o2, _⟩ := workersRun_ops lines n false
  obtain ⟨f1, _⟩ := foldl_ops _ Ctx.init o1
  unfold immediateEnd
  simp only [exitStatus]
  rw [f1, if_pos ((o2 rfl).2 h)]
  simp

/-- C114, negated once more: an interrupt from the keyboard gives status 1 as well. -/
theorem C114_interrupt_false : interruptStatus false = some 1 := rfl

/-- `ff --sort | head -c 4`, `ff --json | head -c 4` and `ff | head -c 4` with two records. -/
example : collectedEnd 4 (lineActs [("a\n".toList, false), ("bcd\n".toList, false)]) [] 0 = ("a\nbc".toList, 120) ∧
    collectedEnd 4 (jsonActs [("{}".toList, false), (",".toList, false), ("{}".toList, true)]) (jsonClose false) 0 = ("[{},".toList, 120) ∧
    collectedEnd 10 (lineActs [("a\n".toList, false), ("bcd\n".toList, false)]) (countActs [("_total=2\n".toList, false)]) 3 = ("a\nbcd\n_tot".toList, 120) ∧
    collectedEnd 6 (lineActs [("a\n".toList, false), ("bcd\n".toList, true)]) [] 0 = ("a\nbcd\n".toList, 0) ∧
    immediateEnd 4 true [("a\n".toList, true), ("bcd\n".toList, true), ("e\n".toList, true)] = ("a\nbc".toList, 4) ∧
    immediateEnd 6 true [("a\n".toList, true), ("bcd\n".toList, true)] = ("a\nbcd\n".toList, 0) := by decide +kernel

end FF
