import Verif.Model.Output
import Verif.Spec.Output
/-! C110: the lines of several processes are not mixed. -/
namespace FF
open Spec

/-! ### The buffers lose nothing -/

theorem bufWrite_flatten (B : Nat) (buf data : Bytes) : (bufWrite B buf data).1.flatten ++ (bufWrite B buf data).2 = buf ++ data := by
  unfold bufWrite
  by_cases h : data.length ≤ B - buf.length
  · simp [h]
  · simp only [h, if_false]
    by_cases hb : buf = [] <;> by_cases hd : B < data.length <;> simp [hb, hd]

/-- What a state still holds. -/
def StdOut.held (st : StdOut) : Bytes := st.buf ++ st.pending

theorem writeflush_flatten (B : Nat) (st : StdOut) : (st.writeflush B).1.flatten ++ (st.writeflush B).2.held = st.held := by
  simp only [StdOut.writeflush, StdOut.held, List.append_nil]
  exact bufWrite_flatten B st.buf st.pending

theorem writeflush_pending (B : Nat) (st : StdOut) : (st.writeflush B).2.pending = [] := rfl

theorem bufFlush_flatten (st : StdOut) : st.bufFlush.1.flatten ++ st.bufFlush.2.held = st.held := by
  simp only [StdOut.bufFlush, StdOut.held, List.nil_append]
  by_cases h : st.buf = [] <;> simp [h]

theorem flush_flatten (B : Nat) (st : StdOut) : (st.flush B).1.flatten = st.held ∧ (st.flush B).2 = .empty := by
  refine ⟨?_, rfl⟩
  have h1 := writeflush_flatten B st
  have h2 := bufFlush_flatten (st.writeflush B).2
  have h3 : ((st.writeflush B).2.bufFlush).2.held = [] := rfl
  rw [h3, List.append_nil] at h2
  simp only [StdOut.flush, List.flatten_append]
  rw [h2, h1]

theorem write_flatten (lineBuf : Bool) (B : Nat) (st : StdOut) (chunk : Bytes) :
    (st.write lineBuf B chunk).1.flatten ++ (st.write lineBuf B chunk).2.held = st.held ++ chunk := by
  unfold StdOut.write
  simp only
  generalize ha : (if textChunkSize ≤ chunk.length then st.writeflush B else ([], st)) = a
  have ha' : a.1.flatten ++ a.2.held = st.held := by
    rw [← ha]; split
    · exact writeflush_flatten B st
    · rfl
  generalize hb : (if a.2.pending ≠ [] ∧ textChunkSize < a.2.pending.length + chunk.length then a.2.writeflush B else ([], a.2)) = b
  have hb' : b.1.flatten ++ b.2.held = a.2.held := by
    rw [← hb]; split
    · exact writeflush_flatten B a.2
    · rfl
  generalize (lineBuf && (chunk.contains 10 || chunk.contains 13)) = nf
  generalize hd : (if textChunkSize ≤ (b.2.pending ++ chunk).length ∨ nf = true then StdOut.writeflush B ⟨b.2.pending ++ chunk, b.2.buf⟩
    else ([], ⟨b.2.pending ++ chunk, b.2.buf⟩)) = d
  have hc' : (⟨b.2.pending ++ chunk, b.2.buf⟩ : StdOut).held = b.2.held ++ chunk := by simp [StdOut.held]
  have hd' : d.1.flatten ++ d.2.held = b.2.held ++ chunk := by
    rw [← hd, ← hc']; split
    · exact writeflush_flatten B _
    · rfl
  generalize he : (if nf then d.2.bufFlush else ([], d.2)) = e
  have he' : e.1.flatten ++ e.2.held = d.2.held := by
    rw [← he]; split
    · exact bufFlush_flatten d.2
    · rfl
  simp only [List.flatten_append, List.append_assoc]
  rw [he', hd', ← List.append_assoc b.1.flatten, hb', ← List.append_assoc, ha']

theorem writes_flatten (lineBuf : Bool) (B : Nat) (chunks : List Bytes) : ∀ st : StdOut,
    (st.writes lineBuf B chunks).1.flatten ++ (st.writes lineBuf B chunks).2.held = st.held ++ chunks.flatten := by
  induction chunks with
  | nil => intro st; simp [StdOut.writes]
  | cons c cs ih =>
    intro st
    simp only [StdOut.writes, List.flatten_append, List.append_assoc]
    rw [ih, ← List.append_assoc, write_flatten]
    simp

theorem record_flatten (lineBuf : Bool) (B : Nat) (st : StdOut) (chunks : List Bytes) :
    (st.record lineBuf B chunks).1.flatten = st.held ++ chunks.flatten ∧ (st.record lineBuf B chunks).2 = .empty := by
  unfold StdOut.record
  simp only
  obtain ⟨h1, h2⟩ := flush_flatten B (st.writes lineBuf B chunks).2
  refine ⟨?_, h2⟩
  rw [List.flatten_append, h1, writes_flatten]

theorem records_flatten (lineBuf : Bool) (B : Nat) (rs : List (List Bytes)) : (StdOut.empty.records lineBuf B rs).flatten = (rs.map List.flatten).flatten := by
  induction rs with
  | nil => rfl
  | cons r rs ih =>
    obtain ⟨h1, h2⟩ := record_flatten lineBuf B .empty r
    simp only [StdOut.records, List.flatten_append, List.map_cons, List.flatten_cons]
    rw [h1, h2, ih]
    rfl

/-! ### A short record is a single call -/

theorem write_small (lineBuf : Bool) (B : Nat) (st : StdOut) (chunk : Bytes) (hl : lineBuf = false ∨ (10 ∉ chunk ∧ 13 ∉ chunk))
    (h : st.pending.length + chunk.length < textChunkSize) : st.write lineBuf B chunk = ([], ⟨st.pending ++ chunk, st.buf⟩) := by
  have hnf : (lineBuf && (chunk.contains 10 || chunk.contains 13)) = false := by
    rcases hl with hl | ⟨h1, h2⟩
    · simp [hl]
    · simp [h1, h2]
  unfold StdOut.write
  simp only [hnf]
  have e1 : ¬ textChunkSize ≤ chunk.length := by omega
  have e2 : ¬ textChunkSize < st.pending.length + chunk.length := by omega
  have e3 : ¬ textChunkSize ≤ (st.pending ++ chunk).length := by rw [List.length_append]; omega
  simp only [e1, if_false, e2, and_false, e3, Bool.false_eq_true, or_self, List.append_nil, List.nil_append]

theorem writes_small (lineBuf : Bool) (B : Nat) (chunks : List Bytes) (hl : lineBuf = false ∨ ∀ c ∈ chunks, 10 ∉ c ∧ 13 ∉ c) : ∀ st : StdOut,
    st.pending.length + chunks.flatten.length < textChunkSize → st.writes lineBuf B chunks = ([], ⟨st.pending ++ chunks.flatten, st.buf⟩) := by
  induction chunks with
  | nil => intro st _; simp [StdOut.writes]
  | cons c cs ih =>
    intro st h
    rw [List.flatten_cons, List.length_append] at h
    have h1 := write_small lineBuf B st c (hl.imp_right fun hl => hl c (by simp)) (by omega)
    have h2 := ih (hl.imp_right fun hl c hc => hl c (List.mem_cons_of_mem _ hc)) ⟨st.pending ++ c, st.buf⟩ (by rw [List.length_append]; omega)
    simp only [StdOut.writes, h1, h2, List.nil_append, List.flatten_cons, List.append_assoc]

theorem flush_small (B : Nat) (data : Bytes) : (StdOut.flush B ⟨data, []⟩).1 = if data = [] then [] else [data] := by
  simp only [StdOut.flush, StdOut.writeflush, StdOut.bufFlush, bufWrite, List.length_nil, Nat.sub_zero, List.nil_append, if_true]
  by_cases h : data.length ≤ B
  · simp [h]
  · have h' : B < data.length := by omega
    have hd : data ≠ [] := by intro e; rw [e] at h'; simp at h'
    simp [h, h', hd]

theorem record_small (lineBuf : Bool) (B : Nat) (chunks : List Bytes) (hl : lineBuf = false) (h : chunks.flatten.length < textChunkSize) (hne : chunks.flatten ≠ []) :
    StdOut.empty.record lineBuf B chunks = ([chunks.flatten], .empty) := by
  have h1 := writes_small lineBuf B chunks (.inl hl) .empty (by simpa [StdOut.empty] using h)
  have h2 := flush_small B chunks.flatten
  rw [if_neg hne] at h2
  have h3 := (flush_flatten B (⟨chunks.flatten, []⟩ : StdOut)).2
  unfold StdOut.record
  simp only [h1]
  simp only [StdOut.empty, List.nil_append] at h2 h3 ⊢
  rw [h2, h3]

theorem records_small (lineBuf : Bool) (B : Nat) (rs : List (List Bytes)) (hl : lineBuf = false) (h : ∀ r ∈ rs, r.flatten.length < textChunkSize ∧ r.flatten ≠ []) :
    StdOut.empty.records lineBuf B rs = rs.map List.flatten := by
  induction rs with
  | nil => rfl
  | cons r rs ih =>
    obtain ⟨h1, h2⟩ := h r (by simp)
    simp only [StdOut.records, record_small lineBuf B r hl h1 h2, List.map_cons]
    rw [ih fun r hr => h r (List.mem_cons_of_mem _ hr)]
    rfl

/-! ### The pipe -/

/-- The calls that have been made, and those that remain, of each process. -/
inductive Split : List (List Bytes) → List (List Bytes) → List (List WriteCall) → Prop
  | nil : Split [] [] []
  | cons {p rest : List Bytes} {all done ws} : Split all done ws → Split ((p ++ rest) :: all) (p :: done) (rest.map (fun q => (q, false)) :: ws)

theorem Split.init : ∀ all : List (List Bytes), Split all (all.map fun _ => []) (all.map fun l => l.map fun q => (q, false))
  | [] => .nil
  | l :: all => .cons (p := []) (Split.init all)

theorem Split.step {all done : List (List Bytes)} {ws : List (List WriteCall)} (h : Split all done ws) : ∀ {a b : List (List WriteCall)} {q : Bytes} {cut : Bool} {qs : List WriteCall},
    ws = a ++ ((q, cut) :: qs) :: b → cut = false ∧ ∃ da db d, done = da ++ d :: db ∧ Split all (da ++ (d ++ [q]) :: db) (a ++ qs :: b) := by
  induction h with
  | nil => intro a b q cut qs e; cases a <;> cases e
  | @cons p rest all done ws h ih =>
    intro a b q cut qs e
    cases a with
    | nil =>
      rw [List.nil_append, List.cons.injEq] at e
      obtain ⟨e1, rfl⟩ := e
      cases rest with
      | nil => cases e1
      | cons r rest =>
        rw [List.map_cons, List.cons.injEq, Prod.mk.injEq] at e1
        obtain ⟨⟨rfl, rfl⟩, rfl⟩ := e1
        refine ⟨rfl, [], done, p, rfl, ?_⟩
        have := Split.cons (p := p ++ [r]) (rest := rest) h
        rwa [List.append_assoc, List.singleton_append] at this
    | cons x a =>
      rw [List.cons_append, List.cons.injEq] at e
      obtain ⟨rfl, e⟩ := e
      obtain ⟨hc, da, db, d, rfl, hs⟩ := ih e
      exact ⟨hc, p :: da, db, d, rfl, .cons hs⟩

theorem Split.beginnings {all done : List (List Bytes)} {ws : List (List WriteCall)} (h : Split all done ws) : Beginnings done all := by
  induction h with
  | nil => exact .nil
  | cons _ ih => exact .cons (List.prefix_append _ _) ih

theorem Split.ended {all done : List (List Bytes)} {ws : List (List WriteCall)} (h : Split all done ws) (he : ∀ w ∈ ws, w = []) : done = all := by
  induction h with
  | nil => rfl
  | @cons p rest all done ws _ ih =>
    rw [ih fun w hw => he w (List.mem_cons_of_mem _ hw)]
    have : rest = [] := by simpa using he _ (List.mem_cons_self ..)
    rw [this, List.append_nil]

theorem steps_split {all : List (List Bytes)} {s t : PipeState} (hs : s = ([], all.map fun l => l.map fun q => (q, false))) (h : PipeSteps s t) :
    ∃ done ls, Split all done t.2 ∧ Merged done ls ∧ t.1 = ls.flatten := by
  induction h with
  | refl => subst hs; exact ⟨_, [], Split.init all, .nil (by simp), rfl⟩
  | step _ st ih =>
    obtain ⟨done, ls, h1, h2, h3⟩ := ih
    cases st with
    | @whole out a b q cut qs =>
      obtain ⟨_, da, db, d, rfl, h4⟩ := h1.step rfl
      exact ⟨_, ls ++ [q], h4, .snoc h2, by simp only at h3 ⊢; rw [h3]; simp⟩
    | @part out a b p q qs => exact absurd (h1.step rfl).1 (by simp)

theorem initPipe_small (B : Nat) (procs : List (List (List Bytes))) (h : ∀ rs ∈ procs, ∀ r ∈ rs, r.flatten.length ≤ pipeBuf ∧ r.flatten ≠ []) :
    initPipe false B procs = ([], (procs.map fun rs => rs.map List.flatten).map fun l => l.map fun q => (q, false)) := by
  unfold initPipe
  congr 1
  rw [List.map_map]
  refine List.map_congr_left fun rs hrs => ?_
  have hp : pipeBuf < textChunkSize := by decide
  rw [records_small false B rs rfl fun r hr => ⟨Nat.lt_of_le_of_lt (h rs hrs r hr).1 hp, (h rs hrs r hr).2⟩]
  simp only [Function.comp, List.map_map]
  refine List.map_congr_left fun r hr => ?_
  simp only [Function.comp, writeCall]
  rw [decide_eq_false (by have := (h rs hrs r hr).1; omega)]

/-- **C110** (partial: lines of at most PIPE_BUF bytes). However many processes print results at the same time to a pipe or file, and at every moment, also if the program is
stopped: what has been written are whole lines, the first ones of each process in their order; no line is torn or mixed with another one. -/
theorem C110_whole_partial (B : Nat) (procs : List (List (List Bytes))) (h : ∀ rs ∈ procs, ∀ r ∈ rs, r.flatten.length ≤ pipeBuf ∧ r.flatten ≠ []) {out : Bytes}
    {rest : List (List WriteCall)} (hs : PipeSteps (initPipe false B procs) (out, rest)) :
    ∃ done lines, Beginnings done (procs.map fun rs => rs.map List.flatten) ∧ Merged done lines ∧ out = lines.flatten := by
  obtain ⟨done, ls, h1, h2, h3⟩ := steps_split (initPipe_small B procs h) hs
  exact ⟨done, ls, h1.beginnings, h2, h3⟩

/-- **C110**. In particular that holds for paths, which have at most 4095 bytes (PATH_MAX), each followed by the byte that ends lines. -/
theorem C110_paths (B : Nat) (newline : Nat) (procs : List (List Bytes)) (h : ∀ ps ∈ procs, ∀ p ∈ ps, p.length ≤ 4095) {out : Bytes} {rest : List (List WriteCall)}
    (hs : PipeSteps (initPipe false B (procs.map fun ps => ps.map fun p => [p, [newline]])) (out, rest)) :
    ∃ done lines, Beginnings done (procs.map fun ps => ps.map fun p => p ++ [newline]) ∧ Merged done lines ∧ out = lines.flatten := by
  have h' := C110_whole_partial B (procs.map fun ps => ps.map fun p => [p, [newline]]) (by
    intro rs hrs r hr
    obtain ⟨ps, hps, rfl⟩ := List.mem_map.1 hrs
    obtain ⟨p, hp, rfl⟩ := List.mem_map.1 hr
    have := h ps hps p hp
    refine ⟨?_, by simp⟩
    simp only [List.flatten_cons, List.flatten_nil, List.append_nil, List.length_append, List.length_singleton, pipeBuf]
    omega) hs
  have e : ∀ ps : List Bytes, (ps.map fun p => [p, [newline]]).map List.flatten = ps.map fun p => p ++ [newline] := by intro ps; simp
  simpa only [List.map_map, Function.comp_def, e] using h'

/-- **C110** (partial: lines of at most PIPE_BUF bytes). When all processes have ended, all lines are there. -/
theorem C110_complete_partial (B : Nat) (procs : List (List (List Bytes))) (h : ∀ rs ∈ procs, ∀ r ∈ rs, r.flatten.length ≤ pipeBuf ∧ r.flatten ≠ []) {out : Bytes}
    {rest : List (List WriteCall)} (hs : PipeSteps (initPipe false B procs) (out, rest)) (hend : ∀ w ∈ rest, w = []) :
    ∃ lines, Merged (procs.map fun rs => rs.map List.flatten) lines ∧ out = lines.flatten := by
  obtain ⟨done, ls, h1, h2, h3⟩ := steps_split (initPipe_small B procs h) hs
  rw [h1.ended hend] at h2
  exact ⟨ls, h2, h3⟩

theorem Spec.Merged.block {α : Type} {a b : List (List α)} {l t : List α} (h : Merged (a ++ l :: b) t) (q : List α) : Merged (a ++ (l ++ q) :: b) (t ++ q) := by
  induction q generalizing l t with
  | nil => simpa using h
  | cons x q ih =>
    have := ih (Merged.snoc (x := x) h)
    simpa using this

/-- The bytes that have been written, and the calls that remain, of each process. -/
inductive BSplit : List Bytes → List Bytes → List (List WriteCall) → Prop
  | nil : BSplit [] [] []
  | cons {p : Bytes} {w : List WriteCall} {all done ws} : BSplit all done ws → BSplit ((p ++ (w.map Prod.fst).flatten) :: all) (p :: done) (w :: ws)

theorem BSplit.init : ∀ ws : List (List WriteCall), BSplit (ws.map fun w => (w.map Prod.fst).flatten) (ws.map fun _ => []) ws
  | [] => .nil
  | _ :: ws => .cons (p := []) (BSplit.init ws)

theorem BSplit.step {all done : List Bytes} {ws : List (List WriteCall)} (h : BSplit all done ws) : ∀ {a b : List (List WriteCall)} {w w' : List WriteCall} {q : Bytes},
    ws = a ++ w :: b → (w.map Prod.fst).flatten = q ++ (w'.map Prod.fst).flatten →
      ∃ da db d, done = da ++ d :: db ∧ BSplit all (da ++ (d ++ q) :: db) (a ++ w' :: b) := by
  induction h with
  | nil => intro a b w w' q e; cases a <;> cases e
  | @cons p v all done ws h ih =>
    intro a b w w' q e hq
    cases a with
    | nil =>
      rw [List.nil_append, List.cons.injEq] at e
      obtain ⟨rfl, rfl⟩ := e
      refine ⟨[], done, p, rfl, ?_⟩
      have := BSplit.cons (p := p ++ q) (w := w') h
      rwa [List.append_assoc, ← hq] at this
    | cons x a =>
      rw [List.cons_append, List.cons.injEq] at e
      obtain ⟨rfl, e⟩ := e
      obtain ⟨da, db, d, rfl, hs⟩ := ih e hq
      exact ⟨p :: da, db, d, rfl, .cons hs⟩

theorem BSplit.ended {all done : List Bytes} {ws : List (List WriteCall)} (h : BSplit all done ws) (he : ∀ w ∈ ws, w = []) : done = all := by
  induction h with
  | nil => rfl
  | @cons p w all done ws _ ih =>
    rw [ih fun w hw => he w (List.mem_cons_of_mem _ hw), he w (List.mem_cons_self ..)]
    simp

theorem BSplit.beginnings {all done : List Bytes} {ws : List (List WriteCall)} (h : BSplit all done ws) : Beginnings done all := by
  induction h with
  | nil => exact .nil
  | cons _ ih => exact .cons (List.prefix_append _ _) ih

theorem steps_bsplit {all : List Bytes} {s t : PipeState} (h0 : s.1 = []) (hs : all = s.2.map fun w => (w.map Prod.fst).flatten) (h : PipeSteps s t) :
    ∃ done, BSplit all done t.2 ∧ Merged done t.1 := by
  induction h with
  | refl => subst hs; rw [h0]; exact ⟨_, BSplit.init _, .nil (by simp)⟩
  | step _ st ih =>
    obtain ⟨done, h1, h2⟩ := ih
    cases st with
    | @whole out a b q cut qs =>
      obtain ⟨da, db, d, rfl, h4⟩ := h1.step (w' := qs) (q := q) rfl (by simp)
      exact ⟨_, h4, h2.block q⟩
    | @part out a b p q qs =>
      obtain ⟨da, db, d, rfl, h4⟩ := h1.step (w' := (q, true) :: qs) (q := p) rfl (by simp)
      exact ⟨_, h4, h2.block p⟩

/-- **C110**. However long the lines are, nothing is lost or repeated, and what a process prints stays in its order. -/
theorem C110_bytes (lineBuf : Bool) (B : Nat) (procs : List (List (List Bytes))) {out : Bytes} {rest : List (List WriteCall)}
    (hs : PipeSteps (initPipe lineBuf B procs) (out, rest)) :
    ∃ done, Beginnings done (procs.map fun rs => (rs.map List.flatten).flatten) ∧ Merged done out ∧
      ((∀ w ∈ rest, w = []) → done = procs.map fun rs => (rs.map List.flatten).flatten) := by
  have hall : (procs.map fun rs => (rs.map List.flatten).flatten) = (initPipe lineBuf B procs).2.map fun w => (w.map Prod.fst).flatten := by
    simp only [initPipe, List.map_map]
    refine List.map_congr_left fun rs _ => ?_
    simp only [Function.comp, List.map_map]
    rw [← records_flatten lineBuf B rs]
    congr 1
    rw [show (Prod.fst ∘ writeCall) = id from rfl, List.map_id]
  obtain ⟨done, h1, h2⟩ := steps_bsplit rfl hall hs
  exact ⟨done, h1.beginnings, h2, h1.ended⟩

theorem Spec.Merged.single {α : Type} {ls : List (List α)} {t : List α} (h : Merged ls t) : ∀ l, ls = [l] → t = l := by
  induction h with
  | nil h => intro l e; subst e; exact (h l (by simp)).symm
  | @snoc a b l t x _ ih =>
    intro l' e
    cases a with
    | nil =>
      rw [List.nil_append, List.cons.injEq] at e
      obtain ⟨rfl, rfl⟩ := e
      rw [ih l rfl]
    | cons y a => rw [List.cons_append, List.cons.injEq] at e; cases a <;> cases e.2

/-- **C110**. With a single process (--jobs 1, or results that are sorted) the lines are whatever their length in the order in which they were printed. -/
theorem C110_single (lineBuf : Bool) (B : Nat) (rs : List (List Bytes)) {out : Bytes} {rest : List (List WriteCall)}
    (hs : PipeSteps (initPipe lineBuf B [rs]) (out, rest)) (hend : ∀ w ∈ rest, w = []) : out = (rs.map List.flatten).flatten := by
  obtain ⟨done, _, h2, h3⟩ := C110_bytes lineBuf B [rs] hs
  rw [h3 hend] at h2
  exact h2.single _ rfl

/-- **C110** (false). Lines of more than PIPE_BUF bytes from two processes may be mixed, whatever they are. -/
theorem C110_long_false (B : Nat) (x y : Bytes) (hx : pipeBuf < x.length) (hy : pipeBuf < y.length) (hx' : x.length < textChunkSize) (hy' : y.length < textChunkSize)
    (p q : Bytes) (hp : x = p ++ q) : PipeSteps (initPipe false B [[[x]], [[y]]]) (p ++ y ++ q, [[], []]) := by
  have e : initPipe false B [[[x]], [[y]]] = ([], [[(p ++ q, true)], [(y, true)]]) := by
    have hne : ∀ z : Bytes, pipeBuf < z.length → z ≠ [] := by rintro z h rfl; simp at h
    have h1 := records_small false B [[x]] rfl (by simpa using ⟨hx', hne x hx⟩)
    have h2 := records_small false B [[y]] rfl (by simpa using ⟨hy', hne y hy⟩)
    simp only [initPipe, List.map_cons, List.map_nil, h1, h2, List.flatten_cons, List.flatten_nil, List.append_nil, writeCall]
    rw [decide_eq_true hx, decide_eq_true hy, hp]
  rw [e]
  have s1 : PipeStep ([], [[(p ++ q, true)], [(y, true)]]) ([] ++ p, [[(q, true)], [(y, true)]]) := .part (a := []) (b := [[(y, true)]]) (qs := [])
  have s2 : PipeStep ([] ++ p, [[(q, true)], [(y, true)]]) ([] ++ p ++ y, [[(q, true)], []]) := .whole (a := [[(q, true)]]) (b := []) (qs := [])
  have s3 : PipeStep ([] ++ p ++ y, [[(q, true)], []]) ([] ++ p ++ y ++ q, [[], []]) := .whole (a := []) (b := [[]]) (qs := [])
  have := ((PipeSteps.refl.step s1).step s2).step s3
  simpa using this

/-- **C110** (false). A line of 8191 bytes or more is written without the end of the line at first. -/
theorem C110_end_false (B : Nat) (line : Bytes) (h : textChunkSize ≤ line.length) (hB : B < line.length) :
    StdOut.empty.records false B [[line, [10]]] = [line, [10]] := by
  have hl : line ≠ [] := by rintro rfl; simp [textChunkSize] at h
  have h1 : ¬ line.length ≤ B := by omega
  have e1 : StdOut.write false B .empty line = ([line], .empty) := by
    simp [StdOut.write, StdOut.empty, StdOut.writeflush, bufWrite, h, h1, hB]
  have e2 := write_small false B .empty [10] (.inl rfl) (by decide)
  have e3 := flush_small B [10]
  simp only [StdOut.records, StdOut.record, StdOut.writes, e1, e2, List.append_nil]
  rw [show (⟨StdOut.empty.pending ++ [10], StdOut.empty.buf⟩ : StdOut) = ⟨[10], []⟩ from rfl, e3]
  rfl

/-- **C110** (false). On a terminal, a name with a line feed is written in two steps. -/
theorem C110_terminal_false : StdOut.empty.records true 1024 [[[97, 10, 98], [10]]] = [[97, 10, 98], [10]] := by decide

example : ∀ rs ∈ [[[[97], [10]], [[98, 99], [10]]], [[[100], [10]]]], ∀ r ∈ rs, r.flatten.length ≤ pipeBuf ∧ r.flatten ≠ [] := by decide

example : PipeSteps (initPipe false 8192 [[[[97], [10]]], [[[98], [10]]]]) ([98, 10, 97, 10], [[], []]) :=
  (PipeSteps.refl.step (.whole (a := [[([97, 10], false)]]) (b := []) (q := [98, 10]) (qs := []))).step (.whole (a := []) (b := [[]]) (qs := []))

end FF
