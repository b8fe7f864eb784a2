import Verif.Spec.Exec
import Verif.Props.Template
/-! C41, C42, C43, C44: commands and the exit status. -/
namespace FF
open Spec

/-! ### C41 -/

theorem batchLoop_prefix {α : Type} (run : List (List α × Int) → List α → RunResult) : ∀ fuel log entries remainder,
    ∃ new, (batchLoop run fuel log entries remainder).1 = log ++ new ∧ (new.map Prod.fst).flatten <+: entries ++ remainder ∧ ∀ x ∈ new, x.1 ≠ [] := by
  intro fuel
  induction fuel with
  | zero => intro log entries remainder; exact ⟨[], by simp [batchLoop], by simp, by simp⟩
  | succ fuel ih =>
    intro log entries remainder
    rw [batchLoop]
    by_cases he : entries = []
    · rw [if_pos he]; exact ⟨[], by simp, by simp, by simp⟩
    · rw [if_neg he]
      cases run log entries with
      | osError => exact ⟨[], by simp, by simp, by simp⟩
      | exited code =>
        obtain ⟨new, h1, h2, h3⟩ := ih (log ++ [(entries, code)]) remainder []
        refine ⟨(entries, code) :: new, by simp [h1], ?_, ?_⟩
        · rw [List.append_nil] at h2
          simpa using (List.prefix_append_right_inj entries).2 h2
        · intro x hx
          rcases List.mem_cons.1 hx with rfl | hx
          · exact he
          · exact h3 x hx
      | tooBig =>
        obtain ⟨new, h1, h2, h3⟩ := ih log (entries.take (entries.length / 2)) (entries.drop (entries.length / 2) ++ remainder)
        refine ⟨new, h1, ?_, h3⟩
        rw [← List.append_assoc, List.take_append_drop] at h2
        exact h2

/-- C41: whatever the system does, the commands together get a part of the results from the beginning on, each result once and in order; none gets no
result. -/
theorem C41_prefix {α : Type} (run : List (List α × Int) → List α → RunResult) (fuel : Nat) (entries : List α) :
    (((batchLoop run fuel [] entries []).1).map Prod.fst).flatten <+: entries ∧ ∀ x ∈ (batchLoop run fuel [] entries []).1, x.1 ≠ [] := by
  obtain ⟨new, h1, h2, h3⟩ := batchLoop_prefix run fuel [] entries []
  rw [List.append_nil] at h2
  rw [h1]
  exact ⟨h2, h3⟩

theorem batchLoop_complete {α : Type} (run : List (List α × Int) → List α → RunResult) (hone : ∀ log e, run log [e] ≠ .tooBig)
    (hstart : ∀ log es, run log es ≠ .osError) : ∀ fuel log entries remainder, (entries = [] → remainder = []) →
    (entries.length + remainder.length) * (entries.length + remainder.length + 1) + entries.length + 1 ≤ fuel →
    ∃ new, batchLoop run fuel log entries remainder = (log ++ new, .done) ∧ (new.map Prod.fst).flatten = entries ++ remainder := by
  intro fuel
  induction fuel with
  | zero => intro log entries remainder _ h; omega
  | succ fuel ih =>
    intro log entries remainder hrem hfuel
    rw [batchLoop]
    by_cases he : entries = []
    · rw [if_pos he, he, hrem he]; exact ⟨[], by simp, by simp⟩
    · rw [if_neg he]
      have hpos : 0 < entries.length := List.length_pos_iff.2 he
      cases hrun : run log entries with
      | osError => exact absurd hrun (hstart _ _)
      | exited code =>
        obtain ⟨new, h1, h2⟩ := ih (log ++ [(entries, code)]) remainder [] (fun _ => rfl) (by
          simp only [List.length_nil, Nat.add_zero]
          have : remainder.length * (remainder.length + 1) + remainder.length + 1 ≤
              (entries.length + remainder.length) * (entries.length + remainder.length + 1) := by
            have h1 : remainder.length + 1 ≤ entries.length + remainder.length := by omega
            have h2 : remainder.length + 2 ≤ entries.length + remainder.length + 1 := by omega
            have h3 := Nat.mul_le_mul h1 h2
            have h4 : (remainder.length + 1) * (remainder.length + 2) = remainder.length * (remainder.length + 1) + remainder.length + 1 + (remainder.length + 1) := by
              simp only [Nat.add_mul, Nat.mul_add]; omega
            omega
          omega)
        refine ⟨(entries, code) :: new, ?_, ?_⟩
        · show batchLoop run fuel (log ++ [(entries, code)]) remainder [] = _
          rw [h1]; simp
        · simp [h2]
      | tooBig =>
        have h2le : 2 ≤ entries.length := by
          cases entries with
          | nil => simp at he
          | cons e es => cases es with
            | nil => exact absurd hrun (hone _ _)
            | cons _ _ => simp
        have hlt : (entries.take (entries.length / 2)).length = entries.length / 2 := by rw [List.length_take]; omega
        have htot : (entries.take (entries.length / 2)).length + (entries.drop (entries.length / 2) ++ remainder).length =
            entries.length + remainder.length := by
          rw [hlt, List.length_append, List.length_drop]; omega
        obtain ⟨new, h1, h2⟩ := ih log (entries.take (entries.length / 2)) (entries.drop (entries.length / 2) ++ remainder)
          (fun h => by rw [h] at hlt; simp at hlt; omega) (by rw [htot, hlt]; omega)
        refine ⟨new, h1, ?_⟩
        rw [h2, ← List.append_assoc, List.take_append_drop]

/-- C41: if a command with a single result always fits and commands can be started, then all results are passed, each of them once and in order, and
the loop ends. The size limit may be anything and may change. (What is missing: `C41_false`.) -/
theorem C41_once_partial {α : Type} (run : List (List α × Int) → List α → RunResult) (hone : ∀ log e, run log [e] ≠ .tooBig)
    (hstart : ∀ log es, run log es ≠ .osError) (entries : List α) (fuel : Nat) (hf : (entries.length + 1) * (entries.length + 1) ≤ fuel) :
    ∃ log, batchLoop run fuel [] entries [] = (log, .done) ∧ (log.map Prod.fst).flatten = entries ∧ ∀ x ∈ log, x.1 ≠ [] := by
  obtain ⟨new, h1, h2⟩ := batchLoop_complete run hone hstart fuel [] entries [] (fun _ => rfl) (by
    have h4 : (entries.length + 1) * (entries.length + 1) = entries.length * (entries.length + 1) + (entries.length + 1) := by
      rw [Nat.add_mul, Nat.one_mul]
    simp only [List.length_nil, Nat.add_zero]
    omega)
  rw [List.append_nil] at h2
  refine ⟨new, by simpa using h1, h2, ?_⟩
  have := (C41_prefix run fuel entries).2
  rw [h1] at this
  simpa using this

/-- C41: if all results fit into one command, then there is a single command. -/
theorem C41_single {α : Type} (run : List (List α × Int) → List α → RunResult) (entries : List α) (hne : entries ≠ []) (code : Int)
    (h : run [] entries = .exited code) (fuel : Nat) : batchLoop run (fuel + 2) [] entries [] = ([(entries, code)], .done) := by
  rw [batchLoop, if_neg hne, h]
  rfl

/-- A single result that is too long is dropped with all that come after it. -/
theorem C41_false : ∃ run : List (List Nat × Int) → List Nat → RunResult, (∀ log es, run log es ≠ .osError) ∧
    ∀ fuel, batchLoop run (fuel + 6) [] [1, 2, 3, 4] [] = ([([1], 0)], .done) :=
  ⟨fun _ es => if es = [1] then .exited 0 else .tooBig, by intro log es; by_cases h : es = [1] <;> simp [h], fun _ => rfl⟩

/-- C41: the commands of `-X cmd args`: the command, the arguments and the paths of the results, each path once and in order. -/
theorem C41_paths_partial (R : RenderEnv) (cmd : Str) (args : List Str) (hpath : (makeField R.search.reg "file.path".toList).isSome = true)
    (entries : List EntInfo) (hne : entries ≠ []) (path : EntInfo → Str) (hp : ∀ e ∈ entries, R.placeholder e "file.path".toList = some (path e)) :
    ∃ fields, execBatchFields R.search.reg ((cmd :: args).map double) = some fields ∧
      ∀ run : List (List EntInfo × Int) → List EntInfo → RunResult, (∀ log e, run log [e] ≠ .tooBig) → (∀ log es, run log es ≠ .osError) →
      ∀ fuel, (entries.length + 1) * (entries.length + 1) ≤ fuel →
        ∃ groups : List (List Str), groups.flatten = entries.map path ∧ [] ∉ groups ∧
          (batchLoop run fuel [] entries []).1.map (fun x => R.batchRender fields x.1) = groups.map (fun g => cmd :: args ++ g) := by
  obtain ⟨i, _⟩ := List.exists_mem_of_ne_nil _ hne
  obtain ⟨fields, h1, h2⟩ := C40_batch R i [.text cmd] (args.map (fun s => [.text s])) (by
    intro w hw n hn
    rcases List.mem_cons.1 hw with rfl | hw
    · simp at hn
    · obtain ⟨s, _, rfl⟩ := List.mem_map.1 hw
      simp at hn) hpath rfl
  have e : ([Seg.text cmd] :: args.map (fun s => [Seg.text s])).map spellWord = (cmd :: args).map double := by
    rw [List.map_cons, List.map_map, List.map_cons]
    congr 1
    · simp [spellWord, Seg.spell]
    · exact List.map_congr_left (fun s _ => by simp [spellWord, Seg.spell])
  rw [e] at h1
  refine ⟨fields, h1, fun run hone hstart fuel hf => ?_⟩
  obtain ⟨log, h3, h4, h5⟩ := C41_once_partial run hone hstart entries fuel hf
  have hrender : ∀ es : List EntInfo, (∀ x ∈ es, x ∈ entries) → R.batchRender fields es = cmd :: args ++ es.map path := by
    intro es hes
    rw [h2 es]
    have hno : (([Seg.text cmd] :: args.map (fun s => [Seg.text s])).drop 1).any hasHole = false := by simp [hasHole]
    unfold commandWords
    rw [hno, if_neg (by decide)]
    have hm : ((args.map (fun s => [Seg.text s])).map (batchWord (R.placeholder ·) es)).flatten = args := by
      clear e h1 h2 h3 hno
      induction args with
      | nil => rfl
      | cons x xs ih =>
        rw [List.map_cons, List.map_cons, List.flatten_cons, ih]
        simp [batchWord, hasHole, wordValue, Seg.value]
    have hv : batchWord (R.placeholder ·) es [.hole []] = es.map path := by
      have hh : hasHole [Seg.hole []] = true := rfl
      unfold batchWord
      rw [if_pos hh]
      have : ∀ x ∈ es, wordValue (R.placeholder x) [.hole []] = some (path x) := by
        intro x hx
        rw [wordValue, wordValue]
        show (match R.placeholder x "file.path".toList, some [] with
          | some a, some b => some (a ++ b)
          | _, _ => none) = _
        rw [hp x (hes x hx)]
        simp
      clear hes h2 h3 h4 hm
      clear e h1
      induction es with
      | nil => rfl
      | cons x xs ih =>
        rw [List.filterMap_cons, this x (by simp), List.map_cons, ih (fun y hy => this y (by simp [hy]))]
    have hc : (wordValue (fun _ => none) [Seg.text cmd]).getD [] = cmd := by simp [wordValue, Seg.value]
    simp only [List.cons_append, List.drop_succ_cons, List.drop_zero, List.map_append, List.flatten_append, hm, hc, List.map_cons, List.map_nil, hv,
      List.flatten_cons, List.flatten_nil, List.append_nil]
  refine ⟨log.map (fun x => x.1.map path), ?_, ?_, ?_⟩
  · rw [← h4, List.map_flatten, List.map_map]; rfl
  · intro h
    obtain ⟨x, hx, hx'⟩ := List.mem_map.1 h
    exact h5 x hx (List.map_eq_nil_iff.1 hx')
  · rw [h3, List.map_map]
    apply List.map_congr_left
    intro x hx
    rw [hrender x.1]
    · rfl
    · intro y hy
      rw [← h4]
      exact List.mem_flatten.2 ⟨x.1, List.mem_map_of_mem hx, hy⟩

/-- The hypotheses of C41 hold for a system that takes at most two results at a time: seven results are passed like this. -/
example : (∀ log e, (fun (_ : List (List Nat × Int)) (es : List Nat) => if es.length ≤ 2 then RunResult.exited 0 else .tooBig) log [e] ≠ .tooBig) ∧
    batchLoop (fun (_ : List (List Nat × Int)) es => if es.length ≤ 2 then .exited 0 else .tooBig) 64 [] [1, 2, 3, 4, 5, 6, 7] [] =
      ([([1], 0), ([2], 0), ([3, 4], 0), ([5], 0), ([6, 7], 0)].map (fun x => x), .done) := ⟨by simp, by decide⟩

/-! ### C42 -/

theorem Interleaving.count {α : Type} (p : α → Bool) {ps : List (List α)} {t : List α} (h : Interleaving ps t) : t.countP p = ps.flatten.countP p := by
  induction h with
  | done h =>
    have : ∀ ps : List (List α), (∀ p ∈ ps, p = []) → ps.flatten = [] := by
      intro ps h; induction ps with
      | nil => rfl
      | cons q qs ih => rw [List.flatten_cons, h q (by simp), ih (fun x hx => h x (by simp [hx]))]; rfl
    rw [this _ h]
  | step _ ih =>
    rw [List.countP_cons, ih]
    simp only [List.flatten_append, List.flatten_cons, List.countP_append, List.countP_cons]
    omega

theorem Interleaving.mem {α : Type} [DecidableEq α] {ps : List (List α)} {t : List α} (h : Interleaving ps t) (x : α) : x ∈ t ↔ ∃ p ∈ ps, x ∈ p := by
  have := h.count (fun y => y = x)
  rw [← List.mem_flatten]
  have hc : ∀ l : List α, x ∈ l ↔ 0 < l.countP (fun y => y = x) := by
    intro l; rw [List.countP_pos_iff]; simp
  rw [hc, hc, this]

theorem foldl_exitcode (t : List Op) : ∀ s : Ctx, (∀ x ∈ t, ∀ n, x = .setExit n → n = 3 ∨ n = 4) →
    ((∀ n, .setExit n ∉ t) → (t.foldl Ctx.apply s).exitcode = s.exitcode) ∧
    ((∃ n, .setExit n ∈ t) → .setExit (t.foldl Ctx.apply s).exitcode ∈ t) := by
  induction t with
  | nil => intro s _; exact ⟨fun _ => rfl, fun ⟨n, h⟩ => by simp at h⟩
  | cons x t ih =>
    intro s hx
    obtain ⟨h1, h2⟩ := ih (s.apply x) (fun y hy => hx y (by simp [hy]))
    rw [List.foldl_cons]
    refine ⟨fun h => ?_, fun _ => ?_⟩
    · rw [h1 (fun n hn => h n (by simp [hn]))]
      cases x with
      | setExit n => exact absurd (by simp) (h n)
      | _ => rfl
    · by_cases ht : ∃ n, Op.setExit n ∈ t
      · exact List.mem_cons_of_mem _ (h2 ht)
      · have h3 := h1 (fun n hn => ht ⟨n, hn⟩)
        rw [h3]
        cases x with
        | setExit n => simp [Ctx.apply]
        | _ =>
          rename_i hex
          obtain ⟨n, hn⟩ := hex
          exact absurd ⟨n, by simpa using hn⟩ ht

theorem foldl_counts (t : List Op) : ∀ s : Ctx, (t.foldl Ctx.apply s).failed = s.failed + t.countP (fun x => x = .incFailed) ∧
    (t.foldl Ctx.apply s).succeeded = s.succeeded + t.countP (fun x => x = .incSucceeded) ∧
    (t.foldl Ctx.apply s).hasResult = (s.hasResult || t.any (fun x => x = .setResult)) ∧
    (t.foldl Ctx.apply s).stopping = (s.stopping || t.any (fun x => x = .stop)) := by
  induction t with
  | nil => intro s; simp
  | cons x t ih =>
    intro s
    obtain ⟨h1, h2, h3, h4⟩ := ih (s.apply x)
    rw [List.foldl_cons, h1, h2, h3, h4]
    cases x <;> simp [Ctx.apply, List.countP_cons] <;> omega

theorem execExit_zero {halt : Halt} (hh : halt ≠ .other) (c : Command) : execExit halt c = 0 ↔ ¬ Failed halt c := by
  obtain ⟨code, i⟩ := c
  unfold Failed execExit
  cases code with
  | none => simp
  | some code => cases halt <;> cases i <;> simp_all

/-- A task fails. -/
def Task.Fails (halt : Halt) : Task → Prop
  | .command c => Failed halt c
  | .results _ => False
  | .crash => True

/-- The operations of processes. -/
def programs (halt : Halt) (mode : Mode) (ps : List (List Task)) : List (List Op) := ps.map (fun p => (p.map (Task.ops halt mode)).flatten)

theorem ops_setExit {halt : Halt} (hh : halt ≠ .other) (mode : Mode) (t : Task) (n : Nat) : .setExit n ∈ t.ops halt mode ↔
    (n = 3 ∧ ∃ c, t = .command c ∧ Failed halt c) ∨ (n = 4 ∧ t = .crash) := by
  cases t with
  | command c =>
    have := execExit_zero hh c
    simp only [Task.ops, runExecProcess, execOps]
    by_cases h0 : execExit halt c = 0
    · rw [if_neg (by simp [h0])]
      simp [this.1 h0]
    · rw [if_pos h0]
      have hf : Failed halt c := Classical.byContradiction (fun h => h0 (this.2 h))
      by_cases h1 : halt = .soon ∨ halt = .now <;> simp [h1, hf]
  | results k =>
    simp only [Task.ops]
    split
    · simp
    · split <;> simp
  | crash => simp [Task.ops]

theorem mem_programs {halt : Halt} {mode : Mode} {ps : List (List Task)} {x : Op} : (∃ p ∈ programs halt mode ps, x ∈ p) ↔
    ∃ p ∈ ps, ∃ t ∈ p, x ∈ t.ops halt mode := by
  unfold programs
  constructor
  · rintro ⟨p, hp, hx⟩
    obtain ⟨q, hq, rfl⟩ := List.mem_map.1 hp
    obtain ⟨l, hl, hx⟩ := List.mem_flatten.1 hx
    obtain ⟨t, ht, rfl⟩ := List.mem_map.1 hl
    exact ⟨q, hq, t, ht, hx⟩
  · rintro ⟨q, hq, t, ht, hx⟩
    exact ⟨_, List.mem_map_of_mem hq, List.mem_flatten.2 ⟨_, List.mem_map_of_mem ht, hx⟩⟩

theorem final_exitcode {halt : Halt} (hh : halt ≠ .other) (mode : Mode) (ps : List (List Task)) {t : List Op} (h : Interleaving (programs halt mode ps) t) :
    ((∃ p ∈ ps, ∃ x ∈ p, x.Fails halt) ↔ (t.foldl Ctx.apply .init).exitcode ≠ 0) ∧
    ((t.foldl Ctx.apply .init).exitcode ≠ 0 → ((t.foldl Ctx.apply .init).exitcode = 3 ∧ ∃ p ∈ ps, ∃ c, .command c ∈ p ∧ Failed halt c) ∨
      ((t.foldl Ctx.apply .init).exitcode = 4 ∧ ∃ p ∈ ps, .crash ∈ p)) := by
  have hmem : ∀ n, .setExit n ∈ t ↔ ∃ p ∈ ps, ∃ x ∈ p, (n = 3 ∧ ∃ c, x = .command c ∧ Failed halt c) ∨ (n = 4 ∧ x = .crash) := by
    intro n
    rw [h.mem, mem_programs]
    constructor
    · rintro ⟨p, hp, x, hx, hm⟩; exact ⟨p, hp, x, hx, (ops_setExit hh mode x n).1 hm⟩
    · rintro ⟨p, hp, x, hx, hm⟩; exact ⟨p, hp, x, hx, (ops_setExit hh mode x n).2 hm⟩
  have hvals : ∀ x ∈ t, ∀ n, x = .setExit n → n = 3 ∨ n = 4 := by
    rintro x hx n rfl
    obtain ⟨_, _, _, _, h | h⟩ := (hmem n).1 hx
    · exact Or.inl h.1
    · exact Or.inr h.1
  obtain ⟨h1, h2⟩ := foldl_exitcode t .init hvals
  have hsome : (∃ p ∈ ps, ∃ x ∈ p, x.Fails halt) ↔ ∃ n, .setExit n ∈ t := by
    constructor
    · rintro ⟨p, hp, x, hx, hf⟩
      cases x with
      | command c => exact ⟨3, (hmem 3).2 ⟨p, hp, _, hx, Or.inl ⟨rfl, c, rfl, hf⟩⟩⟩
      | results => exact hf.elim
      | crash => exact ⟨4, (hmem 4).2 ⟨p, hp, _, hx, Or.inr ⟨rfl, rfl⟩⟩⟩
    · rintro ⟨n, hn⟩
      obtain ⟨p, hp, x, hx, ⟨_, c, rfl, hf⟩ | ⟨_, rfl⟩⟩ := (hmem n).1 hn
      · exact ⟨p, hp, _, hx, hf⟩
      · exact ⟨p, hp, _, hx, trivial⟩
  have hwhat : (∃ n, .setExit n ∈ t) → ((t.foldl Ctx.apply .init).exitcode = 3 ∧ ∃ p ∈ ps, ∃ c, .command c ∈ p ∧ Failed halt c) ∨
      ((t.foldl Ctx.apply .init).exitcode = 4 ∧ ∃ p ∈ ps, .crash ∈ p) := by
    intro hn
    obtain ⟨p, hp, x, hx, ⟨h3, c, rfl, hf⟩ | ⟨h3, rfl⟩⟩ := (hmem _).1 (h2 hn)
    · exact Or.inl ⟨h3, p, hp, c, hx, hf⟩
    · exact Or.inr ⟨h3, p, hp, hx⟩
  refine ⟨hsome.trans ⟨fun hn => ?_, fun hne => ?_⟩, fun hne => ?_⟩
  · rcases hwhat hn with h | h <;> rw [h.1] <;> decide
  · exact Classical.byContradiction (fun hn => hne (h1 (fun n hn' => hn ⟨n, hn'⟩)))
  · exact hwhat (Classical.byContradiction (fun hn => hne (h1 (fun n hn' => hn ⟨n, hn'⟩))))

/-- C42: for any number of processes that run any commands and may crash, in any interleaving: ff exits with status 3 or 4 iff a command failed or a
process crashed; with 3 only if a command failed, with 4 only if a process crashed. -/
theorem C42_status {halt : Halt} (hh : halt ≠ .other) (mode : Mode) (fail : Bool) (ps : List (List Task)) (t : List Op) (h : Interleaving (programs halt mode ps) t) :
    (exitStatus fail (t.foldl Ctx.apply .init) = 3 ∨ exitStatus fail (t.foldl Ctx.apply .init) = 4 ↔
      (∃ p ∈ ps, ∃ c, .command c ∈ p ∧ Failed halt c) ∨ ∃ p ∈ ps, .crash ∈ p) ∧
    (exitStatus fail (t.foldl Ctx.apply .init) = 3 → ∃ p ∈ ps, ∃ c, .command c ∈ p ∧ Failed halt c) ∧
    (exitStatus fail (t.foldl Ctx.apply .init) = 4 → ∃ p ∈ ps, .crash ∈ p) := by
  obtain ⟨h1, h2⟩ := final_exitcode hh mode ps h
  have hfails : (∃ p ∈ ps, ∃ x ∈ p, x.Fails halt) ↔ (∃ p ∈ ps, ∃ c, .command c ∈ p ∧ Failed halt c) ∨ ∃ p ∈ ps, .crash ∈ p := by
    constructor
    · rintro ⟨p, hp, x, hx, hf⟩
      cases x with
      | command c => exact Or.inl ⟨p, hp, c, hx, hf⟩
      | results => exact hf.elim
      | crash => exact Or.inr ⟨p, hp, hx⟩
    · rintro (⟨p, hp, c, hx, hf⟩ | ⟨p, hp, hx⟩)
      · exact ⟨p, hp, _, hx, hf⟩
      · exact ⟨p, hp, _, hx, trivial⟩
  rw [← hfails, h1]
  by_cases h0 : (t.foldl Ctx.apply .init).exitcode = 0
  · have : exitStatus fail (t.foldl Ctx.apply .init) = 1 ∨ exitStatus fail (t.foldl Ctx.apply .init) = 0 := by
      unfold exitStatus
      rw [h0, if_neg (by decide), if_neg (by decide)]
      split <;> simp
    simp only [h0]
    rcases this with h | h <;> rw [h] <;> simp
  · rcases h2 h0 with ⟨h3, h4⟩ | ⟨h3, h4⟩
    · have : exitStatus fail (t.foldl Ctx.apply .init) = 3 := by unfold exitStatus; rw [if_pos h3]
      rw [this]
      exact ⟨⟨fun _ => h0, fun _ => Or.inl rfl⟩, fun _ => h4, fun h => absurd h (by decide)⟩
    · have : exitStatus fail (t.foldl Ctx.apply .init) = 4 := by unfold exitStatus; rw [h3, if_neg (by decide), if_pos rfl]
      rw [this]
      exact ⟨⟨fun _ => h0, fun _ => Or.inr rfl⟩, fun h => absurd h (by decide), fun _ => h4⟩

/-- The commands that are run. -/
def Task.isCommand : Task → Bool
  | .command _ => true
  | _ => false

theorem ops_counts (halt : Halt) (mode : Mode) (t : Task) :
    (t.ops halt mode).countP (fun x => x = .incFailed) + (t.ops halt mode).countP (fun x => x = .incSucceeded) = if t.isCommand then 1 else 0 := by
  cases t with
  | command c =>
    simp only [Task.ops, runExecProcess, execOps, Task.isCommand, if_true]
    split
    · by_cases h : halt = .soon ∨ halt = .now <;> simp [h, List.countP_cons]
    · simp
  | results k =>
    simp only [Task.ops, Task.isCommand]
    split
    · simp
    · split <;> simp
  | crash => simp [Task.ops, Task.isCommand]

/-- C42: in any interleaving the counts of successful and failed commands add up to the number of commands that were run. -/
theorem C42_counts (halt : Halt) (mode : Mode) (ps : List (List Task)) (t : List Op) (h : Interleaving (programs halt mode ps) t) :
    (t.foldl Ctx.apply .init).succeeded + (t.foldl Ctx.apply .init).failed = ps.flatten.countP Task.isCommand := by
  obtain ⟨h1, h2, _⟩ := foldl_counts t .init
  rw [h1, h2, h.count, h.count]
  simp only [Ctx.init, Nat.zero_add]
  have key : ∀ p : List Task, (p.map (Task.ops halt mode)).flatten.countP (fun x => x = .incSucceeded) +
      (p.map (Task.ops halt mode)).flatten.countP (fun x => x = .incFailed) = p.countP Task.isCommand := by
    intro p
    induction p with
    | nil => rfl
    | cons x p ih =>
      have := ops_counts halt mode x
      rw [List.map_cons, List.flatten_cons, List.countP_append, List.countP_append, List.countP_cons]
      omega
  unfold programs
  clear h h1 h2
  induction ps with
  | nil => rfl
  | cons p ps ih =>
    have := key p
    rw [List.map_cons, List.flatten_cons, List.countP_append, List.countP_append, List.flatten_cons, List.countP_append]
    omega

/-- C42: the count of failed commands is their number. -/
theorem C42_failed {halt : Halt} (hh : halt ≠ .other) (mode : Mode) (ps : List (List Task)) (t : List Op) (h : Interleaving (programs halt mode ps) t)
    (failed : Task → Bool) (hf : ∀ x, failed x = true ↔ ∃ c, x = .command c ∧ Failed halt c) :
    (t.foldl Ctx.apply .init).failed = ps.flatten.countP failed := by
  obtain ⟨h1, _, _⟩ := foldl_counts t .init
  rw [h1, h.count]
  simp only [Ctx.init, Nat.zero_add]
  have one : ∀ x : Task, (x.ops halt mode).countP (fun x => x = .incFailed) = if failed x then 1 else 0 := by
    intro x
    cases x with
    | command c =>
      have h0 := execExit_zero hh c
      have hc : failed (.command c) = true ↔ Failed halt c := by rw [hf]; simp
      simp only [Task.ops, runExecProcess, execOps]
      by_cases he : execExit halt c = 0
      · rw [if_neg (by simp [he]), if_neg (by rw [hc]; exact h0.1 he)]; simp
      · rw [if_pos he, if_pos (hc.2 (Classical.byContradiction (fun h => he (h0.2 h))))]
        by_cases h : halt = .soon ∨ halt = .now <;> simp [h, List.countP_cons]
    | results k =>
      have : failed (.results k) = false := by
        cases h : failed (.results k) with
        | false => rfl
        | true => obtain ⟨c, h, _⟩ := (hf _).1 h; cases h
      rw [this]
      simp only [Task.ops]
      split
      · simp
      · split <;> simp
    | crash =>
      have : failed .crash = false := by
        cases h : failed .crash with
        | false => rfl
        | true => obtain ⟨c, h, _⟩ := (hf _).1 h; cases h
      rw [this]
      simp [Task.ops]
  have key : ∀ p : List Task, (p.map (Task.ops halt mode)).flatten.countP (fun x => x = .incFailed) = p.countP failed := by
    intro p
    induction p with
    | nil => rfl
    | cons x p ih => rw [List.map_cons, List.flatten_cons, List.countP_append, List.countP_cons, one, ih]; omega
  unfold programs
  clear h h1
  induction ps with
  | nil => rfl
  | cons p ps ih => rw [List.map_cons, List.flatten_cons, List.countP_append, List.flatten_cons, List.countP_append, key, ih]

/-- With a value of `--halt` that is not documented (and not refused) successful commands count as failed. -/
theorem C42_halt_false (mode : Mode) : exitStatus false ((Task.ops .other mode (.command ⟨some 0, false⟩)).foldl Ctx.apply .init) = 3 := rfl

/-- C42: with `-X` ff exits with status 3 or 4 iff a command failed or could not be started, or a process crashed before. -/
theorem C42_batch {α : Type} (run : List (List α × Int) → List α → RunResult) (fuel : Nat) (entries : List α) (fail : Bool) (s : Ctx)
    (hs : s.exitcode = 0 ∨ s.exitcode = 4) :
    (batchStatus fail s (batchLoop run fuel [] entries []) = 3 ∨ batchStatus fail s (batchLoop run fuel [] entries []) = 4) ↔
      s.exitcode = 4 ∨ (∃ x ∈ (batchLoop run fuel [] entries []).1, x.2 ≠ 0) ∨ (batchLoop run fuel [] entries []).2 = .failed := by
  generalize batchLoop run fuel [] entries [] = r
  obtain ⟨log, fin⟩ := r
  have key : (exitStatus fail (((log.filter (fun x => x.2 ≠ 0)).map (fun _ => Op.setExit 3)).foldl Ctx.apply s) = 3 ∨
      exitStatus fail (((log.filter (fun x => x.2 ≠ 0)).map (fun _ => Op.setExit 3)).foldl Ctx.apply s) = 4) ↔
      s.exitcode = 4 ∨ ∃ x ∈ log, x.2 ≠ 0 := by
    obtain ⟨h1, h2⟩ := foldl_exitcode ((log.filter (fun x => x.2 ≠ 0)).map (fun _ => Op.setExit 3)) s (by
      intro x hx n e
      obtain ⟨_, _, rfl⟩ := List.mem_map.1 hx
      cases e; exact Or.inl rfl)
    by_cases hx : ∃ x ∈ log, x.2 ≠ 0
    · obtain ⟨x, hx1, hx2⟩ := hx
      have := h2 ⟨3, List.mem_map.2 ⟨x, List.mem_filter.2 ⟨hx1, by simpa using hx2⟩, rfl⟩⟩
      obtain ⟨_, _, h3⟩ := List.mem_map.1 this
      have h4 : ((((log.filter (fun x => x.2 ≠ 0)).map (fun _ => Op.setExit 3)).foldl Ctx.apply s)).exitcode = 3 := (Op.setExit.inj h3).symm
      unfold exitStatus
      rw [if_pos h4]
      exact ⟨fun _ => Or.inr ⟨x, hx1, hx2⟩, fun _ => Or.inl rfl⟩
    · have h4 := h1 (by
        intro n hn
        obtain ⟨x, hx1, _⟩ := List.mem_map.1 hn
        obtain ⟨hx2, hx3⟩ := List.mem_filter.1 hx1
        exact hx ⟨x, hx2, by simpa using hx3⟩)
      unfold exitStatus
      rw [h4]
      rcases hs with h0 | h0
      · rw [h0, if_neg (by decide), if_neg (by decide)]
        constructor
        · intro h; split at h <;> simp at h
        · rintro (h | h)
          · simp at h
          · exact absurd h hx
      · rw [h0]; simp
  cases fin with
  | failed => simp [batchStatus]
  | done => simpa [batchStatus] using key
  | fuel => simpa [batchStatus] using key

/-- The hypotheses of C42 hold for two processes, one of them running two commands, the second one failing, the other one crashing; their
operations are interleaved. -/
example : Interleaving (programs .soon .exec [[.command ⟨some 0, false⟩, .command ⟨some 2, false⟩], [.results 3, .crash]])
    [.setResult, .incSucceeded, .setExit 4, .setExit 3, .stop, .incFailed, .stop] :=
  .step (a := [_]) (.step (a := []) (.step (a := [_]) (.step (a := []) (.step (a := [_]) (.step (a := []) (.step (a := []) (.done (by simp))))))))

/-! ### C43 -/

theorem run_stopping {halt : Halt} (hh : halt ≠ .other) (s : Ctx) (c : Command) :
    ((runExecProcess halt c).foldl Ctx.apply s).stopping = true ↔ s.stopping = true ∨ (Failed halt c ∧ (halt = .soon ∨ halt = .now)) := by
  obtain ⟨_, _, _, h⟩ := foldl_counts (runExecProcess halt c) s
  rw [h, Bool.or_eq_true]
  have h0 := execExit_zero hh c
  unfold runExecProcess execOps
  by_cases he : execExit halt c = 0
  · rw [if_neg (by simp [he])]
    simp [h0.1 he]
  · have hf : Failed halt c := Classical.byContradiction (fun h => he (h0.2 h))
    rw [if_pos he]
    by_cases h1 : halt = .soon ∨ halt = .now <;> simp [h1, hf]

/-- C43: with one job and `--halt soon` or `--halt now` the commands are run up to and including the first one that fails. -/
theorem C43_halt {halt : Halt} (hh : halt = .soon ∨ halt = .now) (cs : List Command) (s : Ctx) (hs : s.stopping = false) :
    UpToFailure halt cs (jobLoop halt s cs).2 := by
  have ho : halt ≠ .other := by rcases hh with h | h <;> rw [h] <;> decide
  induction cs generalizing s with
  | nil => exact .none (by simp)
  | cons c cs ih =>
    rw [jobLoop, hs]
    simp only [Bool.false_eq_true, if_false]
    have hstop := run_stopping ho s c
    by_cases hf : Failed halt c
    · have : ((runExecProcess halt c).foldl Ctx.apply s).stopping = true := hstop.2 (Or.inr ⟨hf, hh⟩)
      have hnil : (jobLoop halt ((runExecProcess halt c).foldl Ctx.apply s) cs).2 = [] := by
        cases cs with
        | nil => rfl
        | cons d ds => rw [jobLoop, if_pos this]
      rw [hnil]
      exact .some (before := []) (by simp) hf
    · have : ((runExecProcess halt c).foldl Ctx.apply s).stopping = false := by
        cases h : ((runExecProcess halt c).foldl Ctx.apply s).stopping with
        | false => rfl
        | true => rcases hstop.1 h with h' | h'
                  · rw [hs] at h'; simp at h'
                  · exact absurd h'.1 hf
      have ih := ih _ this
      generalize (jobLoop halt ((runExecProcess halt c).foldl Ctx.apply s) cs).2 = r at ih ⊢
      cases ih with
      | none h => exact .none (by intro x hx; rcases List.mem_cons.1 hx with rfl | hx; exact hf; exact h x hx)
      | @some before after d h1 h2 =>
        exact .some (before := c :: before) (by intro x hx; rcases List.mem_cons.1 hx with rfl | hx; exact hf; exact h1 x hx) h2

/-- C43: with `--halt never` all commands are run. -/
theorem C43_never (cs : List Command) (s : Ctx) (hs : s.stopping = false) : (jobLoop .never s cs).2 = cs := by
  induction cs generalizing s with
  | nil => rfl
  | cons c cs ih =>
    rw [jobLoop, hs]
    simp only [Bool.false_eq_true, if_false]
    rw [ih]
    cases h : ((runExecProcess .never c).foldl Ctx.apply s).stopping with
    | false => rfl
    | true => rcases (run_stopping (by decide) s c).1 h with h' | h'
              · rw [hs] at h'; simp at h'
              · simp at h'

theorem workerLoop_spec {halt : Halt} (ho : halt ≠ .other) : ∀ fuel s q, s.stopping = false →
    ∀ s' cs q', workerLoop halt fuel s q = (s', cs, q') →
      (s'.stopping = false ∧ ((halt = .soon ∨ halt = .now) → ∀ c ∈ cs, ¬ Failed halt c)) ∨
      ((halt = .soon ∨ halt = .now) ∧ ∃ before c, cs = before ++ [c] ∧ (∀ x ∈ before, ¬ Failed halt x) ∧ Failed halt c) := by
  intro fuel
  induction fuel with
  | zero => intro s q hs s' cs q' h; simp only [workerLoop, Prod.mk.injEq] at h; left; rw [← h.1, ← h.2.1]; exact ⟨hs, by simp⟩
  | succ fuel ih =>
    intro s q hs s' cs q' h
    rw [workerLoop.eq_def] at h
    simp only [hs, Bool.false_eq_true, if_false] at h
    match q with
    | [] => simp only [Prod.mk.injEq] at h; left; rw [← h.1, ← h.2.1]; exact ⟨hs, by simp⟩
    | .search next :: q => exact ih _ _ hs _ _ _ h
    | .command c :: q =>
      simp only [Prod.mk.injEq] at h
      obtain ⟨h1, h2, h3⟩ := h
      have hstop := run_stopping ho s c
      by_cases hx : Failed halt c ∧ (halt = .soon ∨ halt = .now)
      · have : ((runExecProcess halt c).foldl Ctx.apply s).stopping = true := hstop.2 (Or.inr hx)
        have hnil : (workerLoop halt fuel ((runExecProcess halt c).foldl Ctx.apply s) q).2.1 = [] := by
          cases fuel with
          | zero => rfl
          | succ n => rw [workerLoop.eq_def]; simp only [this, if_true]
        right
        refine ⟨hx.2, [], c, ?_, by simp, hx.1⟩
        rw [← h2, hnil]; rfl
      · have : ((runExecProcess halt c).foldl Ctx.apply s).stopping = false := by
          cases h : ((runExecProcess halt c).foldl Ctx.apply s).stopping with
          | false => rfl
          | true => rcases hstop.1 h with h' | h'
                    · rw [hs] at h'; simp at h'
                    · exact absurd h' hx
        rcases ih _ q this _ _ _ rfl with ⟨h4, h5⟩ | ⟨h4, before, d, h5, h6, h7⟩
        · left
          rw [← h1, ← h2]
          refine ⟨h4, fun hh x hx' => ?_⟩
          rcases List.mem_cons.1 hx' with rfl | hx'
          · exact fun hf => hx ⟨hf, hh⟩
          · exact h5 hh x hx'
        · right
          refine ⟨h4, c :: before, d, by rw [← h2, h5]; rfl, ?_, h7⟩
          intro x hx'
          rcases List.mem_cons.1 hx' with rfl | hx'
          · exact fun hf => hx ⟨hf, h4⟩
          · exact h6 x hx'

/-- C43: the same while searching: with one job and `--halt soon` or `--halt now` no command is run after one that failed. -/
theorem C43_search {halt : Halt} (hh : halt = .soon ∨ halt = .now) (fuel : Nat) (q : List QItem) (before after : List Command) (c : Command)
    (h : (workerLoop halt fuel .init q).2.1 = before ++ c :: after) (hf : Failed halt c) : after = [] := by
  have ho : halt ≠ .other := by rcases hh with h | h <;> rw [h] <;> decide
  rcases workerLoop_spec ho fuel .init q rfl _ _ _ rfl with ⟨_, h1⟩ | ⟨_, b, d, h1, h2, _⟩
  · exact absurd hf (h1 hh c (by rw [h]; simp))
  · rw [h1] at h
    cases hl : after.reverse with
    | nil => simpa using hl
    | cons x xs =>
      exfalso
      have ha : after = xs.reverse ++ [x] := by rw [← List.reverse_reverse after, hl]; simp
      rw [ha] at h
      have h3 : b ++ [d] = (before ++ c :: xs.reverse) ++ [x] := by rw [h]; simp
      have h4 := (List.append_inj' h3 rfl).1
      exact h2 c (by rw [h4]; simp) hf

mutual
/-- The number of elements that come out of the queue. -/
def QItem.size : QItem → Nat
  | .command _ => 1
  | .search next => 1 + QItem.sizes next
/-- The number of elements that come out of the queue, for a list. -/
def QItem.sizes : List QItem → Nat
  | [] => 0
  | x :: xs => x.size + QItem.sizes xs
end

mutual
/-- All commands that an element of the queue leads to. -/
def QItem.commands : QItem → List Command
  | .command c => [c]
  | .search next => QItem.allCommands next
/-- All commands that the elements of a queue lead to. -/
def QItem.allCommands : List QItem → List Command
  | [] => []
  | x :: xs => x.commands ++ QItem.allCommands xs
end

theorem QItem.sizes_append (a b : List QItem) : QItem.sizes (a ++ b) = QItem.sizes a + QItem.sizes b := by
  induction a with
  | nil => simp [QItem.sizes]
  | cons x xs ih => simp only [List.cons_append, QItem.sizes, ih]; omega

theorem QItem.allCommands_append (a b : List QItem) : QItem.allCommands (a ++ b) = QItem.allCommands a ++ QItem.allCommands b := by
  induction a with
  | nil => simp [QItem.allCommands]
  | cons x xs ih => simp only [List.cons_append, QItem.allCommands, ih, List.append_assoc]

theorem workerLoop_perm (halt : Halt) : ∀ fuel s q, ((workerLoop halt fuel s q).2.1 ++ QItem.allCommands (workerLoop halt fuel s q).2.2).Perm (QItem.allCommands q) := by
  intro fuel
  induction fuel with
  | zero => intro s q; exact List.Perm.refl _
  | succ fuel ih =>
    intro s q
    rw [workerLoop.eq_def]
    cases hs : s.stopping with
    | true => simp only [hs, if_true]; exact List.Perm.refl _
    | false =>
      simp only [hs, Bool.false_eq_true, if_false]
      match q with
      | [] => exact List.Perm.refl _
      | .search next :: q =>
        refine (ih s (q ++ next)).trans ?_
        rw [QItem.allCommands_append]
        simp only [QItem.allCommands, QItem.commands]
        exact List.perm_append_comm
      | .command c :: q =>
        have := ih ((runExecProcess halt c).foldl Ctx.apply s) q
        simp only [QItem.allCommands, QItem.commands, List.cons_append, List.nil_append]
        exact List.Perm.cons c this

theorem workerLoop_empty (halt : Halt) : ∀ fuel s q, QItem.sizes q < fuel → (workerLoop halt fuel s q).1.stopping = true ∨ (workerLoop halt fuel s q).2.2 = [] := by
  intro fuel
  induction fuel with
  | zero => intro s q h; omega
  | succ fuel ih =>
    intro s q hq
    rw [workerLoop.eq_def]
    cases hs : s.stopping with
    | true => simp only [hs, if_true]; exact Or.inl trivial
    | false =>
      simp only [hs, Bool.false_eq_true, if_false]
      match q with
      | [] => exact Or.inr rfl
      | .search next :: q =>
        apply ih
        rw [QItem.sizes_append]
        simp only [QItem.sizes, QItem.size] at hq
        omega
      | .command c :: q =>
        apply ih
        simp only [QItem.sizes, QItem.size] at hq
        omega

theorem workerLoop_running {P : Command → Prop} (halt : Halt) (hok : ∀ s c, s.stopping = false → P c → ((runExecProcess halt c).foldl Ctx.apply s).stopping = false) :
    ∀ fuel s q, s.stopping = false → (∀ c ∈ QItem.allCommands q, P c) → (workerLoop halt fuel s q).1.stopping = false := by
  intro fuel
  induction fuel with
  | zero => intro s q hs _; exact hs
  | succ fuel ih =>
    intro s q hs hq
    rw [workerLoop.eq_def]
    simp only [hs, Bool.false_eq_true, if_false]
    match q with
    | [] => exact hs
    | .search next :: q =>
      apply ih _ _ hs
      intro c hc
      rw [QItem.allCommands_append] at hc
      simp only [QItem.allCommands, QItem.commands] at hq
      exact hq c (by simpa [or_comm] using hc)
    | .command c :: q =>
      simp only [QItem.allCommands, QItem.commands] at hq
      exact ih _ _ (hok s c hs (hq c (by simp))) (fun d hd => hq d (by simp [hd]))

/-- C43: the same while searching: with `--halt never`, or if no command fails, all commands are run, each once. -/
theorem C43_search_all {halt : Halt} (hh : halt ≠ .other) (fuel : Nat) (q : List QItem) (hq : QItem.sizes q < fuel)
    (h : halt = .never ∨ ∀ c ∈ QItem.allCommands q, ¬ Failed halt c) :
    (workerLoop halt fuel .init q).2.1.Perm (QItem.allCommands q) := by
  have hrun : (workerLoop halt fuel .init q).1.stopping = false := by
    apply workerLoop_running (P := fun c => halt = .never ∨ ¬ Failed halt c) halt _ fuel _ q rfl
    · intro c hc
      rcases h with h | h
      · exact Or.inl h
      · exact Or.inr (h c hc)
    · intro s c hs hc
      cases hx : ((runExecProcess halt c).foldl Ctx.apply s).stopping with
      | false => rfl
      | true =>
        rcases (run_stopping hh s c).1 hx with h' | ⟨h1, h2⟩
        · rw [hs] at h'; simp at h'
        · rcases hc with hc | hc
          · rw [hc] at h2; simp at h2
          · exact absurd h1 hc
  have hp := workerLoop_perm halt fuel .init q
  rcases workerLoop_empty halt fuel .init q hq with h1 | h1
  · rw [hrun] at h1; simp at h1
  · rw [h1] at hp
    simpa [QItem.allCommands] using hp

theorem UpToFailure.cons {halt : Halt} {c : Command} (hc : ¬ Failed halt c) {all run : List Command} (h : UpToFailure halt all run) :
    UpToFailure halt (c :: all) (c :: run) := by
  cases h with
  | none h => exact .none (by intro x hx; rcases List.mem_cons.1 hx with rfl | hx; exact hc; exact h x hx)
  | @some before after d h1 h2 =>
    exact .some (before := c :: before) (by intro x hx; rcases List.mem_cons.1 hx with rfl | hx; exact hc; exact h1 x hx) h2

theorem workerLoop_upTo {halt : Halt} (hh : halt = .soon ∨ halt = .now) : ∀ fuel s s' q, s.stopping = false → s'.stopping = false →
    UpToFailure halt (workerLoop .never fuel s' q).2.1 (workerLoop halt fuel s q).2.1 := by
  have ho : halt ≠ .other := by rcases hh with h | h <;> rw [h] <;> decide
  intro fuel
  induction fuel with
  | zero => intro s s' q _ _; exact .none (by simp [workerLoop])
  | succ fuel ih =>
    intro s s' q hs hs'
    rw [workerLoop.eq_def .never, workerLoop.eq_def halt]
    simp only [hs, hs', Bool.false_eq_true, if_false]
    match q with
    | [] => exact .none (by simp)
    | .search next :: q => exact ih s s' (q ++ next) hs hs'
    | .command c :: q =>
      have hn : ((runExecProcess .never c).foldl Ctx.apply s').stopping = false := by
        cases h : ((runExecProcess .never c).foldl Ctx.apply s').stopping with
        | false => rfl
        | true => rcases (run_stopping (by decide) s' c).1 h with h' | h'
                  · rw [hs'] at h'; simp at h'
                  · simp at h'
      have hstop := run_stopping ho s c
      by_cases hf : Failed halt c
      · have : ((runExecProcess halt c).foldl Ctx.apply s).stopping = true := hstop.2 (Or.inr ⟨hf, hh⟩)
        have hnil : (workerLoop halt fuel ((runExecProcess halt c).foldl Ctx.apply s) q).2.1 = [] := by
          cases fuel with
          | zero => rfl
          | succ n => rw [workerLoop.eq_def]; simp only [this, if_true]
        simp only [hnil]
        exact .some (before := []) (by simp) hf
      · have : ((runExecProcess halt c).foldl Ctx.apply s).stopping = false := by
          cases h : ((runExecProcess halt c).foldl Ctx.apply s).stopping with
          | false => rfl
          | true => rcases hstop.1 h with h' | h'
                    · rw [hs] at h'; simp at h'
                    · exact absurd h'.1 hf
        exact UpToFailure.cons hf (ih _ _ q this hn)

/-- C43: the same while searching: the commands that are run are those of `--halt never`, up to and including the first one that fails. -/
theorem C43_search_upTo {halt : Halt} (hh : halt = .soon ∨ halt = .now) (fuel : Nat) (q : List QItem) :
    UpToFailure halt (workerLoop .never fuel .init q).2.1 (workerLoop halt fuel .init q).2.1 := workerLoop_upTo hh fuel _ _ q rfl rfl

/-- The hypotheses of C43 hold while searching: a directory gives two commands and a directory with another one. -/
example : (workerLoop .soon 10 .init [.search [.command ⟨some 0, false⟩, .search [.command ⟨some 7, false⟩], .command ⟨some 1, false⟩]]).2.1 =
      [⟨some 0, false⟩, ⟨some 1, false⟩] ∧
    (workerLoop .never 10 .init [.search [.command ⟨some 0, false⟩, .search [.command ⟨some 7, false⟩], .command ⟨some 1, false⟩]]).2.1 =
      [⟨some 0, false⟩, ⟨some 1, false⟩, ⟨some 7, false⟩] ∧
    QItem.sizes [.search [.command ⟨some 0, false⟩, .search [.command ⟨some 7, false⟩], .command ⟨some 1, false⟩]] < 10 := by
  refine ⟨by decide, by decide, by decide⟩

/-- The hypotheses of C43 hold for three commands, the second one failing. -/
example : (jobLoop .soon .init [⟨some 0, false⟩, ⟨some 1, false⟩, ⟨some 0, false⟩]).2 = [⟨some 0, false⟩, ⟨some 1, false⟩] ∧
    (jobLoop .never .init [⟨some 0, false⟩, ⟨some 1, false⟩, ⟨some 0, false⟩]).2.length = 3 ∧ Failed .soon ⟨some 1, false⟩ := by
  refine ⟨by decide, by decide, Or.inl (by decide)⟩

/-! ### C44 -/

theorem fail_status {halt : Halt} (hh : halt ≠ .other) (mode : Mode) (fail : Bool) (ps : List (List Task)) (t : List Op) (h : Interleaving (programs halt mode ps) t)
    (hok : ∀ p ∈ ps, ∀ x ∈ p, ¬ x.Fails halt) (n : Nat) (hn : mode.collective = true → (n = 0 ↔ ∀ p ∈ ps, ∀ k, .results k ∈ p → k = 0)) :
    (exitStatus fail ((t ++ finalizeOps mode n).foldl Ctx.apply .init) = 1 ↔ fail = true ∧ ∀ p ∈ ps, ∀ k, .results k ∈ p → k = 0) ∧
    (exitStatus fail ((t ++ finalizeOps mode n).foldl Ctx.apply .init) = 1 ∨ exitStatus fail ((t ++ finalizeOps mode n).foldl Ctx.apply .init) = 0) := by
  obtain ⟨h1, _⟩ := final_exitcode hh mode ps h
  have h0 : (t.foldl Ctx.apply .init).exitcode = 0 :=
    Classical.byContradiction (fun hne => by
      obtain ⟨p, hp, x, hx, hf⟩ := h1.2 hne
      exact hok p hp x hx hf)
  have hres : .setResult ∈ t ↔ mode.collective = false ∧ ∃ p ∈ ps, ∃ k, .results k ∈ p ∧ k ≠ 0 := by
    rw [h.mem, mem_programs]
    constructor
    · rintro ⟨p, hp, x, hx, hm⟩
      cases x with
      | command c =>
        exfalso
        simp only [Task.ops, runExecProcess, execOps] at hm
        split at hm
        · by_cases h : halt = .soon ∨ halt = .now <;> simp [h] at hm
        · simp at hm
      | results k =>
        simp only [Task.ops] at hm
        cases hc : mode.collective with
        | true => rw [hc] at hm; simp at hm
        | false =>
          rw [hc] at hm
          by_cases hk : k = 0
          · rw [hk] at hm; simp at hm
          · exact ⟨rfl, p, hp, k, hx, hk⟩
      | crash => simp [Task.ops] at hm
    · rintro ⟨hc, p, hp, k, hx, hk⟩
      exact ⟨p, hp, _, hx, by simp [Task.ops, hc, hk]⟩
  have hfin : (finalizeOps mode n).foldl Ctx.apply (t.foldl Ctx.apply .init) =
      { t.foldl Ctx.apply .init with hasResult := (t.foldl Ctx.apply .init).hasResult || (mode.collective && decide (n ≠ 0)) } := by
    unfold finalizeOps
    by_cases hx : (mode.collective && decide (n ≠ 0)) = true
    · rw [if_pos hx, hx]; simp [Ctx.apply]
    · rw [if_neg hx]
      have : (mode.collective && decide (n ≠ 0)) = false := by simpa using hx
      rw [this]; simp
  have hr : (t.foldl Ctx.apply .init).hasResult = t.any (fun x => x = .setResult) := by
    rw [(foldl_counts t .init).2.2.1]; rfl
  have hany : t.any (fun x => x = .setResult) = true ↔ .setResult ∈ t := by simp
  have hsome : ((t.foldl Ctx.apply .init).hasResult || (mode.collective && decide (n ≠ 0))) = true ↔ ¬ ∀ p ∈ ps, ∀ k, .results k ∈ p → k = 0 := by
    rw [hr, Bool.or_eq_true, hany, hres]
    cases hc : mode.collective with
    | true => rw [← hn hc]; simp
    | false =>
      simp only [Bool.false_and, Bool.false_eq_true, or_false, true_and]
      constructor
      · rintro ⟨p, hp, k, hk, hk0⟩ hall
        exact hk0 (hall p hp k hk)
      · intro hall
        apply Classical.byContradiction
        intro hx
        apply hall
        intro p hp k hk
        exact Classical.byContradiction (fun hk0 => hx ⟨p, hp, k, hk, hk0⟩)
  rw [List.foldl_append, hfin]
  unfold exitStatus
  simp only [h0]
  rw [if_neg (by decide), if_neg (by decide)]
  generalize ((t.foldl Ctx.apply .init).hasResult || (mode.collective && decide (n ≠ 0))) = r at hsome ⊢
  cases r with
  | true =>
    have := hsome.1 rfl
    simp [this]
  | false =>
    have : ∀ p ∈ ps, ∀ k, .results k ∈ p → k = 0 := Classical.byContradiction (fun h => by simpa using hsome.2 h)
    cases fail
    · simp
    · simp only [Bool.not_false, Bool.and_self, if_true, true_and, true_or, and_true, true_iff]; exact this

/-- C44: without options that need all results, for any number of processes that hand over any numbers of results, and in any interleaving: if nothing
failed, the exit status is 1 iff `--fail` is given and there are no results; otherwise it is 0. -/
theorem C44_immediate {halt : Halt} (hh : halt ≠ .other) (mode : Mode) (hm : mode.collective = false) (fail : Bool) (ps : List (List Task)) (t : List Op)
    (h : Interleaving (programs halt mode ps) t) (hok : ∀ p ∈ ps, ∀ x ∈ p, ¬ x.Fails halt) :
    (exitStatus fail (t.foldl Ctx.apply .init) = 1 ↔ fail = true ∧ ∀ p ∈ ps, ∀ k, .results k ∈ p → k = 0) ∧
    (exitStatus fail (t.foldl Ctx.apply .init) = 1 ∨ exitStatus fail (t.foldl Ctx.apply .init) = 0) := by
  have := fail_status hh mode fail ps t h hok 0 (fun h => by rw [hm] at h; simp at h)
  have e : finalizeOps mode 0 = [] := by simp [finalizeOps]
  rwa [e, List.append_nil] at this

/-- C44 for the other options: `n` is the number of results that the main process has collected. What is missing: `hn` says that it has got a result if
there is one; the main process may stop collecting too early, see `C11_false`. -/
theorem C44_collective_partial {halt : Halt} (hh : halt ≠ .other) (mode : Mode) (fail : Bool) (ps : List (List Task)) (t : List Op) (h : Interleaving (programs halt mode ps) t)
    (hok : ∀ p ∈ ps, ∀ x ∈ p, ¬ x.Fails halt) (n : Nat) (hn : mode.collective = true → (n = 0 ↔ ∀ p ∈ ps, ∀ k, .results k ∈ p → k = 0)) :
    (exitStatus fail ((t ++ finalizeOps mode n).foldl Ctx.apply .init) = 1 ↔ fail = true ∧ ∀ p ∈ ps, ∀ k, .results k ∈ p → k = 0) ∧
    (exitStatus fail ((t ++ finalizeOps mode n).foldl Ctx.apply .init) = 1 ∨ exitStatus fail ((t ++ finalizeOps mode n).foldl Ctx.apply .init) = 0) :=
  fail_status hh mode fail ps t h hok n hn

/-- C44 covers all combinations of options: each gives one of the modes, and results are collected for those options that need all of them. -/
theorem C44_modes (sort count limit execBatch json exec : Bool) :
    ((setupProcessing sort count limit execBatch json exec).collective = true ↔ sort = true ∨ count = true ∨ limit = true ∨ execBatch = true ∨ json = true) ∧
    (setupProcessing sort count limit execBatch json exec = .exec ∨ setupProcessing sort count limit execBatch json exec = .collectiveExec ↔
      exec = true ∨ execBatch = true) := by
  cases sort <;> cases count <;> cases limit <;> cases execBatch <;> cases json <;> cases exec <;> decide

/-- The hypotheses of C44 hold for two processes, one of which hands over two results. -/
example : Interleaving (programs .never .console [[.results 0], [.results 2]]) [.setResult] ∧
    (∀ p ∈ [[Task.results 0], [Task.results 2]], ∀ x ∈ p, ¬ x.Fails .never) ∧
    exitStatus true ([Op.setResult].foldl Ctx.apply .init) = 0 :=
  ⟨.step (a := [_]) (.done (by simp [Task.ops, Mode.collective])), by simp [Task.Fails], rfl⟩

end FF
