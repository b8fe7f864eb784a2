import Verif.Spec.OptionOrder
import Verif.Props.Main
/-! C124: the order of the options. -/
namespace FF
open Spec

/-- What an element does to the value of its setting. -/
def effect (m : Int) (x : NVal) : CItem → Except ArgErr NVal
  | .flag o => .ok (flagVal o)
  | .arg o v => if o.action = .append then .ok (.strs ((match x with | .strs l => l | _ => []) ++ [v])) else o.type.conv m v
  | .bare o => o.type.conv m (match o.action with | .storeOptional c => c | _ => [])
  | .rest _ ws => .ok (.strs ((match x with | .strs l => l | _ => []) ++ ws))
  | .words ws => if x.truthy then .error .usage else .ok (.strs ((match x with | .strs l => l | _ => []) ++ ws))

theorem meaning_effect (args : ArgOpt) (m : Int) (ns ns' : NS) (i : CItem) :
    meaning args m ns i = .ok ns' ↔ effect m (ns (i.dest args)) i = .ok (ns' (i.dest args)) ∧ ∀ k, k ≠ i.dest args → ns' k = ns k := by
  have key : ∀ (d : Str) (x : NVal), stored ns d x = ns' ↔ x = ns' d ∧ ∀ k, k ≠ d → ns' k = ns k := by
    intro d x
    constructor
    · rintro rfl
      exact ⟨by simp [stored], fun k hk => by simp [stored, hk]⟩
    · rintro ⟨h1, h2⟩
      funext k
      by_cases hk : k = d
      · subst hk; simp [stored, h1]
      · simp [stored, hk, h2 k hk]
  have push : ∀ (d : Str) (ws : List Str), pushed ns d ws = stored ns d (.strs ((match ns d with | .strs l => l | _ => []) ++ ws)) := fun d ws => rfl
  cases i with
  | flag o => simp only [meaning, effect, CItem.dest, Except.ok.injEq, key]
  | arg o v =>
    simp only [meaning, effect, CItem.dest]
    split
    · simp only [push, Except.ok.injEq, key]
    · cases o.type.conv m v with
      | error e => simp
      | ok x => simp only [Except.ok.injEq, key]
  | bare o =>
    simp only [meaning, effect, CItem.dest]
    cases o.type.conv m (match o.action with | .storeOptional c => c | _ => []) with
    | error e => simp
    | ok x => simp only [Except.ok.injEq, key]
  | rest o ws => simp only [meaning, effect, CItem.dest, push, Except.ok.injEq, key]
  | words ws =>
    have hd : (CItem.words ws).dest args = args.dest := rfl
    rw [hd]
    simp only [meaning, effect]
    by_cases ht : (ns args.dest).truthy = true
    · simp [ht]
    · rw [if_neg ht, if_neg ht]
      simp only [push, Except.ok.injEq, key]

/-- The effects of several elements about the same setting. -/
def effects (m : Int) : NVal → List CItem → Except ArgErr NVal
  | x, [] => .ok x
  | x, i :: is => match effect m x i with
    | .error e => .error e
    | .ok y => effects m y is

theorem meanings_effects (args : ArgOpt) (m : Int) (items : List CItem) : ∀ (ns ns' : NS),
    meanings args m ns items = .ok ns' ↔ ∀ k, effects m (ns k) (about args k items) = .ok (ns' k) := by
  induction items with
  | nil =>
    intro ns ns'
    simp only [meanings, about, List.filter_nil, effects, Except.ok.injEq]
    exact ⟨fun h k => by rw [h], fun h => funext h⟩
  | cons i is ih =>
    intro ns ns'
    have hcons : ∀ k, about args k (i :: is) = if i.dest args = k then i :: about args k is else about args k is := by
      intro k
      unfold about
      by_cases h : i.dest args = k <;> simp [h]
    simp only [meanings]
    cases hm : meaning args m ns i with
    | error e =>
      have : ∀ y, effect m (ns (i.dest args)) i ≠ .ok y := by
        intro y hy
        have := (meaning_effect args m ns (stored ns (i.dest args) y) i).2 ⟨by simpa [stored] using hy, fun k hk => by simp [stored, hk]⟩
        rw [hm] at this; cases this
      constructor
      · intro h; cases h
      · intro h
        have h1 := h (i.dest args)
        rw [hcons, if_pos rfl] at h1
        simp only [effects] at h1
        cases he : effect m (ns (i.dest args)) i with
        | error e => rw [he] at h1; cases h1
        | ok y => exact absurd he (this y)
    | ok ns1 =>
      obtain ⟨h1, h2⟩ := (meaning_effect args m ns ns1 i).1 hm
      rw [ih]
      constructor
      · intro h k
        rw [hcons]
        by_cases hk : i.dest args = k
        · subst hk; simp only [if_true, effects, h1]; exact h _
        · rw [if_neg hk, ← h2 k (fun e => hk e.symm)]; exact h k
      · intro h k
        have h3 := h k
        rw [hcons] at h3
        by_cases hk : i.dest args = k
        · subst hk; simpa only [if_true, effects, h1] using h3
        · rw [if_neg hk, ← h2 k (fun e => hk e.symm)] at h3; exact h3

/-- C124: two command lines that say the same in a different order, in any spelling, are both refused or mean the same, as long as elements about the same
setting (for example `-o` and `-v`, or two `-e`) stay in order. What is missing: options of which the argument is left out must not come to stand before a test, and the
tests and directories must stay together, see `C124_false`. -/
theorem C124_order_partial (env : ArgEnv) {args : ArgOpt} (ht : Table (ffOptions env) args) {items items' : List CItem} {ws ws' : List Str}
    (h : Spells (ffOptions env) items ws) (h' : Spells (ffOptions env) items' ws') (hr : Rearranged args items items') (ns : NS) :
    parseArgs (ffOptions env) env.maxCpu ws = .ok ns ↔ parseArgs (ffOptions env) env.maxCpu ws' = .ok ns := by
  unfold parseArgs
  rw [C52_spellings_partial ht _ h, C52_spellings_partial ht _ h', meanings_effects, meanings_effects]
  simp only [hr _]

theorem effects_append (m : Int) (a b : List CItem) : ∀ x, effects m x (a ++ b) = match effects m x a with | .error e => .error e | .ok y => effects m y b := by
  induction a with
  | nil => intro x; rfl
  | cons i a ih =>
    intro x
    simp only [List.cons_append, effects]
    cases effect m x i with
    | error e => rfl
    | ok y => exact ih y

/-- C124: of several options about the same setting the last one counts, unless they collect. -/
theorem C124_last (env : ArgEnv) {args : ArgOpt} (ht : Table (ffOptions env) args) {a b : List CItem} {i : CItem} {ws : List Str} {ns : NS}
    (h : Spells (ffOptions env) (a ++ i :: b) ws) (hok : parseArgs (ffOptions env) env.maxCpu ws = .ok ns)
    (hb : ∀ j ∈ b, j.dest args ≠ i.dest args) {x : NVal} (hx : i.Gives env.maxCpu x) : ns (i.dest args) = x := by
  unfold parseArgs at hok
  rw [C52_spellings_partial ht _ h, meanings_effects] at hok
  have h1 := hok (i.dest args)
  have h2 : about args (i.dest args) (a ++ i :: b) = about args (i.dest args) a ++ [i] := by
    unfold about
    rw [List.filter_append, List.filter_cons]
    simp only [decide_true, if_true]
    have : b.filter (fun j => decide (j.dest args = i.dest args)) = [] := List.filter_eq_nil_iff.2 (fun j hj => by simpa using hb j hj)
    rw [this]
  rw [h2, effects_append] at h1
  revert h1
  cases effects env.maxCpu (initNS (ffOptions env) (i.dest args)) (about args (i.dest args) a) with
  | error e => intro h1; cases h1
  | ok y =>
    have h3 : effect env.maxCpu y i = .ok x := by
      cases i with
      | flag o => exact congrArg _ hx.symm
      | arg o v => simp only [effect, if_neg hx.1, hx.2]
      | bare o => obtain ⟨c, hc, hv⟩ := hx; simp only [effect, hc, hv]
      | rest o ws => exact hx.elim
      | words ws => exact hx.elim
    simp only [effects, h3, Except.ok.injEq]
    intro h1; exact h1.symm

theorem effects_collected (env : ArgEnv) {args : ArgOpt} (ht : Table (ffOptions env) args) {k : Str} (hk' : k ∈ addingUp) : ∀ (is : List CItem) (l : List Str),
    (∀ i ∈ is, ItemOk (ffOptions env) i) → effects env.maxCpu (.strs l) (about args k is) = .ok (.strs (l ++ collected k is)) := by
  intro is
  induction is with
  | nil => intro l _; simp [about, collected, effects]
  | cons i is ih =>
    intro l hi
    have ih' := fun l => ih l (fun j hj => hi j (by simp [hj]))
    have skip : i.dest args ≠ k → collected k (i :: is) = collected k is → effects env.maxCpu (.strs l) (about args k (i :: is)) = .ok (.strs (l ++ collected k (i :: is))) := by
      intro h1 h2
      have : about args k (i :: is) = about args k is := by unfold about; simp [h1]
      rw [this, h2]; exact ih' l
    cases hi i (by simp) with
    | @flag o ho hf =>
      refine skip (fun e => ?_) rfl
      have := (opt_append env ho).2 (by rw [show o.dest = k from e]; exact hk')
      rcases hf with h | ⟨c, h⟩ <;> rw [h] at this <;> cases this
    | @arg o v ho ha =>
      by_cases he : o.dest = k
      · have hap := (opt_append env ho).2 (by rw [he]; exact hk')
        have h2 : about args k (.arg o v :: is) = .arg o v :: about args k is := by unfold about; simp [CItem.dest, he]
        have h3 : collected k (.arg o v :: is) = v :: collected k is := by simp [collected, he]
        rw [h2, h3]
        simp only [effects, effect, if_pos hap, ih', List.append_assoc, List.singleton_append]
      · exact skip he (by simp [collected, he])
    | @bare o ho ha =>
      refine skip (fun e => ?_) rfl
      have := (opt_append env ho).2 (by rw [show o.dest = k from e]; exact hk')
      obtain ⟨c, h⟩ := ha; rw [h] at this; cases this
    | @rest o ws ho ha _ =>
      refine skip (fun e => ?_) rfl
      have := (opt_append env ho).2 (by rw [show o.dest = k from e]; exact hk')
      rw [ha] at this; cases this
    | words _ =>
      refine skip (fun e => ?_) rfl
      have := (opt_append env ht.args_mem.1).2 (by rw [show args.dest = k from e]; exact hk')
      rw [ht.args_mem.2] at this; cases this

/-- C124: exclude tests and directories are collected from all `-e` and `-D`, in order. -/
theorem C124_collected (env : ArgEnv) {args : ArgOpt} (ht : Table (ffOptions env) args) {items : List CItem} {ws : List Str} {ns : NS}
    (h : Spells (ffOptions env) items ws) (hok : parseArgs (ffOptions env) env.maxCpu ws = .ok ns) {k : Str}
    (hk : k ∈ ["exclude".toList, "directories".toList]) : ns k = .strs (collected k items) := by
  have hk' : k ∈ addingUp := by
    simp only [List.mem_cons, List.not_mem_nil, or_false] at hk
    rcases hk with rfl | rfl <;> decide
  unfold parseArgs at hok
  rw [C52_spellings_partial ht _ h, meanings_effects] at hok
  have h1 := hok k
  rw [init_lists env k hk'] at h1
  rw [effects_collected env ht hk' items [] (spells_items h)] at h1
  exact (Except.ok.inj h1).symm

set_option maxRecDepth 20000 in
/-- C124 fails for options with an optional argument before a test, which becomes their argument, and for options between tests, which make the command line wrong. -/
theorem C124_false :
    argVal demoArgEnv ["name=x", "-S"] "tests" = some (.strs ["name=x".toList]) ∧ argVal demoArgEnv ["-S", "name=x"] "tests" = some (.strs []) ∧
    argVal demoArgEnv ["-S", "name=x"] "sort" = some (.strs ["name=x".toList]) ∧
    argVal demoArgEnv ["-H", "name=x", "type=f"] "hide" = some (.bool true) ∧ argVal demoArgEnv ["name=x", "-H", "type=f"] "hide" = none := by
  decide

set_option maxRecDepth 20000 in
-- -H -e a name=x -e b and name=x -ea -eb --hide
example : ∃ args items items', Table (ffOptions demoArgEnv) args ∧ Spells (ffOptions demoArgEnv) items (["-H", "-e", "a", "name=x", "-e", "b"].map String.toList) ∧
    Spells (ffOptions demoArgEnv) items' (["name=x", "-ea", "-eb", "--hide"].map String.toList) ∧ Rearranged args items items' ∧
    argVal demoArgEnv ["-H", "-e", "a", "name=x", "-e", "b"] "exclude" = some (.strs ["a".toList, "b".toList]) ∧
    collected "exclude".toList items = ["a".toList, "b".toList] := by
  obtain ⟨args, ht⟩ := C52_table demoArgEnv
  have hargs : args.dest = "tests".toList := (opt_tests _ ht.args_mem.1).1 ht.args_mem.2
  have get : ∀ s t : String, ∀ i, (h : i < (ffOptions demoArgEnv).length) → s.toList ∈ ((ffOptions demoArgEnv)[i]).strings → t.toList ∈ ((ffOptions demoArgEnv)[i]).strings →
      ∃ o, o = (ffOptions demoArgEnv)[i] ∧ o ∈ ffOptions demoArgEnv ∧ s.toList ∈ o.strings ∧ t.toList ∈ o.strings := by
    intro s t i h hs ht; exact ⟨_, rfl, List.getElem_mem h, hs, ht⟩
  obtain ⟨o1, e1, m1, s1, t1⟩ := get "-H" "--hide" 13 (by decide) (by decide) (by decide)
  obtain ⟨o2, e2, m2, s2, t2⟩ := get "-e" "--exclude" 12 (by decide) (by decide) (by decide)
  have d1 : o1.dest = "hide".toList := by rw [e1]; decide
  have d2 : o2.dest = "exclude".toList := by rw [e2]; decide
  have f1 : IsFlag o1 := .inl (by rw [e1]; decide)
  have a2 : TakesArg o2 := .inr (.inl (by rw [e2]; decide))
  have n2 : ∀ v, OptArg o2 → ¬ Dash v := by intro v; rw [e2]; rintro ⟨c, h⟩; cases h
  have hx : ∀ u ∈ ["name=x".toList], ¬ Dash u := by
    intro u hu
    simp only [List.mem_cons, List.not_mem_nil, or_false] at hu
    subst hu; rintro ⟨r, h⟩; cases h
  refine ⟨args, [.flag o1, .arg o2 "a".toList, .words ["name=x".toList], .arg o2 "b".toList],
    [.words ["name=x".toList], .arg o2 "a".toList, .arg o2 "b".toList, .flag o1], ht, ?_, ?_, ?_, by decide, by simp [collected, d2]⟩
  · exact .flag m1 f1 s1 (.arg m2 a2 s2 (n2 _) (.words (us := ["name=x".toList]) (by decide) hx ⟨_, rfl⟩ (.arg m2 a2 s2 (n2 _) .nil)))
  · exact .words (us := ["name=x".toList]) (by decide) hx ⟨_, rfl⟩
      (.argShort (v := "a".toList) m2 a2 s2 (n2 _) (by decide) (.argShort (v := "b".toList) m2 a2 s2 (n2 _) (by decide) (.flag m1 f1 t1 .nil)))
  · intro k
    by_cases h1 : k = "hide".toList
    · subst h1; simp [about, CItem.dest, d1, d2, hargs]
    · by_cases h2 : k = "exclude".toList
      · subst h2; simp [about, CItem.dest, d1, d2, hargs]
      · simp only [about, CItem.dest, d1, d2, hargs, List.filter_cons, List.filter_nil, decide_eq_true_eq, show ¬ "hide".toList = k from fun e => h1 e.symm,
          show ¬ "exclude".toList = k from fun e => h2 e.symm, if_false]

set_option maxRecDepth 20000 in
example : argVal demoArgEnv ["-o", "size", "-v", "-o", "name"] "output" = some (.strs ["name".toList]) ∧ argVal demoArgEnv ["-1", "-l", ":5"] "limit" = some (.slice 0 (some 5)) := by
  decide

end FF
