import Verif.Lemmas.Arguments
import Verif.Props.ArgParse
import Verif.Props.Types
/-! Properties C54 to C58: checks and conversions of arguments. -/
namespace FF
open Spec

/-! ### C54 -/

/-- The options with a fixed set of documented values and where their value goes. -/
def choiceOptions : List (String × String) := [("-c", "case"), ("--case", "case"), ("--halt", "halt"), ("--halt-on-error", "halt"), ("-C", "color"), ("--color", "color")]

/-- C54 fails: whatever the parser's state, every value at all is accepted for `--case`, `--halt` and `--color`. -/
theorem C54_never_refused (env : ArgEnv) {s dest : String} (hs : (s, dest) ∈ choiceOptions) (ns : NS) (v : Str) :
    ∃ ns', argRun (ffOptions env) env.maxCpu ns [s.toList, v] = .ok ns' ∧ ns' dest.toList = .str v := by
  obtain ⟨args, ht⟩ := C52_table env
  have hex : ∃ o ∈ ffOptions env, o.action = .store ∧ o.type = .str ∧ s.toList ∈ o.strings ∧ o.dest = dest.toList := by
    obtain ⟨d, m, c, n⟩ := env
    have hc : ∀ i, (h : i < (ffOptions ⟨d, m, c, n⟩).length) → ∀ l : List String, (ffOptions ⟨d, m, c, n⟩)[i].strings = l.map String.toList →
        (ffOptions ⟨d, m, c, n⟩)[i].action = .store → (ffOptions ⟨d, m, c, n⟩)[i].type = .str →
        (ffOptions ⟨d, m, c, n⟩)[i].dest = dest.toList → s ∈ l →
        ∃ o ∈ ffOptions ⟨d, m, c, n⟩, o.action = .store ∧ o.type = .str ∧ s.toList ∈ o.strings ∧ o.dest = dest.toList := by
      intro i h l h1 h2 h3 h4 h5
      exact ⟨_, List.getElem_mem h, h2, h3, by rw [h1]; exact List.mem_map.2 ⟨s, h5, rfl⟩, h4⟩
    have hlen : (ffOptions ⟨d, m, c, n⟩).length = if d then 42 else 40 := by cases d <;> rfl
    simp only [choiceOptions, List.mem_cons, List.not_mem_nil, or_false, Prod.mk.injEq] at hs
    rcases hs with ⟨rfl, rfl⟩ | ⟨rfl, rfl⟩ | ⟨rfl, rfl⟩ | ⟨rfl, rfl⟩ | ⟨rfl, rfl⟩ | ⟨rfl, rfl⟩
    · exact hc (if d then 20 else 18) (by rw [hlen]; cases d <;> decide) ["-c", "--case"] (by cases d <;> rfl) (by cases d <;> rfl) (by cases d <;> rfl) (by cases d <;> rfl) (by simp)
    · exact hc (if d then 20 else 18) (by rw [hlen]; cases d <;> decide) ["-c", "--case"] (by cases d <;> rfl) (by cases d <;> rfl) (by cases d <;> rfl) (by cases d <;> rfl) (by simp)
    · exact hc (if d then 26 else 24) (by rw [hlen]; cases d <;> decide) ["--halt", "--halt-on-error"] (by cases d <;> rfl) (by cases d <;> rfl) (by cases d <;> rfl) (by cases d <;> rfl) (by simp)
    · exact hc (if d then 26 else 24) (by rw [hlen]; cases d <;> decide) ["--halt", "--halt-on-error"] (by cases d <;> rfl) (by cases d <;> rfl) (by cases d <;> rfl) (by cases d <;> rfl) (by simp)
    · exact hc (if d then 27 else 25) (by rw [hlen]; cases d <;> decide) ["-C", "--color"] (by cases d <;> rfl) (by cases d <;> rfl) (by cases d <;> rfl) (by cases d <;> rfl) (by simp)
    · exact hc (if d then 27 else 25) (by rw [hlen]; cases d <;> decide) ["-C", "--color"] (by cases d <;> rfl) (by cases d <;> rfl) (by cases d <;> rfl) (by cases d <;> rfl) (by simp)
  obtain ⟨o, ho, ha, hty, hso, hd⟩ := hex
  refine ⟨stored ns o.dest (.str v), ?_, by simp [stored, hd]⟩
  rw [C52_spellings_partial ht env.maxCpu (items := [.arg o v]) (.arg ho (.inl ha) hso ?_ .nil) ns]
  · simp [meanings, meaning, ha, hty, OptType.conv]
  · rintro ⟨c, hc⟩; rw [ha] at hc; cases hc

set_option maxRecDepth 20000 in
/-- C54 fails. -/
theorem C54_false : argVal demoArgEnv ["--case", "foo", "--halt=bar", "-Cbaz"] "case" = some (.str "foo".toList) ∧
    argVal demoArgEnv ["--case", "foo", "--halt=bar", "-Cbaz"] "halt" = some (.str "bar".toList) ∧
    argVal demoArgEnv ["--case", "foo", "--halt=bar", "-Cbaz"] "color" = some (.str "baz".toList) ∧
    "foo".toList ∉ (["smart", "ignore", "sensitive"].map String.toList) := by decide

/-! ### C57 -/

/-- C57: `-j` accepts exactly the non-negative numbers; the number of processes is at least 1 and at most the number of CPUs, all CPUs for 0,
and the number itself in between. -/
theorem C57_jobs (maxCpu : Int) (hc : 1 ≤ maxCpu) (s : Str) :
    (∀ n, typeJobs maxCpu s = .ok n ↔ ∃ k, pyInt s = some k ∧ 0 ≤ k ∧ n = if k = 0 then maxCpu else min k maxCpu) ∧
    (∀ n, typeJobs maxCpu s = .ok n → 1 ≤ n ∧ n ≤ maxCpu) := by
  have h1 : ∀ n, typeJobs maxCpu s = .ok n ↔ ∃ k, pyInt s = some k ∧ 0 ≤ k ∧ n = if k = 0 then maxCpu else min k maxCpu := by
    intro n
    unfold typeJobs typePositive
    cases hp : pyInt s with
    | none => simp
    | some k =>
      by_cases hk : k < 0
      · simp only [hk, if_true, reduceCtorEq, Option.some.injEq, false_iff, not_exists, not_and]
        intro k' e h; omega
      · simp only [hk, if_false, Except.ok.injEq, Option.some.injEq]
        constructor
        · intro h; refine ⟨k, rfl, by omega, ?_⟩; rw [← h]; split <;> omega
        · rintro ⟨k', rfl, _, rfl⟩; split <;> omega
  refine ⟨h1, ?_⟩
  intro n h
  obtain ⟨k, _, h2, rfl⟩ := (h1 n).1 h
  split <;> omega

/-- C57 for the written number `n`. -/
theorem C57_numeral (maxCpu : Int) {s : Str} {n : Nat} (h : Numeral s n) :
    typeJobs maxCpu s = .ok (max (min (if n = 0 then maxCpu else n) maxCpu) 1) := by
  simp only [typeJobs, typePositive, numeral_pyInt h]
  have : ¬ ((n : Int) < 0) := by omega
  simp only [this, if_false]
  by_cases hn : n = 0
  · subst hn; simp
  · simp [hn]

example : typeJobs 8 "3".toList = .ok 3 ∧ typeJobs 8 "0".toList = .ok 8 ∧ typeJobs 8 "100".toList = .ok 8 ∧ typeJobs 8 "-1".toList = .error .crash := by decide

/-! ### C58 -/

/-- C58: a comma separated list is accepted by `-d` iff each part, apart from surrounding white space, is a range in one of the documented forms;
the result is the list of the denoted ranges. -/
theorem C58_ranges {ps : List Str} (hne : ps ≠ []) (hps : ∀ p ∈ ps, ',' ∉ p) (l : List (Int × Option Int)) :
    typeRanges (joinWith ',' ps) = .ok l ↔ All2 (fun p r => RangeText (strip p) r) ps l := by
  unfold typeRanges typeList
  rw [splitOn_joinWith hne hps, mapExcept_ok]
  constructor
  · intro h
    clear hne hps
    generalize hq : ps.map strip = qs at h
    induction h generalizing ps with
    | nil => cases ps with
      | nil => exact .nil
      | cons p ps => simp at hq
    | cons h1 _ ih => cases ps with
      | nil => simp at hq
      | cons p ps =>
        simp only [List.map_cons, List.cons.injEq] at hq
        rw [← hq.1, parseRange_iff] at h1
        exact .cons h1 (ih hq.2)
  · intro h
    clear hne hps
    induction h with
    | nil => exact .nil
    | cons h1 _ ih => exact .cons (parseRange_iff.2 h1) ih

/-- C58: every argument is such a list, so everything else is refused (by an uncaught ValueError). -/
theorem C58_ranges_refused (s : Str) (h : ∀ l, typeRanges s ≠ .ok l) : typeRanges s = .error .crash ∧
    ∃ ps, ps ≠ [] ∧ (∀ p ∈ ps, ',' ∉ p) ∧ s = joinWith ',' ps ∧ ∃ p ∈ ps, ∀ r, ¬ RangeText (strip p) r := by
  constructor
  · cases hs : typeRanges s with
    | ok l => exact absurd hs (h l)
    | error e =>
      have : ∀ (l : List Str) e, mapExcept parseRange (l.map strip) = .error e → e = .crash := by
        intro l
        induction l with
        | nil => intro e h; cases h
        | cons x l ih =>
          intro e h
          simp only [List.map_cons, mapExcept] at h
          split at h
          · rename_i e' he
            cases h
            cases hm : rangeRe.match' (strip x) with
            | none => simp [parseRange, hm] at he; exact he.symm
            | some y =>
              obtain ⟨t, r, _, _, _, hp⟩ := parseRange_of hm
              rw [hp] at he; cases he
          · split at h
            · rename_i e' he; cases h; exact ih _ he
            · cases h
      rw [this (splitOn ',' s) e hs]
  · have hsp : ∀ s : Str, (∀ p ∈ splitOn ',' s, ',' ∉ p) ∧ splitOn ',' s ≠ [] ∧ s = joinWith ',' (splitOn ',' s) := by
      intro s
      induction s with
      | nil => simp [splitOn, joinWith]
      | cons x s ih =>
        obtain ⟨i1, i2, i3⟩ := ih
        simp only [splitOn]
        by_cases hx : x = ','
        · subst hx
          simp only [if_true]
          refine ⟨?_, by simp, ?_⟩
          · intro p hp; rcases List.mem_cons.1 hp with rfl | hp
            · simp
            · exact i1 p hp
          · cases hq : splitOn ',' s with
            | nil => exact absurd hq i2
            | cons w ws => rw [hq] at i3; simp [joinWith, ← i3]
        · simp only [hx, if_false]
          cases hq : splitOn ',' s with
          | nil => exact absurd hq i2
          | cons w ws =>
            rw [hq] at i3 i1
            simp only
            refine ⟨?_, by simp, ?_⟩
            · intro p hp; rcases List.mem_cons.1 hp with rfl | hp
              · simp only [List.mem_cons, not_or]; exact ⟨Ne.symm hx, i1 w (by simp)⟩
              · exact i1 p (by simp [hp])
            · cases ws with
              | nil => simp only [joinWith] at i3 ⊢; rw [i3]
              | cons v vs => simp only [joinWith] at i3 ⊢; rw [i3]; rfl
    obtain ⟨h1, h2, h3⟩ := hsp s
    refine ⟨splitOn ',' s, h2, h1, h3, ?_⟩
    apply Classical.byContradiction
    intro hno
    have hall : ∀ p ∈ splitOn ',' s, ∃ r, RangeText (strip p) r := by
      intro p hp
      apply Classical.byContradiction
      intro hn
      exact hno ⟨p, hp, fun r hr => hn ⟨r, hr⟩⟩
    have : ∀ ps : List Str, (∀ p ∈ ps, ∃ r, RangeText (strip p) r) → ∃ l, All2 (fun p r => RangeText (strip p) r) ps l := by
      intro ps
      induction ps with
      | nil => intro _; exact ⟨[], .nil⟩
      | cons p ps ih =>
        intro hp
        obtain ⟨r, hr⟩ := hp p (by simp)
        obtain ⟨l, hl⟩ := ih (fun q hq => hp q (by simp [hq]))
        exact ⟨r :: l, .cons hr hl⟩
    obtain ⟨l, hl⟩ := this _ hall
    rw [h3] at h
    exact h l ((C58_ranges h2 h1 l).2 hl)

/-- C58: the bounds of every accepted range are in order and not negative. -/
theorem C58_ordered {t : Str} {r : Int × Option Int} (h : RangeText t r) : 0 ≤ r.1 ∧ ∀ stop, r.2 = some stop → r.1 ≤ stop := by
  cases h with
  | single _ => refine ⟨by simp, ?_⟩; intro s hs; simp at hs; simp; omega
  | both _ _ => refine ⟨by simp, ?_⟩; intro s hs; simp at hs; simp; omega
  | «from» _ => refine ⟨by simp, ?_⟩; intro s hs; simp at hs
  | upto _ => refine ⟨by simp, ?_⟩; intro s hs; simp at hs; simp; omega
  | all => refine ⟨by simp, ?_⟩; intro s hs; simp at hs

/-- C58: a slice is accepted by `-l` iff it has one of the documented forms (or is followed by a newline), and then denotes that slice. -/
theorem C58_slice (s : Str) (r : Int × Option Int) : typeSlice s = .ok r ↔ SliceText s r ∨ ∃ t, s = t ++ ['\n'] ∧ SliceText t r := by
  constructor
  · intro h
    cases hm : sliceRe.match' s with
    | none => simp [typeSlice, hm] at h
    | some x =>
      obtain ⟨t, r', hs, he, ht, hp⟩ := typeSlice_of hm
      rw [h] at hp; cases hp
      rcases he with he | he
      · rw [he, List.append_nil] at hs; rw [hs]; exact .inl ht
      · rw [he] at hs; exact .inr ⟨t, hs, ht⟩
  · intro h
    have key : ∀ t e, s = t ++ e → (e = [] ∨ e = ['\n']) → SliceText t r → typeSlice s = .ok r := by
      intro t e hs he ht
      obtain ⟨c, hc⟩ := sliceText_mat ht e he
      rw [← hs] at hc
      obtain ⟨c1, s1, hm, _⟩ := match'_of_mat hc
      obtain ⟨t', r', hs', he', ht', hp⟩ := typeSlice_of hm
      have : t = t' := by
        have hn := sliceText_no_newline ht
        have hn' := sliceText_no_newline ht'
        rw [hs'] at hs
        rcases he with rfl | rfl <;> rcases he' with rfl | rfl
        · simpa using hs.symm
        · simp only [List.append_nil] at hs; rw [← hs] at hn; simp at hn
        · simp only [List.append_nil] at hs; rw [hs] at hn'; simp at hn'
        · exact (List.append_cancel_right hs).symm
      rw [hp, sliceText_unique ht (this ▸ ht')]
    rcases h with h | ⟨t, hs, ht⟩
    · exact key s [] (by simp) (.inl rfl) h
    · exact key t ['\n'] hs (.inr rfl) ht

/-- C58: other slices are refused with a usage error. -/
theorem C58_slice_refused (s : Str) (h : ∀ r, typeSlice s ≠ .ok r) : typeSlice s = .error .usage := by
  cases hm : sliceRe.match' s with
  | none => simp [typeSlice, hm]
  | some x =>
    obtain ⟨t, r', hs, he, ht, hp⟩ := typeSlice_of hm
    exact absurd hp (h r')

example : typeRanges "3, 5-2,7-,-1,-".toList = .ok [(3, some 3), (2, some 5), (7, none), (0, some 1), (0, none)] ∧
    typeSlice "-10:".toList = .ok (-10, none) ∧ typeSlice "20,3".toList = .ok (60, some 80) ∧ typeRanges "1-2-3".toList = .error .crash ∧
    typeSlice "1,-2".toList = .error .usage := by decide

/-! ### C55 -/

/-- C55 (partial): if the arguments begin with directories, exactly the leading ones become search directories, in order, and everything else remains a
test. Missing: directories at the end are left among the tests in this case, see `C55_false`. -/
theorem C55_leading_partial (isdir : Str → Bool) {L M : List Str} (hL : ∀ t ∈ L, isDirArg isdir t = true) (hne : L ≠ [])
    (hM : ∀ t r, M = t :: r → isDirArg isdir t = false) : findDirs isdir (L ++ M) [] = (M, L.map normpath) := by
  have h1 : ∀ (L : List Str) (hL : ∀ t ∈ L, isDirArg isdir t = true) ds, leadingDirs isdir (L ++ M) (L ++ M) ds = (M, ds ++ L.map normpath) := by
    intro L
    induction L with
    | nil =>
      intro _ ds
      cases M with
      | nil => simp [leadingDirs]
      | cons t r => simp [leadingDirs, hM t r rfl]
    | cons t L ih =>
      intro hL ds
      simp only [List.cons_append, leadingDirs, hL t (by simp), if_true, List.erase_cons_head]
      rw [ih (fun x hx => hL x (by simp [hx]))]
      simp
  unfold findDirs
  simp only [if_true, h1 L hL, List.nil_append]
  have h2 : ∀ n ds, M.length < n → trailingDirs isdir n M ds = (M, ds) := by
    intro n ds hn
    cases n with
    | zero => omega
    | succ n => simp only [trailingDirs]; rw [List.getElem?_eq_none (by omega)]
  have hlen := List.length_pos_iff.2 hne
  rw [h2 _ _ (by simp; omega)]
  simp [hne]

theorem erase_append_not_mem {a b : List Str} {t : Str} (h : t ∉ a) : (a ++ b).erase t = a ++ b.erase t := by
  induction a with
  | nil => rfl
  | cons x a ih =>
    simp only [List.mem_cons, not_or] at h
    rw [List.cons_append, List.erase_cons_tail (by simpa using Ne.symm h.1), ih h.2]; rfl

/-- C55 (partial): if only the end of the arguments consists of directories, exactly these become search directories (in some order), and the tests before
them remain, in order. Missing: a directory name that also occurs among the tests before, see `C55_false`. -/
theorem C55_trailing_partial (isdir : Str → Bool) {M R : List Str} (hR : ∀ t ∈ R, isDirArg isdir t = true)
    (hne : M ≠ []) (hM : ∀ t r, M = t :: r → isDirArg isdir t = false) (hM' : ∀ t r, M = r ++ [t] → isDirArg isdir t = false) (hd : ∀ t ∈ R, t ∉ M) :
    ∃ ds, findDirs isdir (M ++ R) [] = (M, ds) ∧ (R ≠ [] → ds.Perm (R.map normpath)) ∧ (R = [] → ds = [['.']]) := by
  obtain ⟨t, r, hMe⟩ : ∃ t r, M = t :: r := by cases M with
    | nil => exact absurd rfl hne
    | cons t r => exact ⟨t, r, rfl⟩
  have h1 : leadingDirs isdir (M ++ R) (M ++ R) [] = (M ++ R, []) := by
    have := hM t r hMe
    rw [hMe]; simp [leadingDirs, this]
  have h2 : ∀ k (R : List Str), R.length = k → (∀ t ∈ R, isDirArg isdir t = true) → (∀ t ∈ R, t ∉ M) → ∀ ds, ∃ ds', trailingDirs isdir (M ++ R).length (M ++ R) ds = (M, ds ++ ds') ∧
      ds'.Perm (R.map normpath) := by
    intro k
    induction k with
    | zero =>
      intro R hk _ _ ds
      rw [List.length_eq_zero_iff.1 hk]
      refine ⟨[], ?_, by simp⟩
      obtain ⟨x, hx⟩ : ∃ x, M.getLast? = some x := ⟨_, List.getLast?_eq_some_getLast hne⟩
      obtain ⟨y, hy⟩ := List.getLast?_eq_some_iff.1 hx
      have hf := hM' x y hy
      simp only [List.append_nil]
      rw [hy]
      simp [trailingDirs, hf]
    | succ k ih =>
      intro R hk hR hd ds
      have hRne : R ≠ [] := by intro h; simp [h] at hk
      obtain ⟨R', x, hRe⟩ : ∃ R' x, R = R' ++ [x] := ⟨R.dropLast, R.getLast hRne, (List.dropLast_concat_getLast hRne).symm⟩
      have hx : x ∈ R := by rw [hRe]; simp
      have hlen : (M ++ R).length = (M ++ R.erase x).length + 1 := by
        simp only [List.length_append, List.length_erase_of_mem hx, hk]; omega
      have hget : (M ++ R)[(M ++ R.erase x).length]? = some x := by
        have h3 : (M ++ R.erase x).length = (M ++ R').length := by
          have : (R.erase x).length = R'.length := by rw [List.length_erase_of_mem hx, hRe]; simp
          simp [this]
        rw [h3, hRe, ← List.append_assoc, List.getElem?_append_right (by simp)]; simp
      have hk' : (R.erase x).length = k := by rw [List.length_erase_of_mem hx, hk]; rfl
      obtain ⟨ds', e1, e2⟩ := ih (R.erase x) hk' (fun t ht => hR t (List.mem_of_mem_erase ht)) (fun t ht => hd t (List.mem_of_mem_erase ht)) (ds ++ [normpath x])
      refine ⟨normpath x :: ds', ?_, ?_⟩
      · rw [hlen]
        simp only [trailingDirs, hget, hR x hx, if_true]
        rw [erase_append_not_mem (hd x hx), e1]
        simp
      · have := (List.perm_cons_erase hx).map normpath
        exact (e2.cons _).trans (by simpa using this.symm)
  obtain ⟨ds', e1, e2⟩ := h2 _ R rfl hR hd []
  unfold findDirs
  simp only [if_true, h1, e1, List.nil_append]
  refine ⟨_, rfl, ?_, ?_⟩
  · intro hRne
    have : ds' ≠ [] := by
      intro h; rw [h] at e2
      have := e2.length_eq
      simp at this
      exact hRne (List.length_eq_zero_iff.1 this.symm)
    simp [this, e2]
  · intro hRe
    subst hRe
    have : ds' = [] := by
      have := e2.length_eq
      simpa using this
    simp [this]

/-- C55: with `-D` the arguments are left alone. -/
theorem C55_explicit (isdir : Str → Bool) (tests : List Str) {dirs : List Str} (h : dirs ≠ []) : findDirs isdir tests dirs = (tests, dirs) := by
  simp [findDirs, h]

/-- C55: whatever the arguments, there is at least one search directory, and nothing but directories is taken away from the tests: the tests and the
directories found together are a rearrangement of the arguments. -/
theorem C55_conserved (isdir : Str → Bool) (tests : List Str) : ∃ found, (∀ t ∈ found, isDirArg isdir t = true) ∧
    (found ++ (findDirs isdir tests []).1).Perm tests ∧ (findDirs isdir tests []).1.Sublist tests ∧
    (findDirs isdir tests []).2 = if found = [] then [['.']] else found.map normpath := by
  have hlead : ∀ (l ts ds : List Str), l.Sublist ts → ∃ f, (∀ t ∈ f, isDirArg isdir t = true) ∧ (f ++ (leadingDirs isdir l ts ds).1).Perm ts ∧
      (leadingDirs isdir l ts ds).1.Sublist ts ∧ (leadingDirs isdir l ts ds).2 = ds ++ f.map normpath := by
    intro l
    induction l with
    | nil => intro ts ds _; exact ⟨[], by simp, by simp [leadingDirs], by simp [leadingDirs], by simp [leadingDirs]⟩
    | cons t l ih =>
      intro ts ds hs
      simp only [leadingDirs]
      split
      · rename_i ht
        have hmem : t ∈ ts := hs.subset (by simp)
        have hs' : l.Sublist (ts.erase t) := by
          have := hs.erase t
          rwa [List.erase_cons_head] at this
        obtain ⟨f, f1, f2, f3, f4⟩ := ih (ts.erase t) (ds ++ [normpath t]) hs'
        refine ⟨t :: f, ?_, ?_, f3.trans List.erase_sublist, by rw [f4]; simp⟩
        · intro x hx; rcases List.mem_cons.1 hx with rfl | hx
          · exact ht
          · exact f1 x hx
        · exact (f2.cons t).trans (List.perm_cons_erase hmem).symm
      · exact ⟨[], by simp, by simp, by simp, by simp⟩
  have htrail : ∀ n (ts ds : List Str), ∃ f, (∀ t ∈ f, isDirArg isdir t = true) ∧ (f ++ (trailingDirs isdir n ts ds).1).Perm ts ∧
      (trailingDirs isdir n ts ds).1.Sublist ts ∧ (trailingDirs isdir n ts ds).2 = ds ++ f.map normpath := by
    intro n
    induction n with
    | zero => intro ts ds; exact ⟨[], by simp, by simp [trailingDirs], by simp [trailingDirs], by simp [trailingDirs]⟩
    | succ n ih =>
      intro ts ds
      simp only [trailingDirs]
      split
      · exact ⟨[], by simp, by simp, by simp, by simp⟩
      · rename_i t hget
        split
        · rename_i ht
          have hmem : t ∈ ts := List.mem_of_getElem? hget
          obtain ⟨f, f1, f2, f3, f4⟩ := ih (ts.erase t) (ds ++ [normpath t])
          refine ⟨t :: f, ?_, ?_, f3.trans List.erase_sublist, by rw [f4]; simp⟩
          · intro x hx; rcases List.mem_cons.1 hx with rfl | hx
            · exact ht
            · exact f1 x hx
          · exact (f2.cons t).trans (List.perm_cons_erase hmem).symm
        · exact ⟨[], by simp, by simp, by simp, by simp⟩
  obtain ⟨f, f1, f2, f3, f4⟩ := hlead tests tests [] (List.Sublist.refl _)
  obtain ⟨g, g1, g2, g3, g4⟩ := htrail tests.length (leadingDirs isdir tests tests []).1 (leadingDirs isdir tests tests []).2
  refine ⟨f ++ g, ?_, ?_, ?_, ?_⟩
  · intro t ht; rcases List.mem_append.1 ht with h | h
    · exact f1 t h
    · exact g1 t h
  · simp only [findDirs, if_true]
    rw [List.append_assoc]
    exact (g2.append_left f).trans f2
  · simp only [findDirs, if_true]
    exact g3.trans f3
  · simp only [findDirs, if_true]
    rw [g4, f4]
    simp

/-- C55 fails: a directory at the end is not recognised if there is one at the beginning, and a directory name occurring twice makes a
test in the middle disappear. -/
theorem C55_false :
    findDirs (fun _ => true) ["a/".toList, "x".toList, "b/".toList] [] = (["x".toList, "b/".toList], ["a".toList]) ∧
    findDirs (fun _ => true) ["x".toList, "a/".toList, "y".toList, "a/".toList] [] = (["x".toList, "y".toList], ["a".toList, "a".toList]) := by
  decide

example : findDirs (fun _ => true) ["a/".toList, "b//c/".toList, "x".toList] [] = (["x".toList], ["a".toList, "b/c".toList]) ∧
    findDirs (fun _ => true) ["x".toList, "a/".toList, "./b/..".toList] [] = (["x".toList], [".".toList, "a".toList]) := by decide

/-! ### C56 -/

theorem foldl_follow_comps {cs : List Str} (dir : List Str) (hd : ∀ c ∈ dir, c ≠ [] ∧ c ≠ ['.'] ∧ '/' ∉ c) (hc : ∀ c ∈ cs, '/' ∉ c) :
    ∀ c ∈ cs.foldl follow dir, c ≠ [] ∧ c ≠ ['.'] ∧ '/' ∉ c := by
  induction cs generalizing dir with
  | nil => simpa using hd
  | cons c cs ih =>
    simp only [List.foldl_cons]
    apply ih
    · unfold follow
      split
      · exact hd
      · rename_i h1
        split
        · exact fun x hx => hd x ((List.dropLast_sublist _).subset hx)
        · intro x hx
          rcases List.mem_append.1 hx with hx | hx
          · exact hd x hx
          · simp only [List.mem_singleton] at hx; subst hx
            simp only [not_or] at h1
            exact ⟨h1.1, h1.2, hc x (by simp)⟩
    · exact fun x hx => hc x (by simp [hx])

theorem normLoop_absolute (cs : List Str) : ∀ st : List Str, ['.', '.'] ∉ st → normLoop true cs st = cs.foldl follow st.reverse := by
  induction cs with
  | nil => intro st _; simp [normLoop]
  | cons c cs ih =>
    intro st hst
    simp only [normLoop, List.foldl_cons]
    by_cases h1 : c = [] ∨ c = ['.']
    · rw [if_pos h1, ih st hst]; simp [follow, h1]
    · rw [if_neg h1]
      by_cases h2 : c = ['.', '.']
      · subst h2
        have h3 : st.head? ≠ some ['.', '.'] := by
          intro h; exact hst (List.mem_of_head? h)
        rw [if_neg (by simp [h3])]
        rw [ih _ (fun h => hst (List.mem_of_mem_tail h))]
        have : st.tail.reverse = st.reverse.dropLast := by
          cases st with
          | nil => rfl
          | cons a st => simp
        rw [this, show follow st.reverse ['.', '.'] = st.reverse.dropLast from rfl]
      · rw [if_pos (.inl h2), ih _ (by simp [hst, Ne.symm h2])]
        rw [List.reverse_cons, show follow st.reverse c = st.reverse ++ [c] by rw [follow, if_neg h1, if_neg h2]]

theorem follow_not_dots (cs dir : List Str) (hd : ['.', '.'] ∉ dir) : ['.', '.'] ∉ cs.foldl follow dir := by
  induction cs generalizing dir with
  | nil => simpa using hd
  | cons c cs ih =>
    simp only [List.foldl_cons]
    apply ih
    unfold follow
    split
    · exact hd
    · split
      · exact fun h => hd ((List.dropLast_sublist _).subset h)
      · rename_i h2
        simp only [List.mem_append, List.mem_singleton, not_or]
        exact ⟨hd, Ne.symm h2⟩

theorem splitOn_slash_free (s : Str) : ∀ c ∈ splitOn '/' s, '/' ∉ c := by
  induction s with
  | nil => simp [splitOn]
  | cons x s ih =>
    simp only [splitOn]
    by_cases hx : x = '/'
    · simp only [hx, if_true]
      intro c hc; rcases List.mem_cons.1 hc with rfl | hc
      · simp
      · exact ih c hc
    · simp only [hx, if_false]
      cases hq : splitOn '/' s with
      | nil => simp [Ne.symm hx]
      | cons w ws =>
        rw [hq] at ih
        simp only
        intro c hc; rcases List.mem_cons.1 hc with rfl | hc
        · simp only [List.mem_cons, not_or]; exact ⟨Ne.symm hx, ih w (by simp)⟩
        · exact ih c (by simp [hc])

/-- The absolute path of a path is spelled by the components of its target. -/
theorem absNorm_target {cwd path : Str} (hc : ∃ r, cwd = '/' :: r) (hc2 : ¬ TwoSlashes cwd) (hp : ¬ TwoSlashes path) :
    absNorm cwd path = '/' :: joinWith '/' (target cwd path) := by
  have key : ∀ p : Str, (∃ r, p = '/' :: r) → ¬ TwoSlashes p → normpath p = '/' :: joinWith '/' ((splitOn '/' p).foldl follow []) := by
    rintro p ⟨r, rfl⟩ h2
    have hi : initialSlashes ('/' :: r) = 1 := by
      unfold initialSlashes
      rw [if_neg, if_pos (by simp [startsWith, List.isPrefixOf])]
      intro h
      simp only [Bool.and_eq_true, Bool.not_eq_true'] at h
      apply h2
      cases r with
      | nil => simp [startsWith, List.isPrefixOf] at h
      | cons x r =>
        have hx : x = '/' := by have := h.1; simp [startsWith, List.isPrefixOf] at this; exact this.symm
        subst hx
        refine ⟨r, rfl, ?_⟩
        rintro r' rfl
        have := h.2
        simp [startsWith, List.isPrefixOf] at this
    unfold normpath
    simp only [hi]
    rw [show (decide ((1 : Nat) ≠ 0)) = true from rfl, normLoop_absolute _ [] (by simp)]
    simp
  cases path with
  | nil =>
    obtain ⟨r, rfl⟩ := hc
    have e : absNorm ('/' :: r) [] = normpath (osJoin ('/' :: r) []) := by simp [absNorm, startsWith, List.isPrefixOf]
    rw [e]
    unfold osJoin
    simp only [startsWith, List.isPrefixOf, Bool.false_eq_true, if_false]
    split
    · rw [List.append_nil, key _ ⟨r, rfl⟩ hc2]
      simp [target, splitOn, follow]
    · have h2 : ¬ TwoSlashes ('/' :: r ++ ['/']) := by
        rintro ⟨q, hq, hn⟩
        cases r with
        | nil => rename_i h; simp at h
        | cons x r =>
          simp only [List.cons_append, List.cons.injEq, true_and] at hq
          apply hc2
          refine ⟨r, by rw [hq.1], ?_⟩
          rintro r' rfl
          exact hn (r' ++ ['/']) (by rw [← hq.2]; rfl)
      rw [key ('/' :: r ++ ['/']) ⟨r ++ ['/'], rfl⟩ h2]
      have : splitOn '/' ('/' :: r ++ ['/']) = splitOn '/' ('/' :: r) ++ [[]] := by
        have := splitOn_append_sep' '/' ('/' :: r) []
        simpa [splitOn] using this
      rw [this, List.foldl_append]
      simp [target, splitOn, follow]
  | cons x p =>
    by_cases hx : x = '/'
    · subst hx
      have e : absNorm cwd ('/' :: p) = normpath ('/' :: p) := by simp [absNorm, startsWith, List.isPrefixOf]
      rw [e, key _ ⟨p, rfl⟩ hp]
      simp [target]
    · obtain ⟨r, rfl⟩ := hc
      have hs : startsWith (x :: p) ['/'] = false := by
        simp [startsWith, List.isPrefixOf, Ne.symm hx]
      have e : absNorm ('/' :: r) (x :: p) = normpath (osJoin ('/' :: r) (x :: p)) := by simp [absNorm, hs]
      have ht : target ('/' :: r) (x :: p) = (splitOn '/' (x :: p)).foldl follow ((splitOn '/' ('/' :: r)).foldl follow []) := by
        unfold target
        split
        · rename_i h; simp only [List.cons.injEq] at h; exact absurd h.1 hx
        · rfl
      rw [e, ht]
      unfold osJoin
      rw [hs]
      simp only [Bool.false_eq_true, if_false, reduceCtorEq, false_or]
      split
      · rename_i hl
        obtain ⟨q, hq⟩ := List.getLast?_eq_some_iff.1 hl
        have h2 : ¬ TwoSlashes ('/' :: r ++ x :: p) := by
          rintro ⟨w, hw, hn⟩
          cases r with
          | nil => simp only [List.nil_append, List.cons_append, List.cons.injEq, true_and] at hw; exact hx hw.1
          | cons y r =>
            simp only [List.cons_append, List.cons.injEq, true_and] at hw
            cases r with
            | nil => exact hc2 ⟨[], by rw [hw.1], by simp⟩
            | cons z r =>
              apply hc2
              refine ⟨z :: r, by rw [hw.1], ?_⟩
              intro r' hr
              exact hn (r' ++ x :: p) (by rw [← hw.2, hr]; rfl)
        rw [key ('/' :: r ++ x :: p) ⟨r ++ x :: p, rfl⟩ h2]
        rw [hq, List.append_assoc, List.singleton_append, splitOn_append_sep']
        have : splitOn '/' (q ++ ['/']) = splitOn '/' q ++ [[]] := by
          have := splitOn_append_sep' '/' q []
          simpa [splitOn] using this
        rw [this, List.foldl_append, List.foldl_append]
        simp [follow]
      · have h2 : ¬ TwoSlashes ('/' :: r ++ '/' :: x :: p) := by
          rintro ⟨w, hw, hn⟩
          cases r with
          | nil => rename_i h; simp at h
          | cons y r =>
            simp only [List.cons_append, List.cons.injEq, true_and] at hw
            cases r with
            | nil => rename_i h; simp [hw.1] at h
            | cons z r =>
              apply hc2
              refine ⟨z :: r, by rw [hw.1], ?_⟩
              intro r' hr
              exact hn (r' ++ '/' :: x :: p) (by rw [← hw.2, hr]; rfl)
        rw [key ('/' :: r ++ '/' :: x :: p) ⟨r ++ '/' :: x :: p, rfl⟩ h2, splitOn_append_sep', List.foldl_append]

theorem target_comps (cwd path : Str) : ∀ c ∈ target cwd path, c ≠ [] ∧ c ≠ ['.'] ∧ '/' ∉ c := by
  unfold target
  split
  · exact foldl_follow_comps [] (by simp) (splitOn_slash_free _)
  · exact foldl_follow_comps _ (foldl_follow_comps [] (by simp) (splitOn_slash_free _)) (splitOn_slash_free _)

theorem pathComps_joinWith {cs : List Str} (h : ∀ c ∈ cs, c ≠ [] ∧ c ≠ ['.'] ∧ '/' ∉ c) : pathComps ('/' :: joinWith '/' cs) = cs := by
  unfold pathComps
  simp only [splitOn, if_true]
  by_cases hne : cs = []
  · subst hne; simp [joinWith, splitOn]
  · rw [splitOn_joinWith hne (fun c hc => (h c hc).2.2)]
    simp only [List.filter_cons, ne_eq, not_true_eq_false, decide_false, Bool.false_and, Bool.false_eq_true, if_false]
    apply List.filter_eq_self.2
    intro c hc
    simp [(h c hc).1, (h c hc).2.1]

theorem commonPrefix_eq_right (a b : List Str) : commonPrefix a b = b ↔ b <+: a := by
  induction a generalizing b with
  | nil => cases b <;> simp [commonPrefix]
  | cons x a ih =>
    cases b with
    | nil => simp [commonPrefix]
    | cons y b =>
      by_cases h : x = y
      · subst h; simp [commonPrefix, ih]
      · simp only [commonPrefix, h, if_false, List.cons_prefix_cons]
        simp [Ne.symm h]

theorem joinWith_inj {a b : List Str} (ha : ∀ c ∈ a, c ≠ [] ∧ c ≠ ['.'] ∧ '/' ∉ c) (hb : ∀ c ∈ b, c ≠ [] ∧ c ≠ ['.'] ∧ '/' ∉ c)
    (h : joinWith '/' a = joinWith '/' b) : a = b := by
  rw [← pathComps_joinWith ha, ← pathComps_joinWith hb, h]

theorem commonPrefix_prefix (a b : List Str) : commonPrefix a b <+: b := by
  induction a generalizing b with
  | nil => simp [commonPrefix]
  | cons x a ih =>
    cases b with
    | nil => simp [commonPrefix]
    | cons y b =>
      by_cases h : x = y
      · subst h; simp [commonPrefix, ih]
      · simp [commonPrefix, h]

/-- C56 (partial): the directories are refused iff two differently spelled ones lead to the same place, or one into the other.
Missing: two equal spellings, which are not noticed, and paths starting with exactly two slashes. -/
theorem C56_refused_iff_partial {cwd : Str} (hc : ∃ r, cwd = '/' :: r) (hc2 : ¬ TwoSlashes cwd) {dirs : List Str} (hd : ∀ d ∈ dirs, ¬ TwoSlashes d) :
    overlapping cwd dirs = true ↔ ∃ d ∈ dirs, ∃ s ∈ dirs, d ≠ s ∧ target cwd s <+: target cwd d := by
  unfold overlapping
  have key : ∀ d ∈ dirs, ∀ s ∈ dirs, (commonpath (absNorm cwd d) (absNorm cwd s) = absNorm cwd s ↔ target cwd s <+: target cwd d) := by
    intro d hd' s hs'
    rw [absNorm_target hc hc2 (hd d hd'), absNorm_target hc hc2 (hd s hs')]
    unfold commonpath
    rw [pathComps_joinWith (target_comps cwd d), pathComps_joinWith (target_comps cwd s), ← commonPrefix_eq_right]
    constructor
    · intro h
      simp only [List.cons.injEq, true_and] at h
      exact joinWith_inj (fun c hc => target_comps cwd s c ((commonPrefix_prefix _ _).subset hc)) (target_comps cwd s) h
    · intro h; rw [h]
  simp only [List.any_eq_true, Bool.and_eq_true, decide_eq_true_eq, ne_eq]
  constructor
  · rintro ⟨d, h1, s, h2, h3, h4⟩
    exact ⟨d, h1, s, h2, fun h => h3 h.symm, (key d h1 s h2).1 h4⟩
  · rintro ⟨d, h1, s, h2, h3, h4⟩
    exact ⟨d, h1, s, h2, fun h => h3 h.symm, (key d h1 s h2).2 h4⟩

/-- C56 (partial): accepted directories, if no spelling is repeated, are disjoint subtrees. -/
theorem C56_disjoint_partial {cwd : Str} (hc : ∃ r, cwd = '/' :: r) (hc2 : ¬ TwoSlashes cwd) {isdir : Str → Bool} {tests dirs ts ds : List Str}
    (h : processDirectories isdir cwd tests dirs = some (ts, ds)) (hd : ∀ d ∈ ds, ¬ TwoSlashes d) (hn : ds.Nodup) :
    ds.Pairwise (fun d s => ¬ target cwd s <+: target cwd d ∧ ¬ target cwd d <+: target cwd s) := by
  have hds : ds = (findDirs isdir tests dirs).2 ∧ overlapping cwd ds = false := by
    simp only [processDirectories] at h
    split at h
    · cases h
    · rename_i h'
      simp only [Option.some.injEq] at h
      rw [h] at h' ⊢
      exact ⟨rfl, by simpa using h'⟩
  have hno : ∀ d ∈ ds, ∀ s ∈ ds, d ≠ s → ¬ target cwd s <+: target cwd d := by
    intro d h1 s h2 h3 h4
    have := (C56_refused_iff_partial hc hc2 hd).2 ⟨d, h1, s, h2, h3, h4⟩
    rw [hds.2] at this; cases this
  apply List.Pairwise.imp_of_mem ?_ hn
  intro d s h1 h2 h3
  exact ⟨hno d h1 s h2 h3, hno s h2 d h1 (Ne.symm h3)⟩

/-- C56 fails: a directory given twice is accepted, and so is a directory inside another one if both are spelled with two leading slashes. -/
theorem C56_false : processDirectories (fun _ => true) "/home".toList [] ["a".toList, "a".toList] = some ([], ["a".toList, "a".toList]) ∧
    processDirectories (fun _ => true) "/home".toList [] ["//x".toList, "//x/y".toList] = some ([], ["//x".toList, "//x/y".toList]) := by decide

example : processDirectories (fun _ => true) "/home".toList [] ["a/../b".toList, "./b/c".toList] = none ∧
    target "/home".toList "./b/c".toList = ["home".toList, "b".toList, "c".toList] ∧
    (processDirectories (fun _ => true) "/home".toList [] ["ab".toList, "a".toList]).isSome = true := by decide

end FF
