import Verif.Lemmas.Count
import Verif.Props.Natural
/-! C38, C39: `--count`. -/
namespace FF
open Spec

theorem valueSum_perm {α : Type} {value : α → Option Val} {l l' : List α} (h : l.Perm l') : valueSum value l = valueSum value l' := by
  have key : ∀ a b : List Int, a.Perm b → a.sum = b.sum := by
    intro a b hab
    induction hab with
    | nil => rfl
    | cons x _ ih => simp [ih]
    | swap x y l => simp; omega
    | trans _ _ h1 h2 => rw [h1, h2]
  exact key _ _ (h.map _)

theorem valueCount_perm {α : Type} {value : α → Option Val} {l l' : List α} (h : l.Perm l') (v : Val) : valueCount value l v = valueCount value l' v :=
  (h.filter _).length_eq

theorem count_filterMap {α : Type} (value : α → Option Val) (l : List α) (v : Val) : (l.filterMap value).count v = valueCount value l v := by
  unfold valueCount
  induction l with
  | nil => rfl
  | cons e es ih =>
    rw [List.filterMap_cons, List.filter_cons]
    cases hv : value e with
    | none => simpa using ih
    | some w =>
      by_cases hw : w = v
      · simp [hw, ih]
      · simp [hw, ih]

theorem valueCount_pos {α : Type} {value : α → Option Val} {l : List α} {v : Val} : 0 < valueCount value l v ↔ ∃ e ∈ l, value e = some v := by
  unfold valueCount
  rw [List.length_pos_iff_exists_mem]
  simp [List.mem_filter]

/-- The attributes that `--count` is asked for: none is given twice, also not by its short and its long name with the same modifier; a
modifier does not make it one label for two statistics; values are of their types, and different values are shown differently. -/
structure CountOk (S : SearchEnv) (o : OutEnv) (fields : List Field) (results : List EntInfo) : Prop where
  countable : ∀ f ∈ fields, f.type ≠ .listOfStrings
  distinct : fields.Pairwise (fun a b => a.same b = false)
  labels : ("_total".toList :: fields.map Field.label).Nodup
  typed : ∀ f ∈ fields, ∀ e ∈ results, ∀ v, S.attr e f.attr = some v → HasType f.type v
  shown : ∀ f ∈ fields, f.modifier ≠ some 'h' ∨
    ∀ e ∈ results, ∀ e' ∈ results, ∀ v v', S.attr e f.attr = some v → S.attr e' f.attr = some v' →
      f.type.output o f.modifier v = f.type.output o f.modifier v' → v = v'

theorem intStr_inj {a b : Int} {x : Nat} {s t : Str} (hs : NumeralIn x s a.natAbs) (ht : NumeralIn x t b.natAbs)
    (h : (if a < 0 then ['-'] else []) ++ s = (if b < 0 then ['-'] else []) ++ t) : a = b := by
  have hdash : ∀ {s : Str} {n : Nat}, NumeralIn x s n → ∀ r, s ≠ '-' :: r := by
    intro s n hs r e
    have := List.mem_of_mem_take (hs.2.1 '-' (by rw [e]; simp))
    exact absurd this (by decide)
  by_cases ha : a < 0 <;> by_cases hb : b < 0
  · rw [if_pos ha, if_pos hb] at h
    have : s = t := by simpa using h
    have := hs.2.2.1.symm.trans (this ▸ ht.2.2.1)
    omega
  · rw [if_pos ha, if_neg hb] at h
    exact absurd h.symm (hdash ht s)
  · rw [if_neg ha, if_pos hb] at h
    exact absurd h (hdash hs t)
  · rw [if_neg ha, if_neg hb] at h
    have : s = t := by simpa using h
    have := hs.2.2.1.symm.trans (this ▸ ht.2.2.1)
    omega

theorem output_inj (o : OutEnv) {ty : Ty} {m : Option Char} (hm : m ≠ some 'h') (hty : ty ≠ .listOfStrings) {v w : Val} (hv : HasType ty v) (hw : HasType ty w)
    (h : ty.output o m v = ty.output o m w) : v = w := by
  have hnum : ∀ a b : Int, numberOutput m a = numberOutput m b → a = b := by
    intro a b hab
    by_cases hx : m = some 'x'
    · obtain ⟨s, h1, h2⟩ := (C65_number o .number (by simp) a).1
      obtain ⟨t, h3, h4⟩ := (C65_number o .number (by simp) b).1
      have h1' : numberOutput m a = (if a < 0 then ['-'] else []) ++ s := by rw [hx]; exact h1
      have h3' : numberOutput m b = (if b < 0 then ['-'] else []) ++ t := by rw [hx]; exact h3
      exact intStr_inj h2 h4 (by rw [← h1', ← h3', hab])
    · by_cases ho : m = some 'o'
      · obtain ⟨s, h1, h2⟩ := (C65_number o .number (by simp) a).2
        obtain ⟨t, h3, h4⟩ := (C65_number o .number (by simp) b).2
        have h1' : numberOutput m a = (if a < 0 then ['-'] else []) ++ s := by rw [ho]; exact h1
        have h3' : numberOutput m b = (if b < 0 then ['-'] else []) ++ t := by rw [ho]; exact h3
        exact intStr_inj h2 h4 (by rw [← h1', ← h3', hab])
      · obtain ⟨s, h1, h2⟩ := intStr_spec a
        obtain ⟨t, h3, h4⟩ := intStr_spec b
        rw [numberOutput, if_neg hx, if_neg ho, numberOutput, if_neg hx, if_neg ho] at hab
        exact intStr_inj h2 h4 (by rw [← h1, ← h3, hab])
  cases ty <;> cases v <;> simp only [HasType] at hv <;> cases w <;> simp only [HasType] at hw <;>
    first
      | exact absurd rfl hty
      | (simp only [Ty.output, if_neg hm] at h; rw [hnum _ _ h])
      | (simp only [Ty.output] at h; rw [hnum _ _ h])
      | (have h' := h; simp only [Ty.output, valStr] at h'; rw [h'])
      | skip
  rename_i b1 b2
  cases b1 <;> cases b2 <;> first | rfl | exact absurd h (by simp [Ty.output, valStr, boolStr])

/-- The dictionary that is printed, for a field. -/
def statOf (S : SearchEnv) (o : OutEnv) (fields : List Field) (chunks : List (List EntInfo)) (f : Field) : Option PVal :=
  (getC (countLoop S fields chunks).fields f).map (prepareValue o f)

theorem prepareCount_perm {S : SearchEnv} {o : OutEnv} {fields : List Field} {chunks : List (List EntInfo)} {results : List EntInfo}
    (ok : CountOk S o fields results) (hr : chunks.flatten.Perm results) (hne : results ≠ []) :
    (prepareCount o (countLoop S fields chunks)).Perm (("_total".toList, .num results.length) ::
      fields.filterMap (fun f => (statOf S o fields chunks f).map (fun v => (f.label, v)))) := by
  have hloop : countLoop S fields chunks = collectCount S fields ⟨none, []⟩ chunks.flatten := countLoop_flatten S fields chunks _
  have hinv : CInv fields (countLoop S fields chunks).fields := by
    rw [hloop]
    exact collectCount_inv S fields _ _ ⟨by simp, by simp⟩
  have htot : (countLoop S fields chunks).total = some results.length := by
    rw [hloop, collectCount_total, if_neg, ← hr.length_eq]
    · simp
    · intro h
      rw [h] at hr
      exact hne (List.nil_perm.1 hr)
  unfold prepareCount
  rw [htot]
  have hl := ok.labels
  rw [List.nodup_cons] at hl
  have hlab : ∀ a ∈ fields, ∀ b ∈ fields, a.label = b.label → a = b := by
    have hp := List.pairwise_map.1 hl.2
    intro a ha b hb hab
    clear htot hinv hloop hr ok hl
    induction hp with
    | nil => simp at ha
    | @cons c cs h1 _ ih =>
      rcases List.mem_cons.1 ha with rfl | ha
      · rcases List.mem_cons.1 hb with rfl | hb
        · rfl
        · exact absurd hab (h1 b hb)
      · rcases List.mem_cons.1 hb with rfl | hb
        · exact absurd hab.symm (h1 a ‹a ∈ cs›)
        · exact ih ha hb
  have hfold := foldl_dictSet (fun fv : Field × CVal => fv.1.label) (fun fv => prepareValue o fv.1 fv.2) (countLoop S fields chunks).fields
    [("_total".toList, .num results.length)] (by
      rw [List.map_cons, List.map_nil, List.singleton_append, List.nodup_cons]
      refine ⟨?_, ?_⟩
      · intro h
        obtain ⟨fv, h1, h2⟩ := List.mem_map.1 h
        exact hl.1 (List.mem_map.2 ⟨fv.1, hinv.mem fv h1, h2⟩)
      · refine List.pairwise_map.2 ((List.pairwise_map.1 hinv.nodup).imp_of_mem ?_)
        intro a b ha hb hab e
        exact hab (hlab _ (hinv.mem a ha) _ (hinv.mem b hb) e))
  refine (List.Perm.of_eq hfold).trans ?_
  rw [List.singleton_append]
  refine List.Perm.cons _ ?_
  refine ((hinv.perm ok.distinct).map _).trans (List.Perm.of_eq ?_)
  rw [List.map_filterMap]
  congr 1
  funext f
  simp [statOf, Function.comp_def]

theorem statOf_total {S : SearchEnv} {o : OutEnv} {fields : List Field} {chunks : List (List EntInfo)} {results : List EntInfo}
    (ok : CountOk S o fields results) (hr : chunks.flatten.Perm results) {f : Field} (hf : f ∈ fields) (hs : f.type = .size ∨ f.type = .duration) :
    statOf S o fields chunks f = if results.filterMap (fun e => S.attr e f.attr) = [] then none else
      some (if f.modifier = none then .num (valueSum (fun e => S.attr e f.attr) results) else
        .text (f.type.output o f.modifier (.int (valueSum (fun e => S.attr e f.attr) results)))) := by
  unfold statOf
  have hloop : countLoop S fields chunks = collectCount S fields ⟨none, []⟩ chunks.flatten := countLoop_flatten S fields chunks _
  rw [hloop, collectCount_get S ok.distinct hf, fold_total f (fun e => S.attr e f.attr) hs _
    (fun e he v hv => ok.typed f hf e (hr.subset he) v hv), valueSum_perm hr]
  have hp := hr.filterMap (fun e => S.attr e f.attr)
  by_cases h : results.filterMap (fun e => S.attr e f.attr) = []
  · rw [if_pos h, if_pos (by rw [h] at hp; exact List.perm_nil.1 hp)]; rfl
  · rw [if_neg h, if_neg (by intro h'; rw [h'] at hp; exact h (List.nil_perm.1 hp))]
    simp only [Option.map_some, prepareValue, getC, List.find?_nil, Option.map_none, oldSum, Int.zero_add]

theorem statOf_hist {S : SearchEnv} {o : OutEnv} {fields : List Field} {chunks : List (List EntInfo)} {results : List EntInfo}
    (ok : CountOk S o fields results) (hr : chunks.flatten.Perm results) {f : Field} (hf : f ∈ fields) (hs : ¬ (f.type = .size ∨ f.type = .duration))
    {vs : List Val} (hvs : IsValues (fun e => S.attr e f.attr) results vs) :
    (vs = [] ∧ statOf S o fields chunks f = none) ∨ (vs ≠ [] ∧ ∃ d, statOf S o fields chunks f = some (.dict d) ∧ (d.map Prod.fst).Nodup ∧
      d.Perm (vs.map (fun v => (f.type.output o f.modifier v, valueCount (fun e => S.attr e f.attr) results v)))) := by
  have hc : f.type.count = .count := by
    have := ok.countable f hf
    cases hty : f.type <;> simp_all [Ty.count]
  unfold statOf
  have hloop : countLoop S fields chunks = collectCount S fields ⟨none, []⟩ chunks.flatten := countLoop_flatten S fields chunks _
  rw [hloop, collectCount_get S ok.distinct hf, fold_hist f (fun e => S.attr e f.attr) hc]
  have hp := hr.filterMap (fun e => S.attr e f.attr)
  have hnil : vs = [] ↔ chunks.flatten.filterMap (fun e => S.attr e f.attr) = [] := by
    constructor
    · intro h
      rw [List.eq_nil_iff_forall_not_mem]
      intro v hv
      obtain ⟨e, h1, h2⟩ := List.mem_filterMap.1 (hp.subset hv)
      have := (hvs.2 v).2 ⟨e, h1, h2⟩
      rw [h] at this
      simp at this
    · intro h
      rw [List.eq_nil_iff_forall_not_mem]
      intro v hv
      obtain ⟨e, h1, h2⟩ := (hvs.2 v).1 hv
      have := hp.symm.subset (List.mem_filterMap.2 ⟨e, h1, h2⟩)
      rw [h] at this
      simp at this
  by_cases h : vs = []
  · left
    rw [if_pos (hnil.1 h)]
    exact ⟨h, rfl⟩
  · right
    rw [if_neg (fun h' => h (hnil.2 h'))]
    refine ⟨h, _, rfl, ?_⟩
    obtain ⟨hi, hn⟩ := hist_fold (chunks.flatten.filterMap (fun e => S.attr e f.attr)) [] ⟨by simp, by simp⟩
    have hcount : ∀ v, getN ((chunks.flatten.filterMap (fun e => S.attr e f.attr)).foldl (fun h v => histAdd v h) []) v =
        valueCount (fun e => S.attr e f.attr) results v := by
      intro v
      rw [hn, count_filterMap, valueCount_perm hr]
      simp [getN]
    have hperm := hi.perm hvs.1 (fun v => by rw [hcount, valueCount_pos]; exact hvs.2 v)
    have hsub : ∀ v ∈ vs, ∃ e ∈ results, S.attr e f.attr = some v := fun v hv => (hvs.2 v).1 hv
    have hinj : ∀ v ∈ vs, ∀ w ∈ vs, f.type.output o f.modifier v = f.type.output o f.modifier w → v = w := by
      intro v hv w hw hvw
      obtain ⟨e, h1, h2⟩ := hsub v hv
      obtain ⟨e', h3, h4⟩ := hsub w hw
      rcases ok.shown f hf with h | h
      · exact output_inj o h (ok.countable f hf) (ok.typed f hf e h1 v h2) (ok.typed f hf e' h3 w h4) hvw
      · exact h e h1 e' h3 v w h2 h4 hvw
    have hnd : (vs.map (fun v => f.type.output o f.modifier v)).Nodup :=
      List.pairwise_map.2 (hvs.1.imp_of_mem (fun ha hb hab e => hab (hinj _ ha _ hb e)))
    have hnd' := ((hperm.map (fun kv => f.type.output o f.modifier kv.1)).nodup_iff).2 (by
      rw [List.map_map]; exact hnd)
    have hfold := foldl_dictSet (fun kv : Val × Nat => f.type.output o f.modifier kv.1) (fun kv => kv.2)
      ((chunks.flatten.filterMap (fun e => S.attr e f.attr)).foldl (fun h v => histAdd v h) []) [] (by simpa using hnd')
    have hfold' : _ = _ := hfold
    simp only [List.nil_append] at hfold'
    refine ⟨?_, ?_⟩
    · have : (List.foldl (fun d (kv : Val × Nat) => dictSet d (f.type.output o f.modifier kv.1) kv.2) []
        (oldHist none |> fun x => (chunks.flatten.filterMap (fun e => S.attr e f.attr)).foldl (fun h v => histAdd v h) x)).map Prod.fst =
          ((chunks.flatten.filterMap (fun e => S.attr e f.attr)).foldl (fun h v => histAdd v h) []).map (fun kv => f.type.output o f.modifier kv.1) := by
        refine (congrArg (List.map Prod.fst) hfold').trans ?_
        rw [List.map_map]
        rfl
      exact this ▸ hnd'
    · refine (List.Perm.of_eq hfold').trans ?_
      refine (hperm.map _).trans (List.Perm.of_eq ?_)
      rw [List.map_map]
      apply List.map_congr_left
      intro v _
      exact congrArg (fun n => (f.type.output o f.modifier v, n)) (hcount v)

theorem isValues_nil {α : Type} {value : α → Option Val} {l : List α} {vs : List Val} (h : IsValues value l vs) : vs = [] ↔ l.filterMap value = [] := by
  rw [List.eq_nil_iff_forall_not_mem, List.eq_nil_iff_forall_not_mem]
  constructor
  · intro h1 v hv
    obtain ⟨e, h2, h3⟩ := List.mem_filterMap.1 hv
    exact h1 v ((h.2 v).2 ⟨e, h2, h3⟩)
  · intro h1 v hv
    obtain ⟨e, h2, h3⟩ := (h.2 v).1 hv
    exact h1 v (List.mem_filterMap.2 ⟨e, h2, h3⟩)

theorem sortHist_perm {D : DigitEnv} {d d' : List (Str × Nat)} (h : sortHist D d = some d') : d'.Perm d := by
  unfold sortHist at h
  cases hm : mapOption (fun kv => (histKey D kv.1).map (fun k => (k, kv))) d with
  | none => rw [hm] at h; simp at h
  | some ks =>
    rw [hm] at h
    simp only at h
    split at h
    · have hk : ks.map Prod.snd = d := by
        have := mapOption_eq_some hm
        rename_i hall
        clear h hm hall
        induction d generalizing ks with
        | nil => cases ks with
          | nil => rfl
          | cons => simp at this
        | cons x xs ih => cases ks with
          | nil => simp at this
          | cons k ks =>
            simp only [List.map_cons, List.cons.injEq] at this
            have h2 : k.2 = x := by
              cases hx : histKey D x.1 with
              | none => rw [hx] at this; simp at this
              | some a => rw [hx] at this; rw [← Option.some.inj this.1]
            rw [List.map_cons, ih _ this.2, h2]
      rw [← Option.some.inj h]
      refine ((pySort_perm _ ks).map Prod.snd).trans (List.Perm.of_eq hk)
    · simp at h

theorem flatten_filterMap {α β : Type} {g : β → Option (List Str)} {h : α → Option β} {T : α → List Str} {l : List α}
    (hT : ∀ a ∈ l, (h a = none → T a = []) ∧ ∀ b, h a = some b → ∀ ys, g b = some ys → ys.Perm (T a)) :
    ∀ {yss}, mapOption g (l.filterMap h) = some yss → yss.flatten.Perm (l.flatMap T) := by
  induction l with
  | nil => intro yss hy; simp [mapOption] at hy; simp [hy]
  | cons a l ih =>
    intro yss hy
    have ih := @ih (fun x hx => hT x (by simp [hx]))
    rw [List.filterMap_cons] at hy
    rw [List.flatMap_cons]
    cases ha : h a with
    | none =>
      rw [ha] at hy
      rw [(hT a (by simp)).1 ha, List.nil_append]
      exact ih hy
    | some b =>
      rw [ha] at hy
      simp only [mapOption] at hy
      cases hb : g b with
      | none => rw [hb] at hy; simp at hy
      | some ys =>
        cases hm : mapOption g (l.filterMap h) with
        | none => rw [hb, hm] at hy; simp at hy
        | some yss' =>
          rw [hb, hm] at hy
          rw [← Option.some.inj hy, List.flatten_cons]
          exact ((hT a (by simp)).2 b ha ys hb).append (ih hm)

/-- C38: the lines printed by `--count` are the number of results, for each size and duration the sum of its values, and for every other attribute one
line for each of its values with the number of results that have this value. This does not depend on how the results are divided into chunks and in
what order they arrive. (Partial: `CountOk`.) -/
theorem C38_lines_partial (S : SearchEnv) (D : DigitEnv) (o : OutEnv) (fields : List Field) (chunks : List (List EntInfo)) (results : List EntInfo)
    (ok : CountOk S o fields results) (hr : chunks.flatten.Perm results) (hne : results ≠ [])
    (vs : Field → List Val) (hvs : ∀ f ∈ fields, IsValues (fun e => S.attr e f.attr) results (vs f)) (lines : List Str)
    (h : printCount D (prepareCount o (countLoop S fields chunks)) = some lines) :
    lines.Perm (("_total=".toList ++ natStr results.length) ::
      fields.flatMap (fun f => statLines natStr f.type f.label (f.type.output o f.modifier) (fun e => S.attr e f.attr) results (vs f))) := by
  unfold printCount at h
  cases hm : mapOption (fun kv => printValue D kv.1 kv.2) (pySort (fun a b => strLe a.1 b.1) (prepareCount o (countLoop S fields chunks))) with
  | none => rw [hm] at h; simp at h
  | some yss =>
    rw [hm] at h
    rw [← Option.some.inj h]
    obtain ⟨yss', h1, h2⟩ := mapOption_perm ((pySort_perm _ _).trans (prepareCount_perm ok hr hne)) hm
    refine h2.flatten.trans ?_
    obtain ⟨l, zss, h3, hm', rfl⟩ := (mapOption_cons_some _ _ _).1 h1
    simp only [printValue, Option.some.injEq] at h3
    · rw [← h3, List.flatten_cons]
      have hN : "_total".toList ++ '=' :: intStr (results.length : Int) = "_total=".toList ++ natStr results.length := by
        have : intStr (results.length : Int) = natStr results.length := by
          unfold intStr; rw [if_neg (by omega)]; rfl
        rw [this]; rfl
      rw [hN]
      refine List.Perm.cons _ ?_
      refine flatten_filterMap ?_ hm'
      intro f hf
      by_cases hs : f.type = .size ∨ f.type = .duration
      · have hst := statOf_total ok hr hf hs
        have hnil := isValues_nil (hvs f hf)
        unfold statLines
        rw [if_pos hs]
        refine ⟨?_, ?_⟩
        · intro hnone
          rw [hst] at hnone
          by_cases h0 : results.filterMap (fun e => S.attr e f.attr) = []
          · rw [if_pos (hnil.2 h0)]
          · rw [if_neg h0] at hnone; simp at hnone
        · intro b hb ys hys
          rw [hst] at hb
          by_cases h0 : results.filterMap (fun e => S.attr e f.attr) = []
          · rw [if_pos h0] at hb; simp at hb
          · rw [if_neg h0] at hb
            rw [if_neg (fun h' => h0 (hnil.1 h'))]
            simp only [Option.map_some, Option.some.injEq] at hb
            subst hb
            have hout : f.modifier = none → ∀ n, f.type.output o f.modifier (.int n) = intStr n := by
              intro hmod n
              rw [hmod]
              rcases hs with h | h <;> rw [h] <;> rfl
            by_cases hmod : f.modifier = none
            · simp only [hmod, if_true, printValue, Option.some.injEq] at hys
              rw [← hys, hout hmod]
              exact List.Perm.of_eq (by simp)
            · simp only [if_neg hmod, printValue, Option.some.injEq] at hys
              rw [← hys]
              exact List.Perm.of_eq (by simp)
      · unfold statLines
        rw [if_neg hs]
        rcases statOf_hist ok hr hf hs (hvs f hf) with ⟨h0, h3⟩ | ⟨h0, d, h3, _, h4⟩
        · rw [h3, h0]
          exact ⟨fun _ => rfl, fun b hb => by simp at hb⟩
        · rw [h3]
          refine ⟨fun hb => by simp at hb, fun b hb ys hys => ?_⟩
          simp only [Option.map_some, Option.some.injEq] at hb
          subst hb
          simp only [printValue] at hys
          cases hsd : sortHist D d with
          | none => rw [hsd] at hys; simp at hys
          | some d' =>
            rw [hsd] at hys
            rw [← Option.some.inj hys]
            refine (((sortHist_perm hsd).trans h4).map _).trans (List.Perm.of_eq ?_)
            rw [List.map_map]
            apply List.map_congr_left
            intro v _
            simp

/-! ### JSON -/

/-- The JSON value of a statistic. -/
def PVal.toJV : PVal → JV
  | .num n => .num n
  | .text s => .str s
  | .dict d => .obj ((pySort (fun a b => strLe a.1 b.1) d).map (fun kv => (kv.1, .num kv.2)))

theorem jmembers {α : Type} (k : α → Str) (v : α → JV) (t : α → Str) (l : List α) (h : ∀ x, JText (v x) (t x)) :
    JMembers (l.map (fun x => (k x, v x))) (joinStr ", ".toList (l.map (fun x => jsonStr (k x) ++ ": ".toList ++ t x))) := by
  induction l with
  | nil => exact .nil
  | cons a as ih => cases as with
    | nil =>
      have := JMembers.one (sp := [' ']) (jsonStr_spec (k a)) jspace_one (h a)
      simpa [joinStr] using this
    | cons b bs =>
      have := JMembers.cons (sp := [' ']) (sp' := [' ']) (jsonStr_spec (k a)) jspace_one (h a) jspace_one ih
      simpa [joinStr] using this

theorem jsonPVal_spec (v : PVal) : JText v.toJV (jsonPVal v) := by
  have hnat : ∀ n : Nat, JText (.num n) (natStr n) := by
    intro n
    obtain ⟨s, h1, h2⟩ := intStr_spec n
    have : intStr (n : Int) = natStr n := by unfold intStr; rw [if_neg (by omega)]; rfl
    rw [← this]
    exact .num ⟨s, h2, h1⟩
  match v with
  | .num n =>
    obtain ⟨s, h1, h2⟩ := intStr_spec n
    exact .num ⟨s, h2, h1⟩
  | .text s => exact .str (jsonStr_spec s)
  | .dict d =>
    have := JText.obj (jmembers (fun kv : Str × Nat => kv.1) (fun kv => .num kv.2) (fun kv => natStr kv.2) (pySort (fun a b => strLe a.1 b.1) d)
      (fun kv => hnat kv.2))
    exact this

theorem jsonCount_spec (d : List (Str × PVal)) : ∃ t, jsonCount d = t ++ ['\n'] ∧
    JText (.obj ((pySort (fun a b => strLe a.1 b.1) d).map (fun kv => (kv.1, kv.2.toJV)))) t := by
  refine ⟨_, ?_, JText.obj (jmembers (fun kv : Str × PVal => kv.1) (fun kv => kv.2.toJV) (fun kv => jsonPVal kv.2) _ (fun kv => jsonPVal_spec kv.2))⟩
  simp [jsonCount]

/-- A list of the values of an attribute. -/
theorem exists_values {α : Type} (value : α → Option Val) (l : List α) : ∃ vs, IsValues value l vs := by
  induction l with
  | nil => exact ⟨[], by simp, by simp⟩
  | cons e es ih =>
    obtain ⟨vs, h1, h2⟩ := ih
    cases hv : value e with
    | none => exact ⟨vs, h1, fun v => by simp [h2, hv]⟩
    | some w =>
      by_cases hw : w ∈ vs
      · refine ⟨vs, h1, fun v => ?_⟩
        rw [h2]
        constructor
        · rintro ⟨x, hx, hxv⟩; exact ⟨x, by simp [hx], hxv⟩
        · rintro ⟨x, hx, hxv⟩
          rcases List.mem_cons.1 hx with rfl | hx
          · rw [hv] at hxv
            rw [← Option.some.inj hxv]
            exact (h2 w).1 hw
          · exact ⟨x, hx, hxv⟩
      · refine ⟨w :: vs, List.nodup_cons.2 ⟨hw, h1⟩, fun v => ?_⟩
        rw [List.mem_cons, h2]
        constructor
        · rintro (rfl | ⟨x, hx, hxv⟩)
          · exact ⟨e, by simp, hv⟩
          · exact ⟨x, by simp [hx], hxv⟩
        · rintro ⟨x, hx, hxv⟩
          rcases List.mem_cons.1 hx with rfl | hx
          · rw [hv] at hxv; exact Or.inl (Option.some.inj hxv).symm
          · exact Or.inr ⟨x, hx, hxv⟩

/-- C38: with `--json` the statistics are one JSON object that has exactly these members, each of them once: the number of results and for each
attribute that some result has its sum or the numbers of results for each of its values. (Partial: `CountOk`.) -/
theorem C38_json_partial (S : SearchEnv) (o : OutEnv) (fields : List Field) (chunks : List (List EntInfo)) (results : List EntInfo)
    (ok : CountOk S o fields results) (hr : chunks.flatten.Perm results) (hne : results ≠ []) :
    ∃ t members, jsonCount (prepareCount o (countLoop S fields chunks)) = t ++ ['\n'] ∧ JText (.obj members) t ∧
      (members.map Prod.fst).Nodup ∧ ("_total".toList, .num results.length) ∈ members ∧
      (∀ f ∈ fields, ∀ j, (f.label, j) ∈ members → IsStat f.type (f.modifier = none) (f.type.output o f.modifier) (fun e => S.attr e f.attr) results j) ∧
      (∀ f ∈ fields, (∃ e ∈ results, S.attr e f.attr ≠ none) → ∃ j, (f.label, j) ∈ members) ∧
      (∀ k ∈ members.map Prod.fst, k = "_total".toList ∨ ∃ f ∈ fields, k = f.label) := by
  obtain ⟨t, h1, h2⟩ := jsonCount_spec (prepareCount o (countLoop S fields chunks))
  refine ⟨t, _, h1, h2, ?_⟩
  have hperm := ((pySort_perm (fun a b : Str × PVal => strLe a.1 b.1) _).trans (prepareCount_perm ok hr hne))
  generalize pySort (fun a b : Str × PVal => strLe a.1 b.1) (prepareCount o (countLoop S fields chunks)) = s at hperm h2
  have hkeys : (s.map (fun kv => (kv.1, kv.2.toJV))).map Prod.fst = s.map Prod.fst := by rw [List.map_map]; rfl
  have hl := ok.labels
  rw [List.nodup_cons] at hl
  have hsub : ∀ fs : List Field, ((fs.filterMap (fun f => (statOf S o fields chunks f).map (fun v => (f.label, v)))).map Prod.fst).Sublist (fs.map Field.label) := by
    intro fs
    induction fs with
    | nil => exact .slnil
    | cons f fs ih =>
      rw [List.filterMap_cons]
      cases statOf S o fields chunks f with
      | none => exact .cons _ ih
      | some v => exact .cons_cons _ ih
  have hmem : ∀ k j, (k, j) ∈ s.map (fun kv => (kv.1, kv.2.toJV)) ↔ (k = "_total".toList ∧ j = .num results.length) ∨
      ∃ f ∈ fields, k = f.label ∧ ∃ v, statOf S o fields chunks f = some v ∧ j = v.toJV := by
    intro k j
    rw [List.mem_map]
    constructor
    · rintro ⟨kv, hkv, e⟩
      obtain ⟨rfl, rfl⟩ := Prod.mk.inj e
      rcases List.mem_cons.1 (hperm.subset hkv) with h | h
      · left; rw [h]; exact ⟨rfl, rfl⟩
      · right
        obtain ⟨f, hf, h⟩ := List.mem_filterMap.1 h
        cases hs : statOf S o fields chunks f with
        | none => rw [hs] at h; simp at h
        | some v =>
          rw [hs] at h
          rw [← Option.some.inj h]
          exact ⟨f, hf, rfl, v, hs, rfl⟩
    · rintro (⟨rfl, rfl⟩ | ⟨f, hf, rfl, v, hv, rfl⟩)
      · exact ⟨("_total".toList, .num results.length), hperm.symm.subset (by simp), rfl⟩
      · refine ⟨(f.label, v), hperm.symm.subset ?_, rfl⟩
        rw [List.mem_cons, List.mem_filterMap]
        exact Or.inr ⟨f, hf, by rw [hv]; rfl⟩
  have hlab : ∀ a ∈ fields, ∀ b ∈ fields, a.label = b.label → a = b := by
    have hp := List.pairwise_map.1 hl.2
    intro a ha b hb hab
    clear hmem hsub hl hkeys h2 hperm h1 ok hr
    induction hp with
    | nil => simp at ha
    | @cons c cs h1 _ ih =>
      rcases List.mem_cons.1 ha with rfl | ha
      · rcases List.mem_cons.1 hb with rfl | hb
        · rfl
        · exact absurd hab (h1 b hb)
      · rcases List.mem_cons.1 hb with rfl | hb
        · exact absurd hab.symm (h1 a ‹a ∈ cs›)
        · exact ih ha hb
  refine ⟨?_, (hmem _ _).2 (Or.inl ⟨rfl, rfl⟩), ?_, ?_, ?_⟩
  · rw [hkeys]
    refine ((hperm.map Prod.fst).nodup_iff).2 ?_
    rw [List.map_cons, List.nodup_cons]
    exact ⟨fun h => hl.1 ((hsub fields).subset h), hl.2.sublist (hsub fields)⟩
  · intro f hf j hj
    rcases (hmem _ _).1 hj with ⟨h, _⟩ | ⟨g, hg, hfg, v, hv, rfl⟩
    · exact absurd (List.mem_map.2 ⟨f, hf, h⟩) hl.1
    · have hgf := hlab f hf g hg hfg
      subst hgf
      by_cases hs : f.type = .size ∨ f.type = .duration
      · rw [statOf_total ok hr hf hs] at hv
        by_cases h0 : results.filterMap (fun e => S.attr e f.attr) = []
        · rw [if_pos h0] at hv; simp at hv
        · rw [if_neg h0] at hv
          refine ⟨?_, ?_⟩
          · obtain ⟨v, hv⟩ := List.exists_mem_of_ne_nil _ h0
            obtain ⟨e, he, hev⟩ := List.mem_filterMap.1 hv
            exact ⟨e, he, by simp [hev]⟩
          · rw [if_pos hs, ← Option.some.inj hv]
            by_cases hm : f.modifier = none <;> simp [hm, PVal.toJV]
      · obtain ⟨vs, hvs⟩ := exists_values (fun e => S.attr e f.attr) results
        rcases statOf_hist ok hr hf hs hvs with ⟨_, h⟩ | ⟨hne', d, h, hnd, hp⟩
        · rw [h] at hv; simp at hv
        · rw [h] at hv
          rw [← Option.some.inj hv]
          have hp' := (pySort_perm (fun a b : Str × Nat => strLe a.1 b.1) d)
          refine ⟨?_, ?_⟩
          · obtain ⟨v, hv⟩ := List.exists_mem_of_ne_nil _ hne'
            obtain ⟨e, he, hev⟩ := (hvs.2 v).1 hv
            exact ⟨e, he, by simp [hev]⟩
          · rw [if_neg hs]
            refine ⟨_, rfl, ((hp'.map Prod.fst).nodup_iff).2 hnd, fun k n => ?_⟩
            rw [(hp'.trans hp).mem_iff, List.mem_map]
            constructor
            · rintro ⟨v, hv, e⟩
              obtain ⟨rfl, rfl⟩ := Prod.mk.inj e
              exact ⟨v, rfl, rfl, valueCount_pos.2 ((hvs.2 v).1 hv)⟩
            · rintro ⟨v, rfl, rfl, h0⟩
              exact ⟨v, (hvs.2 v).2 (valueCount_pos.1 h0), rfl⟩
  · rintro f hf ⟨e, he, hev⟩
    cases hst : statOf S o fields chunks f with
    | some v => exact ⟨_, (hmem _ _).2 (Or.inr ⟨f, hf, rfl, v, hst, rfl⟩)⟩
    | none =>
      exfalso
      cases hx : S.attr e f.attr with
      | none => exact hev hx
      | some x =>
        by_cases hs : f.type = .size ∨ f.type = .duration
        · rw [statOf_total ok hr hf hs, if_neg] at hst
          · simp at hst
          · intro h0
            have := (List.mem_filterMap (f := fun e => S.attr e f.attr)).2 ⟨e, he, hx⟩
            rw [h0] at this
            simp at this
        · obtain ⟨vs, hvs⟩ := exists_values (fun e => S.attr e f.attr) results
          rcases statOf_hist ok hr hf hs hvs with ⟨h0, _⟩ | ⟨_, d, h, _⟩
          · have := (hvs.2 x).2 ⟨e, he, hx⟩
            rw [h0] at this
            simp at this
          · rw [h] at hst; simp at hst
  · intro k hk
    obtain ⟨⟨k', j⟩, hkj, rfl⟩ := List.mem_map.1 hk
    rcases (hmem _ _).1 hkj with ⟨h, _⟩ | ⟨f, hf, h, _⟩
    · exact Or.inl h
    · exact Or.inr ⟨f, hf, h⟩

/-! ### `--count` never fails -/

theorem countUpdate_mem {g k : Field} {F : Option CVal → CVal} {d : List (Field × CVal)} {c : CVal} (h : (k, c) ∈ countUpdate g F d) :
    (k, c) ∈ d ∨ (k = g ∧ c = F none) ∨ ∃ c0, (k, c0) ∈ d ∧ k.same g = true ∧ c = F (some c0) := by
  induction d with
  | nil =>
    simp only [countUpdate, List.mem_singleton, Prod.mk.injEq] at h
    exact Or.inr (Or.inl h)
  | cons kv d ih =>
    obtain ⟨k', v⟩ := kv
    rw [countUpdate] at h
    by_cases hk : k'.same g = true
    · rw [if_pos hk] at h
      rcases List.mem_cons.1 h with h | h
      · obtain ⟨rfl, rfl⟩ := Prod.mk.inj h
        exact Or.inr (Or.inr ⟨v, by simp, hk, rfl⟩)
      · exact Or.inl (by simp [h])
    · rw [if_neg hk] at h
      rcases List.mem_cons.1 h with h | h
      · exact Or.inl (by simp [h])
      · rcases ih h with h | h | ⟨c0, h1, h2⟩
        · exact Or.inl (by simp [h])
        · exact Or.inr (Or.inl h)
        · exact Or.inr (Or.inr ⟨c0, by simp [h1], h2⟩)

theorem histAdd_mem {v w : Val} {n : Nat} {h : List (Val × Nat)} (hm : (w, n) ∈ histAdd v h) : w = v ∨ ∃ m, (w, m) ∈ h := by
  have : w ∈ (histAdd v h).map Prod.fst := List.mem_map_of_mem (f := Prod.fst) hm
  rcases (histAdd_keys v h w).1 this with h | h
  · exact Or.inl h
  · obtain ⟨kv, h1, h2⟩ := List.mem_map.1 h
    exact Or.inr ⟨kv.2, by rw [← h2]; exact h1⟩

/-- What is counted are values of the entries. -/
def Counted (value : Attr → Val → Prop) (fields : List Field) (d : List (Field × CVal)) : Prop :=
  ∀ k c, (k, c) ∈ d → k ∈ fields ∧ ∀ h, c = .hist h → k.type.count = .count ∧ ∀ v n, (v, n) ∈ h → value k.attr v

theorem Counted.collectField {value : Attr → Val → Prop} {fields : List Field} {d : List (Field × CVal)} (h : Counted value fields d) {attr : Attr → Option Val}
    (ha : ∀ a v, attr a = some v → value a v) {g : Field} (hg : g ∈ fields) : Counted value fields (collectField attr d g) := by
  unfold FF.collectField
  cases hv : attr g.attr with
  | none => exact h
  | some v =>
    cases hc : g.type.count with
    | uncountable => exact h
    | total =>
      intro k c hkc
      rcases countUpdate_mem hkc with h1 | ⟨rfl, h2⟩ | ⟨c0, h1, _, h3⟩
      · exact h k c h1
      · exact ⟨hg, fun h' e => by rw [h2] at e; exact CVal.noConfusion e⟩
      · exact ⟨(h k c0 h1).1, fun h' e => by rw [h3] at e; exact CVal.noConfusion e⟩
    | count =>
      intro k c hkc
      rcases countUpdate_mem hkc with h1 | ⟨rfl, h2⟩ | ⟨c0, h1, hs, h3⟩
      · exact h k c h1
      · refine ⟨hg, fun h' e => ⟨hc, fun w n hw => ?_⟩⟩
        rw [h2] at e
        simp only [histStep, CVal.hist.injEq] at e
        rw [← e] at hw
        rcases histAdd_mem hw with rfl | ⟨m, hm⟩
        · exact ha _ _ hv
        · simp at hm
      · refine ⟨(h k c0 h1).1, fun h' e => ?_⟩
        obtain ⟨h4, h5, _⟩ := same_iff.1 hs
        refine ⟨by rw [h5]; exact hc, fun w n hw => ?_⟩
        rw [h3] at e
        simp only [histStep, CVal.hist.injEq] at e
        rw [← e] at hw
        rcases histAdd_mem hw with rfl | ⟨m, hm⟩
        · rw [h4]; exact ha _ _ hv
        · cases c0 with
          | sum => simp at hm
          | hist h0 => exact ((h k _ h1).2 h0 rfl).2 w m hm

theorem countLoop_counted (S : SearchEnv) (fields : List Field) (chunks : List (List EntInfo)) :
    Counted (fun a v => ∃ e ∈ chunks.flatten, S.attr e a = some v) fields (countLoop S fields chunks).fields := by
  have hloop : countLoop S fields chunks = collectCount S fields ⟨none, []⟩ chunks.flatten := countLoop_flatten S fields chunks _
  rw [hloop]
  have key : ∀ (entries : List EntInfo) (c : CountState), (∀ e ∈ entries, e ∈ chunks.flatten) →
      Counted (fun a v => ∃ e ∈ chunks.flatten, S.attr e a = some v) fields c.fields →
      Counted (fun a v => ∃ e ∈ chunks.flatten, S.attr e a = some v) fields (collectCount S fields c entries).fields := by
    intro entries
    induction entries with
    | nil => intro c _ h; exact h
    | cons e es ih =>
      intro c he h
      refine ih (collectEntry fields c (S.attr e)) (fun x hx => he x (by simp [hx])) ?_
      have hf : ∀ (fs : List Field) d, (∀ g ∈ fs, g ∈ fields) → Counted (fun a v => ∃ e ∈ chunks.flatten, S.attr e a = some v) fields d →
          Counted (fun a v => ∃ e ∈ chunks.flatten, S.attr e a = some v) fields (fs.foldl (FF.collectField (S.attr e)) d) := by
        intro fs
        induction fs with
        | nil => intro d _ h; exact h
        | cons g fs ih' =>
          intro d hg hd
          exact ih' _ (fun x hx => hg x (by simp [hx])) (hd.collectField (fun a v hav => ⟨e, he e (by simp), hav⟩) (hg g (by simp)))
      exact hf fields c.fields (fun g hg => hg) h
  exact key chunks.flatten ⟨none, []⟩ (fun e he => he) (by intro k c h; simp at h)

theorem foldl_dictSet_mem {α κ ν : Type} [DecidableEq κ] {k : α → κ} {v : α → ν} {l : List α} : ∀ {d : List (κ × ν)} {p : κ × ν},
    p ∈ l.foldl (fun d x => dictSet d (k x) (v x)) d → p ∈ d ∨ ∃ x ∈ l, p = (k x, v x) := by
  induction l with
  | nil => intro d p h; exact Or.inl h
  | cons x xs ih =>
    intro d p h
    rcases ih h with h | ⟨y, hy, h⟩
    · rcases dictSet_mem h with h | h
      · exact Or.inr ⟨x, by simp, h⟩
      · exact Or.inl h
    · exact Or.inr ⟨y, by simp [hy], h⟩

theorem foldl_dictSet_keep {α κ ν : Type} [DecidableEq κ] {k : α → κ} {v : α → ν} {l : List α} {p : κ × ν} (hk : ∀ x ∈ l, k x ≠ p.1) :
    ∀ {d : List (κ × ν)}, p ∈ d → p ∈ l.foldl (fun d x => dictSet d (k x) (v x)) d := by
  have hset : ∀ (d : List (κ × ν)) (key : κ) (val : ν), key ≠ p.1 → p ∈ d → p ∈ dictSet d key val := by
    intro d key val hne h
    induction d with
    | nil => simp at h
    | cons q d ih =>
      obtain ⟨a, b⟩ := q
      rw [dictSet]
      by_cases ha : a = key
      · rw [if_pos ha]
        rcases List.mem_cons.1 h with h | h
        · rw [h] at hne; exact absurd ha.symm hne
        · simp [h]
      · rw [if_neg ha]
        rcases List.mem_cons.1 h with h | h
        · simp [h]
        · simp [ih h]
  induction l with
  | nil => intro d h; exact h
  | cons x xs ih =>
    intro d h
    exact ih (fun y hy => hk y (by simp [hy])) (hset d _ _ (hk x (by simp)) h)

/-- The kinds of keys that can be sorted: all of them are numbers, or none. -/
def SortableKeys (D : DigitEnv) (keys : Str → Prop) : Prop :=
  (∀ s, keys s → ∃ n, NumRun D.dec s n) ∨ (∀ s, keys s → s = [] ∨ ∃ c ∈ s, D.isdigit c = false)

theorem sortHist_isSome {D : DigitEnv} {d : List (Str × Nat)} {keys : Str → Prop} (hk : SortableKeys D keys) (h : ∀ kv ∈ d, keys kv.1) :
    (sortHist D d).isSome = true := by
  have main : ∀ key : Str → NatPart, (∀ kv ∈ d, histKey D kv.1 = some (key kv.1)) →
      (∀ a ∈ d, ∀ b ∈ d, (NatPart.lt (key a.1) (key b.1)).isSome = true) → (sortHist D d).isSome = true := by
    intro key h1 h2
    unfold sortHist
    rw [mapOption_some (g := fun kv => (key kv.1, kv)) (fun kv hkv => by rw [h1 kv hkv]; rfl)]
    simp only
    rw [if_pos]
    · rfl
    · simp only [List.all_map, List.all_eq_true, Function.comp_apply]
      intro a ha b hb
      exact h2 a ha b hb
  rcases hk with hk | hk
  · refine main (fun s => .num ((digitsInt D s).getD 0)) (fun kv hkv => ?_) (fun a _ b _ => rfl)
    obtain ⟨n, hn⟩ := hk _ (h kv hkv)
    unfold histKey
    rw [natToken_num hn, hn.spec.2.2]; rfl
  · refine main (fun s => .text s) (fun kv hkv => ?_) (fun a _ b _ => rfl)
    unfold histKey natToken
    rw [if_neg]
    rcases hk _ (h kv hkv) with e | ⟨c, hc, hd⟩
    · simp [strIsDigit, e]
    · simp only [strIsDigit, Bool.and_eq_true, List.all_eq_true, not_and]
      intro _ hall
      rw [hall c hc] at hd
      exact absurd hd (by simp)

/-- C39: with at least one result the statistics are printed and have a line with the number of results, if for each attribute that is counted by its
values either all of them are shown as numbers or none. (What is missing: `C39_false`, `C39_mixed_false`.) -/
theorem C39_partial (S : SearchEnv) (D : DigitEnv) (o : OutEnv) (fields : List Field) (chunks : List (List EntInfo)) (hne : chunks.flatten ≠ [])
    (hl : ∀ f ∈ fields, f.label ≠ "_total".toList)
    (hk : ∀ f ∈ fields, f.type ≠ .size → f.type ≠ .duration →
      SortableKeys D (fun s => ∃ e ∈ chunks.flatten, ∃ v, S.attr e f.attr = some v ∧ s = f.type.output o f.modifier v)) :
    ∃ lines, printCount D (prepareCount o (countLoop S fields chunks)) = some lines ∧ ("_total=".toList ++ natStr chunks.flatten.length) ∈ lines := by
  have hloop : countLoop S fields chunks = collectCount S fields ⟨none, []⟩ chunks.flatten := countLoop_flatten S fields chunks _
  have htot : (countLoop S fields chunks).total = some chunks.flatten.length := by
    rw [hloop, collectCount_total, if_neg hne]
    simp
  have hcounted := countLoop_counted S fields chunks
  have hmem : ("_total".toList, PVal.num chunks.flatten.length) ∈ prepareCount o (countLoop S fields chunks) := by
    unfold prepareCount
    rw [htot]
    exact foldl_dictSet_keep (fun fv hfv => hl fv.1 (hcounted fv.1 fv.2 hfv).1) (by simp)
  have hsome : ∀ kv ∈ prepareCount o (countLoop S fields chunks), (printValue D kv.1 kv.2).isSome = true := by
    intro kv hkv
    unfold prepareCount at hkv
    rw [htot] at hkv
    rcases foldl_dictSet_mem hkv with h | ⟨⟨f, c⟩, hfc, rfl⟩
    · rw [List.mem_singleton.1 h]; rfl
    · cases c with
      | sum n =>
        simp only [prepareValue]
        split <;> rfl
      | hist h =>
        obtain ⟨hf, hh⟩ := hcounted f _ hfc
        obtain ⟨hc, hv⟩ := hh h rfl
        simp only [prepareValue, printValue, Option.isSome_map]
        refine sortHist_isSome (hk f hf (fun e => by rw [e] at hc; exact absurd hc (by decide)) (fun e => by rw [e] at hc; exact absurd hc (by decide))) ?_
        intro kv hkv
        rcases foldl_dictSet_mem hkv with h' | ⟨⟨v, n⟩, hvn, rfl⟩
        · simp at h'
        · obtain ⟨e, he, hev⟩ := hv v n hvn
          exact ⟨e, he, v, hev, rfl⟩
  have hp := pySort_perm (fun a b : Str × PVal => strLe a.1 b.1) (prepareCount o (countLoop S fields chunks))
  have hm : ∃ yss, mapOption (fun kv => printValue D kv.1 kv.2) (pySort (fun a b => strLe a.1 b.1) (prepareCount o (countLoop S fields chunks))) = some yss :=
    ⟨_, mapOption_some (g := fun kv : Str × PVal => (printValue D kv.1 kv.2).getD []) (fun kv hkv => by
      have := hsome kv (hp.subset hkv)
      cases hx : printValue D kv.1 kv.2 with
      | none => rw [hx] at this; simp at this
      | some x => rfl)⟩
  obtain ⟨yss, hm⟩ := hm
  refine ⟨yss.flatten, by unfold printCount; rw [hm]; rfl, ?_⟩
  have hx := mapOption_eq_some hm
  have : some ["_total=".toList ++ natStr chunks.flatten.length] ∈ yss.map some := by
    rw [← hx]
    refine List.mem_map.2 ⟨_, hp.symm.subset hmem, ?_⟩
    have hN : intStr (chunks.flatten.length : Int) = natStr chunks.flatten.length := by
      unfold intStr; rw [if_neg (by omega)]; rfl
    simp only [printValue, hN]
    rfl
  obtain ⟨y, hy, hy'⟩ := List.mem_map.1 this
  rw [List.mem_flatten]
  exact ⟨y, hy, by rw [Option.some.inj hy']; simp⟩

/-! ### Instances -/

/-- Files that are as large as their names are long. -/
def demoSizes : SearchEnv := { demoSearch with stat := fun i n => if n = "size".toList then some (.int i.relpath.length) else none }

def plainSize : Field := ⟨("file".toList, "size".toList), "size".toList, .size, none, none⟩
def humanSize : Field := ⟨("file".toList, "size".toList), "size".toList, .size, none, some 'h'⟩
def longSize : Field := ⟨("file".toList, "size".toList), "file.size".toList, .size, none, none⟩
def extField : Field := ⟨("file".toList, "ext".toList), "ext".toList, .string, none, none⟩
def demoOut : OutEnv := ⟨false, fun _ => 0⟩

/-- `--count size,size`: a file with 5 bytes is said to have 10. -/
theorem C38_false : printCount asciiDigits (prepareCount demoOut (countLoop demoSizes [plainSize, plainSize] [[demoNamed "a.txt".toList]])) =
    some ["_total=1".toList, "size=10".toList] := by decide

/-- The same with `--count size,file.size`. -/
theorem C38_names_false : printCount asciiDigits (prepareCount demoOut (countLoop demoSizes [plainSize, longSize] [[demoNamed "a.txt".toList]])) =
    some ["_total=1".toList, "size=10".toList] := by decide

/-- Files of 5000 bytes. -/
def demoLarge : SearchEnv := { demoSearch with stat := fun _ n => if n = "size".toList then some (.int 5000) else none }

/-- `--count size,size:h` only shows one of the two. -/
theorem C38_modifier_false : printCount asciiDigits (prepareCount demoOut (countLoop demoLarge [plainSize, humanSize] [[demoNamed "a.txt".toList]])) =
    some ["_total=1".toList, "size=4.9K".toList] := by decide

/-- Without results nothing is printed. -/
theorem C39_false (fields : List Field) (o : OutEnv) (D : DigitEnv) (S : SearchEnv) (n : Nat) :
    printCount D (prepareCount o (countLoop S fields (List.replicate n []))) = some [] := by
  have : countLoop S fields (List.replicate n []) = ⟨none, []⟩ := by
    unfold countLoop
    induction n with
    | zero => rfl
    | succ n ih => rw [List.replicate_succ, List.foldl_cons]; exact ih
  rw [this]
  rfl

/-- `--count ext` fails if there are the files `a.1` and `a.txt`. -/
theorem C39_mixed_false :
    printCount asciiDigits (prepareCount demoOut (countLoop demoSizes [extField] [[demoNamed "a.1".toList, demoNamed "a.txt".toList]])) = none := by decide

theorem demoCount_ok : CountOk demoSizes demoOut [plainSize, extField] [demoNamed "b.py".toList, demoNamed "a.txt".toList, demoNamed "c.py".toList] := by
  refine ⟨by decide, by decide, by decide, ?_, fun f hf => Or.inl ((by decide : ∀ f ∈ [plainSize, extField], f.modifier ≠ some 'h') f hf)⟩
  intro f hf e he v hv
  simp only [List.mem_cons, List.not_mem_nil, or_false] at hf
  rcases hf with rfl | rfl
  · have : ∃ n, demoSizes.attr e plainSize.attr = some (.int n) := ⟨_, rfl⟩
    obtain ⟨n, hn⟩ := this
    rw [hn] at hv; cases hv; trivial
  · have : ∃ s, demoSizes.attr e extField.attr = some (.str s) := ⟨_, rfl⟩
    obtain ⟨n, hn⟩ := this
    rw [hn] at hv; cases hv; trivial

/-- The hypotheses of C38 hold for three results that arrive in two chunks, and this is printed. -/
example : CountOk demoSizes demoOut [plainSize, extField] [demoNamed "b.py".toList, demoNamed "a.txt".toList, demoNamed "c.py".toList] ∧
    [[demoNamed "a.txt".toList], [demoNamed "b.py".toList, demoNamed "c.py".toList]].flatten.Perm
      [demoNamed "b.py".toList, demoNamed "a.txt".toList, demoNamed "c.py".toList] ∧
    printCount asciiDigits (prepareCount demoOut (countLoop demoSizes [plainSize, extField]
      [[demoNamed "a.txt".toList], [demoNamed "b.py".toList, demoNamed "c.py".toList]])) =
      some ["_total=3".toList, "ext[py]=2".toList, "ext[txt]=1".toList, "size=13".toList] :=
  ⟨demoCount_ok, List.Perm.swap _ _ _, by decide⟩

/-- The hypotheses of C39 hold for these three results. -/
example : ∀ f ∈ [plainSize, extField], f.type ≠ .size → f.type ≠ .duration →
    SortableKeys asciiDigits (fun s => ∃ e ∈ [[demoNamed "a.txt".toList], [demoNamed "b.py".toList, demoNamed "c.py".toList]].flatten,
      ∃ v, demoSizes.attr e f.attr = some v ∧ s = f.type.output demoOut f.modifier v) := by
  intro f hf h1 _
  simp only [List.mem_cons, List.not_mem_nil, or_false] at hf
  rcases hf with rfl | rfl
  · exact absurd rfl h1
  · right
    rintro s ⟨e, he, v, hv, rfl⟩
    right
    have hall : ∀ e ∈ [[demoNamed "a.txt".toList], [demoNamed "b.py".toList, demoNamed "c.py".toList]].flatten,
        ∃ s, demoSizes.attr e extField.attr = some (.str s) ∧ ∃ c ∈ s, asciiDigits.isdigit c = false := by
      intro e he
      simp only [List.flatten_cons, List.flatten_nil, List.append_nil, List.mem_append, List.mem_cons, List.not_mem_nil, or_false] at he
      rcases he with rfl | rfl | rfl
      · exact ⟨"txt".toList, by decide, 't', by decide, by decide⟩
      · exact ⟨"py".toList, by decide, 'p', by decide, by decide⟩
      · exact ⟨"py".toList, by decide, 'p', by decide, by decide⟩
    obtain ⟨s, h1, h2⟩ := hall e he
    rw [h1] at hv
    rw [← Option.some.inj hv]
    exact h2

/-- C38: the attributes named with `--count` are those that can be printed, except lists: with a list among them the option is refused. -/
theorem C38_fields (reg : List PluginDef) (words : List Str) (fs : List Field) :
    countFields reg words = some fs ↔ outputFields reg words = some fs ∧ ∀ f ∈ fs, f.type ≠ .listOfStrings := by
  have hc : ∀ t : Ty, t.count = .uncountable ↔ t = .listOfStrings := by intro t; cases t <;> decide
  unfold countFields
  cases outputFields reg words with
  | none => simp
  | some gs =>
    simp only [List.any_eq_true, decide_eq_true_eq, Option.some.injEq]
    constructor
    · intro h
      split at h
      · exact absurd h (by simp)
      · rename_i hn
        cases h
        exact ⟨rfl, fun f hf ht => hn ⟨f, hf, (hc _).2 ht⟩⟩
    · rintro ⟨rfl, h⟩
      rw [if_neg]
      rintro ⟨f, hf, ht⟩
      exact h f hf ((hc _).1 ht)

set_option maxRecDepth 20000 in
example : countFields demoReg ["ext".toList, "size".toList] = outputFields demoReg ["ext".toList, "size".toList] ∧
    (outputFields demoReg ["ext".toList, "size".toList]).isSome = true ∧ countFields demoReg ["nosuch".toList] = none := by decide +kernel

end FF
