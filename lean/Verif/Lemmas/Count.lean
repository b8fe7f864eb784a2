import Verif.Props.Sort
import Verif.Props.Json
/-! The counter of `--count`. -/
namespace FF
open Spec

/-! ### The counter -/

theorem same_iff {a b : Field} : a.same b = true ↔ a.attr = b.attr ∧ a.type = b.type ∧ a.width = b.width ∧ a.modifier = b.modifier := by
  simp [Field.same, and_assoc]

theorem same_refl (a : Field) : a.same a = true := by simp [same_iff]

theorem same_symm {a b : Field} (h : a.same b = true) : b.same a = true := by
  rw [same_iff] at *; exact ⟨h.1.symm, h.2.1.symm, h.2.2.1.symm, h.2.2.2.symm⟩

theorem same_trans {a b c : Field} (h : a.same b = true) (h' : b.same c = true) : a.same c = true := by
  rw [same_iff] at *; exact ⟨h.1.trans h'.1, h.2.1.trans h'.2.1, h.2.2.1.trans h'.2.2.1, h.2.2.2.trans h'.2.2.2⟩

/-- `d.get(f)` -/
def getC (d : List (Field × CVal)) (f : Field) : Option CVal := (d.find? (fun kv => kv.1.same f)).map Prod.snd

theorem getC_cons (k : Field) (v : CVal) (d : List (Field × CVal)) (f : Field) : getC ((k, v) :: d) f = if k.same f then some v else getC d f := by
  unfold getC
  rw [List.find?_cons]
  cases k.same f <;> simp

theorem getC_update (g : Field) (F : Option CVal → CVal) (d : List (Field × CVal)) (f : Field) :
    getC (countUpdate g F d) f = if g.same f then some (F (getC d g)) else getC d f := by
  induction d with
  | nil =>
    rw [countUpdate, getC_cons]
    rfl
  | cons kv d ih =>
    obtain ⟨k, v⟩ := kv
    rw [countUpdate]
    by_cases hk : k.same g = true
    · rw [if_pos hk, getC_cons, getC_cons, getC_cons, if_pos hk]
      by_cases hf : k.same f = true
      · rw [if_pos hf, if_pos (same_trans (same_symm hk) hf)]
      · rw [if_neg hf, if_neg hf, if_neg (fun h => hf (same_trans hk h))]
    · rw [if_neg hk, getC_cons, getC_cons, getC_cons, if_neg hk, ih]
      by_cases hf : k.same f = true
      · rw [if_pos hf, if_pos hf, if_neg (fun h => hk (same_trans hf (same_symm h)))]
      · rw [if_neg hf, if_neg hf]

/-- What one entry does to the value of a field. -/
def countStep (f : Field) (v : Option Val) (old : Option CVal) : Option CVal :=
  match v with
  | none => old
  | some v => match f.type.count with
    | .total => some (sumAdd v old)
    | .count => some (histStep v old)
    | .uncountable => old

theorem getC_collectField (attr : Attr → Option Val) (d : List (Field × CVal)) (g f : Field) :
    getC (collectField attr d g) f = if g.same f then countStep g (attr g.attr) (getC d f) else getC d f := by
  have hgf : g.same f = true → getC d g = getC d f := by
    intro h
    unfold getC
    congr 1
    have : (fun kv : Field × CVal => kv.1.same g) = (fun kv => kv.1.same f) := by
      funext kv
      rw [Bool.eq_iff_iff]
      exact ⟨fun h1 => same_trans h1 h, fun h1 => same_trans h1 (same_symm h)⟩
    rw [this]
  unfold collectField countStep
  cases attr g.attr with
  | none => simp
  | some v =>
    cases g.type.count <;> simp only [getC_update] <;> by_cases h : g.same f = true <;> simp [h, hgf]

theorem getC_foldl_other (attr : Attr → Option Val) (f : Field) (fs : List Field) : ∀ d, (∀ g ∈ fs, g.same f = false) →
    getC (fs.foldl (collectField attr) d) f = getC d f := by
  induction fs with
  | nil => intro d _; rfl
  | cons g fs ih =>
    intro d h
    rw [List.foldl_cons, ih _ (fun x hx => h x (by simp [hx])), getC_collectField, h g (by simp)]
    rfl

theorem getC_foldl (attr : Attr → Option Val) (f : Field) (fs : List Field) : ∀ d, f ∈ fs → fs.Pairwise (fun a b => a.same b = false) →
    getC (fs.foldl (collectField attr) d) f = countStep f (attr f.attr) (getC d f) := by
  induction fs with
  | nil => intro d h; simp at h
  | cons g fs ih =>
    intro d h hp
    rw [List.pairwise_cons] at hp
    rw [List.foldl_cons]
    rcases List.mem_cons.1 h with rfl | h
    · rw [getC_foldl_other attr f fs _ (fun x hx => by
        cases hs : x.same f with
        | false => rfl
        | true => rw [← hp.1 x hx]; exact (same_symm hs).symm), getC_collectField, same_refl]
      rfl
    · rw [ih _ h hp.2, getC_collectField, hp.1 f h]
      rfl

/-- The keys of the counter. -/
structure CInv (fields : List Field) (d : List (Field × CVal)) : Prop where
  mem : ∀ kv ∈ d, kv.1 ∈ fields
  nodup : (d.map Prod.fst).Nodup

theorem eq_of_same {fields : List Field} (hp : fields.Pairwise (fun a b => a.same b = false)) {a b : Field} (ha : a ∈ fields) (hb : b ∈ fields)
    (h : a.same b = true) : a = b := by
  induction hp with
  | nil => simp at ha
  | @cons c cs h1 _ ih =>
    rcases List.mem_cons.1 ha with rfl | ha
    · rcases List.mem_cons.1 hb with rfl | hb
      · rfl
      · rw [h1 b hb] at h; exact absurd h (by simp)
    · rcases List.mem_cons.1 hb with rfl | hb
      · have h2 := h1 a ‹a ∈ cs›
        rw [same_symm h] at h2
        exact absurd h2 (by simp)
      · exact ih ha hb

theorem countUpdate_keys (g : Field) (F : Option CVal → CVal) (d : List (Field × CVal)) :
    (countUpdate g F d).map Prod.fst = if d.any (fun kv => kv.1.same g) then d.map Prod.fst else d.map Prod.fst ++ [g] := by
  induction d with
  | nil => rfl
  | cons kv d ih =>
    obtain ⟨k, v⟩ := kv
    rw [countUpdate]
    by_cases hk : k.same g = true
    · simp [hk]
    · have hk' : k.same g = false := by simpa using hk
      rw [if_neg hk, List.map_cons, ih]
      by_cases ha : d.any (fun kv => kv.1.same g) = true
      · rw [if_pos ha, List.any_cons, ha, Bool.or_true, if_pos rfl]; rfl
      · rw [if_neg ha, if_neg (by rw [List.any_cons, hk', Bool.false_or]; exact ha)]; rfl

theorem CInv.collectField {fields : List Field} {d : List (Field × CVal)} (h : CInv fields d) (attr : Attr → Option Val) {g : Field} (hg : g ∈ fields) :
    CInv fields (collectField attr d g) := by
  have hupd : ∀ F, CInv fields (countUpdate g F d) := by
    intro F
    have hk := countUpdate_keys g F d
    by_cases ha : d.any (fun kv => kv.1.same g) = true
    · rw [if_pos ha] at hk
      refine ⟨fun kv hkv => ?_, by rw [hk]; exact h.nodup⟩
      have : kv.1 ∈ d.map Prod.fst := by rw [← hk]; exact List.mem_map_of_mem hkv
      obtain ⟨kv', h1, h2⟩ := List.mem_map.1 this
      rw [← h2]; exact h.mem kv' h1
    · rw [if_neg ha] at hk
      refine ⟨fun kv hkv => ?_, ?_⟩
      · have : kv.1 ∈ d.map Prod.fst ++ [g] := by rw [← hk]; exact List.mem_map_of_mem hkv
        rcases List.mem_append.1 this with h1 | h1
        · obtain ⟨kv', h1, h2⟩ := List.mem_map.1 h1
          rw [← h2]; exact h.mem kv' h1
        · rw [List.mem_singleton.1 h1]; exact hg
      · rw [hk, List.nodup_append]
        refine ⟨h.nodup, by simp, ?_⟩
        intro a ha' b hb
        rw [List.mem_singleton.1 hb]
        rintro rfl
        obtain ⟨kv, h1, h2⟩ := List.mem_map.1 ha'
        apply ha
        rw [List.any_eq_true]
        exact ⟨kv, h1, by rw [h2]; exact same_refl _⟩
  unfold FF.collectField
  cases attr g.attr with
  | none => exact h
  | some v => cases g.type.count with
    | total => exact hupd _
    | count => exact hupd _
    | uncountable => exact h

theorem CInv.foldl {fields : List Field} (attr : Attr → Option Val) (fs : List Field) : ∀ {d : List (Field × CVal)}, CInv fields d → (∀ g ∈ fs, g ∈ fields) →
    CInv fields (fs.foldl (FF.collectField attr) d) := by
  induction fs with
  | nil => intro d h _; exact h
  | cons g fs ih => intro d h hs; exact ih (h.collectField attr (hs g (by simp))) (fun x hx => hs x (by simp [hx]))

theorem countLoop_flatten (S : SearchEnv) (fields : List Field) (chunks : List (List EntInfo)) : ∀ c,
    chunks.foldl (collectCount S fields) c = collectCount S fields c chunks.flatten := by
  induction chunks with
  | nil => intro c; rfl
  | cons e es ih =>
    intro c
    rw [List.foldl_cons, ih, List.flatten_cons]
    unfold collectCount
    rw [List.foldl_append]

theorem collectCount_total (S : SearchEnv) (fields : List Field) (entries : List EntInfo) : ∀ c,
    (collectCount S fields c entries).total = if entries = [] then c.total else some (c.total.getD 0 + entries.length) := by
  induction entries with
  | nil => intro c; rfl
  | cons e es ih =>
    intro c
    have : collectCount S fields c (e :: es) = collectCount S fields (collectEntry fields c (S.attr e)) es := rfl
    rw [this, ih]
    by_cases h : es = []
    · simp [h, collectEntry]
    · simp [h, collectEntry]; omega

theorem collectCount_inv (S : SearchEnv) (fields : List Field) (entries : List EntInfo) : ∀ c, CInv fields c.fields →
    CInv fields (collectCount S fields c entries).fields := by
  induction entries with
  | nil => intro c h; exact h
  | cons e es ih => intro c h; exact ih _ (h.foldl (S.attr e) fields (fun g hg => hg))

theorem collectCount_get (S : SearchEnv) {fields : List Field} (hp : fields.Pairwise (fun a b => a.same b = false)) {f : Field} (hf : f ∈ fields)
    (entries : List EntInfo) : ∀ c, getC (collectCount S fields c entries).fields f =
      entries.foldl (fun o e => countStep f (S.attr e f.attr) o) (getC c.fields f) := by
  induction entries with
  | nil => intro c; rfl
  | cons e es ih =>
    intro c
    have : collectCount S fields c (e :: es) = collectCount S fields (collectEntry fields c (S.attr e)) es := rfl
    rw [this, ih, List.foldl_cons]
    congr 1
    exact getC_foldl (S.attr e) f fields _ hf hp

theorem CInv.perm {fields : List Field} (hp : fields.Pairwise (fun a b => a.same b = false)) {d : List (Field × CVal)} (h : CInv fields d) :
    d.Perm (fields.filterMap (fun f => (getC d f).map (fun v => (f, v)))) := by
  have hmem : ∀ k v, (k, v) ∈ d ↔ k ∈ fields ∧ getC d k = some v := by
    intro k v
    have hh := h
    clear h
    revert hh
    induction d with
    | nil => intro _; simp [getC]
    | cons kv d ih =>
      intro hh
      obtain ⟨k', v'⟩ := kv
      have hd : CInv fields d := ⟨fun x hx => hh.mem x (by simp [hx]), (List.nodup_cons.1 (by simpa using hh.nodup)).2⟩
      have hk' : k' ∈ fields := hh.mem (k', v') (by simp)
      have hnot : k' ∉ d.map Prod.fst := (List.nodup_cons.1 (by simpa using hh.nodup)).1
      have ih' : (k, v) ∈ d ↔ k ∈ fields ∧ getC d k = some v := ih hd
      rw [List.mem_cons, ih', getC_cons]
      constructor
      · rintro (h1 | ⟨h1, h2⟩)
        · obtain ⟨rfl, rfl⟩ := Prod.mk.inj h1
          rw [if_pos (same_refl _)]; exact ⟨hk', rfl⟩
        · refine ⟨h1, ?_⟩
          have hkd : (k, v) ∈ d := (ih hd).2 ⟨h1, h2⟩
          rw [if_neg]
          · exact h2
          · intro hs
            rw [eq_of_same hp hk' h1 hs] at hnot
            exact hnot (List.mem_map_of_mem (f := Prod.fst) hkd)
      · rintro ⟨h1, h2⟩
        by_cases hs : k'.same k = true
        · rw [if_pos hs] at h2
          left; rw [eq_of_same hp hk' h1 hs, Option.some.inj h2]
        · rw [if_neg hs] at h2
          exact Or.inr ⟨h1, h2⟩
  have hnd : fields.Nodup := hp.imp (fun {a b} hab e => by rw [e, same_refl] at hab; exact absurd hab (by simp))
  rw [List.perm_ext_iff_of_nodup]
  · rintro ⟨k, v⟩
    rw [hmem, List.mem_filterMap]
    constructor
    · rintro ⟨h1, h2⟩; exact ⟨k, h1, by rw [h2]; rfl⟩
    · rintro ⟨f, h1, h2⟩
      cases hg : getC d f with
      | none => rw [hg] at h2; simp at h2
      | some w =>
        rw [hg] at h2
        simp at h2
        obtain ⟨rfl, rfl⟩ := h2
        exact ⟨h1, hg⟩
  · exact (List.pairwise_map.1 h.nodup).imp (fun hne e => hne (by rw [e]))
  · clear hmem h hp
    induction fields with
    | nil => simp
    | cons f fs ih =>
      rw [List.nodup_cons] at hnd
      rw [List.filterMap_cons]
      cases hg : getC d f with
      | none => simpa using ih hnd.2
      | some v =>
        simp only [Option.map_some, List.nodup_cons]
        refine ⟨?_, ih hnd.2⟩
        rw [List.mem_filterMap]
        rintro ⟨g, h1, h2⟩
        cases hg' : getC d g with
        | none => rw [hg'] at h2; simp at h2
        | some w => rw [hg'] at h2; simp at h2; exact hnd.1 (h2.1 ▸ h1)

/-! ### The values of a field -/

def oldSum : Option CVal → Int
  | some (.sum n) => n
  | _ => 0

def oldHist : Option CVal → List (Val × Nat)
  | some (.hist h) => h
  | _ => []

theorem valueSum_cons_none {α : Type} {value : α → Option Val} {e : α} (h : value e = none) (es : List α) : valueSum value (e :: es) = valueSum value es := by
  simp [valueSum, h]

theorem valueSum_cons_int {α : Type} {value : α → Option Val} {e : α} {n : Int} (h : value e = some (.int n)) (es : List α) :
    valueSum value (e :: es) = n + valueSum value es := by
  simp [valueSum, h]

theorem valueSum_none {α : Type} {value : α → Option Val} {es : List α} (h : es.filterMap value = []) : valueSum value es = 0 := by
  induction es with
  | nil => rfl
  | cons e es ih =>
    rw [List.filterMap_cons] at h
    cases hv : value e with
    | none => rw [hv] at h; rw [valueSum_cons_none hv, ih h]
    | some v => rw [hv] at h; simp at h

theorem countStep_total {f : Field} (hc : f.type.count = .total) (n : Int) (o : Option CVal) : countStep f (some (.int n)) o = some (.sum (oldSum o + n)) := by
  unfold countStep
  simp only [hc]
  match o with
  | none => rfl
  | some (.sum _) => rfl
  | some (.hist _) => rfl

theorem countStep_hist {f : Field} (hc : f.type.count = .count) (v : Val) (o : Option CVal) : countStep f (some v) o = some (.hist (histAdd v (oldHist o))) := by
  unfold countStep
  simp only [hc]
  match o with
  | none => rfl
  | some (.sum _) => rfl
  | some (.hist _) => rfl

theorem fold_total {α : Type} (f : Field) (value : α → Option Val) (hf : f.type = .size ∨ f.type = .duration) (l : List α)
    (ht : ∀ e ∈ l, ∀ v, value e = some v → HasType f.type v) : ∀ o,
    l.foldl (fun o e => countStep f (value e) o) o = if l.filterMap value = [] then o else some (.sum (oldSum o + valueSum value l)) := by
  have hc : f.type.count = .total := by rcases hf with h | h <;> rw [h] <;> rfl
  induction l with
  | nil => intro o; simp
  | cons e es ih =>
    intro o
    have ih := ih (fun x hx => ht x (by simp [hx]))
    rw [List.foldl_cons, List.filterMap_cons]
    cases hv : value e with
    | none => rw [valueSum_cons_none hv]; exact ih o
    | some v =>
      have hty := ht e (by simp) v hv
      obtain ⟨n, rfl⟩ : ∃ n, v = .int n := by
        rcases hf with h | h <;> rw [h] at hty <;> cases v <;> simp [HasType] at hty <;> exact ⟨_, rfl⟩
      rw [countStep_total hc, ih, valueSum_cons_int hv]
      simp only [reduceCtorEq, if_false]
      by_cases he : es.filterMap value = []
      · rw [if_pos he, valueSum_none he, Int.add_zero]
      · rw [if_neg he, oldSum, Int.add_assoc]

theorem fold_hist {α : Type} (f : Field) (value : α → Option Val) (hc : f.type.count = .count) (l : List α) : ∀ o,
    l.foldl (fun o e => countStep f (value e) o) o =
      if l.filterMap value = [] then o else some (.hist ((l.filterMap value).foldl (fun h v => histAdd v h) (oldHist o))) := by
  induction l with
  | nil => intro o; simp
  | cons e es ih =>
    intro o
    rw [List.foldl_cons, List.filterMap_cons]
    cases hv : value e with
    | none => exact ih o
    | some v =>
      rw [countStep_hist hc, ih]
      simp only [reduceCtorEq, if_false, List.foldl_cons]
      by_cases he : es.filterMap value = []
      · rw [if_pos he, he]; rfl
      · rw [if_neg he]; rfl

/-- The number for a value. -/
def getN (h : List (Val × Nat)) (v : Val) : Nat := ((h.find? (fun kv => kv.1 = v)).map Prod.snd).getD 0

theorem getN_cons (k : Val) (n : Nat) (h : List (Val × Nat)) (v : Val) : getN ((k, n) :: h) v = if k = v then n else getN h v := by
  unfold getN
  rw [List.find?_cons]
  by_cases hk : k = v <;> simp [hk]

theorem getN_add (v w : Val) (h : List (Val × Nat)) : getN (histAdd v h) w = getN h w + if v = w then 1 else 0 := by
  induction h with
  | nil => rw [histAdd, getN_cons]; by_cases hv : v = w <;> simp [hv, getN]
  | cons kn h ih =>
    obtain ⟨k, n⟩ := kn
    rw [histAdd]
    by_cases hk : k = v
    · rw [if_pos hk, getN_cons, getN_cons]
      by_cases hw : k = w
      · simp [hw, ← hk]
      · simp [hw, ← hk]
    · rw [if_neg hk, getN_cons, getN_cons, ih]
      by_cases hw : k = w
      · have : v ≠ w := fun e => hk (by rw [e, hw])
        simp [hw, this]
      · simp [hw]

/-- The keys are different and the numbers positive. -/
structure HInv (h : List (Val × Nat)) : Prop where
  pos : ∀ kn ∈ h, 0 < kn.2
  nodup : (h.map Prod.fst).Nodup

theorem histAdd_keys (v : Val) (h : List (Val × Nat)) : ∀ k, k ∈ (histAdd v h).map Prod.fst ↔ k = v ∨ k ∈ h.map Prod.fst := by
  induction h with
  | nil => intro k; simp [histAdd]
  | cons kn h ih =>
    obtain ⟨k', n⟩ := kn
    intro k
    rw [histAdd]
    by_cases hk : k' = v
    · rw [if_pos hk]; simp [← hk]
    · rw [if_neg hk, List.map_cons, List.mem_cons, ih, List.map_cons, List.mem_cons]
      constructor
      · rintro (h | h | h)
        · exact Or.inr (Or.inl h)
        · exact Or.inl h
        · exact Or.inr (Or.inr h)
      · rintro (h | h | h)
        · exact Or.inr (Or.inl h)
        · exact Or.inl h
        · exact Or.inr (Or.inr h)

theorem HInv.add {h : List (Val × Nat)} (hi : HInv h) (v : Val) : HInv (histAdd v h) := by
  induction h with
  | nil => exact ⟨by simp [histAdd], by simp [histAdd]⟩
  | cons kn h ih =>
    obtain ⟨k, n⟩ := kn
    have hn := List.nodup_cons.1 (by simpa using hi.nodup : (k :: h.map Prod.fst).Nodup)
    have ih := ih ⟨fun x hx => hi.pos x (by simp [hx]), hn.2⟩
    rw [histAdd]
    by_cases hk : k = v
    · rw [if_pos hk]
      refine ⟨?_, by simpa using hi.nodup⟩
      intro x hx
      rcases List.mem_cons.1 hx with rfl | hx
      · exact Nat.succ_pos n
      · exact hi.pos x (by simp [hx])
    · rw [if_neg hk]
      refine ⟨?_, ?_⟩
      · intro x hx
        rcases List.mem_cons.1 hx with rfl | hx
        · exact hi.pos _ (by simp)
        · exact ih.pos x hx
      · rw [List.map_cons, List.nodup_cons]
        refine ⟨?_, ih.nodup⟩
        rw [histAdd_keys]
        rintro (h1 | h1)
        · exact hk h1
        · exact hn.1 h1

theorem hist_fold (vs : List Val) : ∀ h, HInv h → HInv (vs.foldl (fun h v => histAdd v h) h) ∧
    ∀ w, getN (vs.foldl (fun h v => histAdd v h) h) w = getN h w + vs.count w := by
  induction vs with
  | nil => intro h hi; exact ⟨hi, by simp⟩
  | cons v vs ih =>
    intro h hi
    obtain ⟨h1, h2⟩ := ih _ (hi.add v)
    refine ⟨h1, fun w => ?_⟩
    rw [List.foldl_cons, h2, getN_add, List.count_cons]
    by_cases hv : v = w <;> simp [hv]; omega

theorem HInv.perm {h : List (Val × Nat)} (hi : HInv h) {vs : List Val} (hn : vs.Nodup) (hv : ∀ v, v ∈ vs ↔ 0 < getN h v) :
    h.Perm (vs.map (fun v => (v, getN h v))) := by
  have hmem : ∀ k n, (k, n) ∈ h ↔ getN h k = n ∧ 0 < n := by
    clear hv
    induction h with
    | nil => intro k n; simp [getN]; omega
    | cons kn h ih =>
      obtain ⟨k', n'⟩ := kn
      intro k n
      have hnd := List.nodup_cons.1 (by simpa using hi.nodup : (k' :: h.map Prod.fst).Nodup)
      have ih' : (k, n) ∈ h ↔ getN h k = n ∧ 0 < n := ih ⟨fun x hx => hi.pos x (by simp [hx]), hnd.2⟩ k n
      have hp : 0 < n' := hi.pos (k', n') (by simp)
      rw [List.mem_cons, ih', getN_cons]
      by_cases hk : k' = k
      · subst hk
        have h0 : getN h k' = n → ¬ 0 < n := by
          intro h1 h2
          exact hnd.1 (List.mem_map_of_mem (f := Prod.fst) (ih'.2 ⟨h1, h2⟩))
        simp only [if_true, Prod.mk.injEq, true_and]
        constructor
        · rintro (h1 | ⟨h1, h2⟩)
          · exact ⟨h1.symm, h1 ▸ hp⟩
          · exact absurd h2 (h0 h1)
        · rintro ⟨h1, _⟩; exact Or.inl h1.symm
      · rw [if_neg hk]
        constructor
        · rintro (h1 | h1)
          · exact absurd (Prod.mk.inj h1).1.symm hk
          · exact h1
        · exact Or.inr
  rw [List.perm_ext_iff_of_nodup]
  · rintro ⟨k, n⟩
    rw [hmem, List.mem_map]
    constructor
    · rintro ⟨h1, h2⟩; exact ⟨k, (hv k).2 (by omega), by rw [h1]⟩
    · rintro ⟨v, h1, h2⟩
      obtain ⟨rfl, rfl⟩ := Prod.mk.inj h2
      exact ⟨rfl, (hv _).1 h1⟩
  · exact (List.pairwise_map.1 hi.nodup).imp (fun hne e => hne (by rw [e]))
  · exact List.pairwise_map.2 (hn.imp (fun hne e => hne (Prod.mk.inj e).1))

theorem foldl_dictSet {α κ ν : Type} [DecidableEq κ] (k : α → κ) (v : α → ν) (l : List α) : ∀ d : List (κ × ν),
    (d.map Prod.fst ++ l.map k).Nodup → l.foldl (fun d x => dictSet d (k x) (v x)) d = d ++ l.map (fun x => (k x, v x)) := by
  have hset : ∀ (d : List (κ × ν)) (key : κ) (val : ν), key ∉ d.map Prod.fst → dictSet d key val = d ++ [(key, val)] := by
    intro d key val h
    induction d with
    | nil => rfl
    | cons p d ih =>
      obtain ⟨a, b⟩ := p
      simp only [List.map_cons, List.mem_cons, not_or] at h
      rw [dictSet, if_neg (fun e => h.1 e.symm), ih h.2]
      rfl
  induction l with
  | nil => intro d _; simp
  | cons x xs ih =>
    intro d h
    have h1 : k x ∉ d.map Prod.fst := by
      rw [List.nodup_append] at h
      intro hx
      exact h.2.2 _ hx (k x) (by simp) rfl
    rw [List.foldl_cons, hset d _ _ h1, ih]
    · simp
    · simpa using h

theorem mapOption_cons_some {α β : Type} {f : α → Option β} (x : α) (xs : List α) (ys : List β) :
    mapOption f (x :: xs) = some ys ↔ ∃ b bs, f x = some b ∧ mapOption f xs = some bs ∧ ys = b :: bs := by
  rw [mapOption]
  cases f x with
  | none => simp
  | some b => cases mapOption f xs with
    | none => simp
    | some bs => simp [eq_comm]

theorem mapOption_perm {α β : Type} {f : α → Option β} {l l' : List α} (h : l.Perm l') : ∀ {ys}, mapOption f l = some ys →
    ∃ ys', mapOption f l' = some ys' ∧ ys.Perm ys' := by
  have hcons := @mapOption_cons_some α β f
  induction h with
  | nil => intro ys h; exact ⟨ys, h, .refl _⟩
  | cons x _ ih =>
    intro ys h
    obtain ⟨b, bs, h1, h2, rfl⟩ := (hcons _ _ _).1 h
    obtain ⟨bs', h3, h4⟩ := ih h2
    exact ⟨b :: bs', (hcons _ _ _).2 ⟨b, bs', h1, h3, rfl⟩, .cons b h4⟩
  | swap x y l =>
    intro ys h
    obtain ⟨b, bs, h1, h2, rfl⟩ := (hcons _ _ _).1 h
    obtain ⟨c, cs, h3, h4, rfl⟩ := (hcons _ _ _).1 h2
    exact ⟨c :: b :: cs, (hcons _ _ _).2 ⟨c, b :: cs, h3, (hcons _ _ _).2 ⟨b, cs, h1, h4, rfl⟩, rfl⟩, .swap _ _ _⟩
  | trans _ _ ih1 ih2 =>
    intro ys h
    obtain ⟨ys', h1, h2⟩ := ih1 h
    obtain ⟨ys'', h3, h4⟩ := ih2 h1
    exact ⟨ys'', h3, h2.trans h4⟩

end FF
