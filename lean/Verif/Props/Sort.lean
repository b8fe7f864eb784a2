import Verif.Lemmas.Order
import Verif.Spec.Processing
import Verif.Props.Search
import Verif.Props.Print
/-! C35, C36: `--sort`. -/
namespace FF
open Spec

/-! ### The lexicographic order of the specification -/

theorem Spec.Lex.nil_right {α : Type} {lt : α → α → Prop} {a : List α} : ¬ Lex lt a [] := by
  generalize hb : ([] : List α) = b
  intro h
  cases h <;> simp at hb

theorem Spec.Lex.nil_left {α : Type} {lt : α → α → Prop} {y : α} {ys : List α} : Lex lt [] (y :: ys) := Lex.shorter [] y ys

theorem Spec.Lex.cons_iff {α : Type} {lt : α → α → Prop} {x y : α} {xs ys : List α} :
    Lex lt (x :: xs) (y :: ys) ↔ lt x y ∨ (x = y ∧ Lex lt xs ys) := by
  constructor
  · intro h
    generalize ha : x :: xs = a at h
    generalize hb : y :: ys = b at h
    cases h with
    | shorter p c r =>
      subst ha
      simp only [List.cons_append, List.cons.injEq] at hb
      obtain ⟨rfl, rfl⟩ := hb
      exact Or.inr ⟨rfl, Lex.shorter _ _ _⟩
    | differ p r r' hlt =>
      cases p with
      | nil =>
        simp only [List.nil_append, List.cons.injEq] at ha hb
        obtain ⟨rfl, rfl⟩ := ha
        obtain ⟨rfl, rfl⟩ := hb
        exact Or.inl hlt
      | cons q p =>
        simp only [List.cons_append, List.cons.injEq] at ha hb
        obtain ⟨rfl, rfl⟩ := ha
        obtain ⟨rfl, rfl⟩ := hb
        exact Or.inr ⟨rfl, Lex.differ _ _ _ hlt⟩
  · rintro (h | ⟨rfl, h⟩)
    · exact Lex.differ [] xs ys h
    · cases h with
      | shorter p c r => exact Lex.shorter (x :: _) c r
      | differ p r r' hlt => exact Lex.differ (x :: p) r r' hlt

theorem lexB_iff {α : Type} [DecidableEq α] {ltB : α → α → Bool} {lt : α → α → Prop} (hs : StrictTotal ltB)
    (h : ∀ a b, ltB a b = true ↔ lt a b) (a b : List α) : lexB ltB a b = true ↔ Lex lt a b := by
  induction a generalizing b with
  | nil =>
    cases b with
    | nil => simp [lexB, Lex.nil_right]
    | cons y ys => simp [lexB, Lex.nil_left]
  | cons x xs ih =>
    cases b with
    | nil => simp [lexB, Lex.nil_right]
    | cons y ys =>
      rw [Lex.cons_iff, lexB]
      by_cases e : x = y
      · subst e
        have : ¬ lt x x := fun hx => by have := (h x x).2 hx; rw [hs.irrefl] at this; exact absurd this (by simp)
        simp [this, ih]
      · simp [e, h]

theorem strLt_iff (a b : Str) : strLt a b = true ↔ StrBefore a b := by
  unfold StrBefore
  induction a generalizing b with
  | nil =>
    cases b with
    | nil => simp [strLt, strLe, Lex.nil_right]
    | cons y ys => simp [strLt, strLe, Lex.nil_left]
  | cons x xs ih =>
    cases b with
    | nil => simp [strLt, strLe, Lex.nil_right]
    | cons y ys =>
      rw [Lex.cons_iff, ← ih ys]
      simp only [strLt, strLe]
      by_cases e : x = y
      · subst e; simp
      · have hne : x.toNat ≠ y.toNat := fun h => e (Char.toNat_inj.1 h)
        have h1 : ¬ y = x := fun h => e h.symm
        simp only [h1, if_false, e, false_and, or_false, Bool.not_eq_true', decide_eq_false_iff_not]
        have h2 : (y.val < x.val) ↔ y.toNat < x.toNat := by
          rw [UInt32.lt_iff_toNat_lt]; rfl
        rw [h2]; omega

/-! ### The values and the sort keys -/

theorem joinWith_cons_undot : ∀ (s : Str), ∃ w ws, splitOn '/' s = w :: ws ∧
    joinWith '/' (w :: ws.map (lstripChar '.')) = undot false s ∧ joinWith '/' (lstripChar '.' w :: ws.map (lstripChar '.')) = undot true s := by
  intro s
  induction s with
  | nil => exact ⟨[], [], rfl, rfl, rfl⟩
  | cons c s ih =>
    obtain ⟨w, ws, h1, h2, h3⟩ := ih
    by_cases hc : c = '/'
    · subst hc
      refine ⟨[], w :: ws, by simp [splitOn, h1], ?_, ?_⟩
      · rw [List.map_cons]
        simp only [undot, joinWith, List.nil_append]
        rw [h3]; simp
      · rw [List.map_cons]
        have hn : lstripChar '.' [] = [] := rfl
        simp only [undot, joinWith, hn, List.nil_append]
        rw [h3]; simp
    · refine ⟨c :: w, ws, by simp [splitOn, h1, hc], ?_, ?_⟩
      · simp only [undot, hc]
        cases hw : ws.map (lstripChar '.') with
        | nil => rw [hw] at h2; simp [joinWith] at h2 ⊢; exact h2
        | cons v vs => rw [hw] at h2; simp [joinWith] at h2 ⊢; exact h2
      · by_cases hd : c = '.'
        · subst hd
          simp only [lstripChar, List.dropWhile_cons, undot]
          simpa [lstripChar] using h3
        · have : lstripChar '.' (c :: w) = c :: w := by simp [lstripChar, hd]
          rw [this]
          simp only [undot, hc, hd]
          cases hw : ws.map (lstripChar '.') with
          | nil => rw [hw] at h2; simp [joinWith] at h2 ⊢; exact h2
          | cons v vs => rw [hw] at h2; simp [joinWith] at h2 ⊢; exact h2

theorem pathSortKey_eq (low : Str → Str) (s : Str) : pathSortKey low s = undot true (low s) := by
  obtain ⟨w, ws, h1, _, h3⟩ := joinWith_cons_undot (low s)
  rw [pathSortKey, h1, List.map_cons, h3]

/-- The sort key for a value. -/
def SKey.ofVal : SortVal → SKey
  | .text s => .str s
  | .list l => .strs l
  | .num n => .int n
  | .flag b => .bool b

def sortKind : SortVal → Nat
  | .text _ => 0
  | .list _ => 1
  | .num _ => 2
  | .flag _ => 3

theorem SKey.ofVal_inj {a b : SortVal} (h : SKey.ofVal a = SKey.ofVal b) : a = b := by
  cases a <;> cases b <;> simp [ofVal] at h <;> simp [h]

theorem map_ofVal_inj {a b : List SortVal} (h : a.map SKey.ofVal = b.map SKey.ofVal) : a = b := by
  induction a generalizing b with
  | nil => cases b with
    | nil => rfl
    | cons => simp at h
  | cons x xs ih => cases b with
    | nil => simp at h
    | cons y ys =>
      simp only [List.map_cons, List.cons.injEq] at h
      rw [SKey.ofVal_inj h.1, ih h.2]

theorem ltB_ofVal {a b : SortVal} (h : sortKind a = sortKind b) : SKey.ltB (SKey.ofVal a) (SKey.ofVal b) = true ↔ SortVal.Before a b := by
  cases a <;> cases b <;> simp [sortKind] at h <;> simp only [SKey.ofVal, SKey.ltB]
  · rw [strLt_iff]
    exact ⟨.text, fun h => by cases h; assumption⟩
  · rw [lexB_iff strLt_strict strLt_iff]
    exact ⟨.list, fun h => by cases h; assumption⟩
  · rw [decide_eq_true_iff]
    exact ⟨.num, fun h => by cases h; assumption⟩
  · rename_i x y
    cases x <;> cases y <;> simp
    · intro h; cases h
    · exact .flag
    · intro h; cases h
    · intro h; cases h

theorem lt_ofVal_isSome {a b : SortVal} (h : sortKind a = sortKind b) : (SKey.lt (SKey.ofVal a) (SKey.ofVal b)).isSome = true := by
  cases a <;> cases b <;> simp [sortKind] at h <;> simp only [SKey.ofVal, SKey.lt, Option.isSome_some]
  rename_i x y
  induction x generalizing y with
  | nil => cases y <;> rfl
  | cons x xs ih =>
    cases y with
    | nil => rfl
    | cons y ys => rw [lexLt]; split
                   · exact ih ys
                   · rfl

theorem keyLt_ofVal_isSome {a b : List SortVal} (h : a.map sortKind = b.map sortKind) : (keyLt (a.map SKey.ofVal) (b.map SKey.ofVal)).isSome = true := by
  unfold keyLt
  induction a generalizing b with
  | nil => cases b with
    | nil => rfl
    | cons y ys => simp at h
  | cons x xs ih => cases b with
    | nil => simp at h
    | cons y ys =>
      simp only [List.map_cons, List.cons.injEq] at h
      simp only [List.map_cons, lexLt]
      split
      · exact ih h.2
      · exact lt_ofVal_isSome h.1

theorem keyLtB_ofVal {a b : List SortVal} (h : a.map sortKind = b.map sortKind) :
    keyLtB (a.map SKey.ofVal) (b.map SKey.ofVal) = true ↔ Lex SortVal.Before a b := by
  unfold keyLtB
  induction a generalizing b with
  | nil => cases b with
    | nil => simp [lexB, Lex.nil_right]
    | cons y ys => simp at h
  | cons x xs ih => cases b with
    | nil => simp at h
    | cons y ys =>
      simp only [List.map_cons, List.cons.injEq] at h
      simp only [List.map_cons, lexB]
      rw [Lex.cons_iff]
      by_cases e : x = y
      · subst e
        have : ¬ SortVal.Before x x := fun hx => by
          have := (ltB_ofVal rfl).2 hx; rw [SKey.ltB_strict.irrefl] at this; exact absurd this (by simp)
        simp [this, ih h.2]
      · rw [if_neg (fun h => e (SKey.ofVal_inj h)), ltB_ofVal h.1]
        simp [e]

/-! ### Sorting -/

theorem mapOption_some {α β : Type} {f : α → Option β} {g : α → β} {l : List α} (h : ∀ x ∈ l, f x = some (g x)) : mapOption f l = some (l.map g) := by
  induction l with
  | nil => rfl
  | cons x xs ih => rw [mapOption, h x (by simp), ih (fun y hy => h y (by simp [hy]))]; rfl

theorem mapOption_eq_some {α β : Type} {f : α → Option β} {l : List α} {ys : List β} (h : mapOption f l = some ys) : l.map f = ys.map some := by
  induction l generalizing ys with
  | nil => simp [mapOption] at h; simp [h]
  | cons x xs ih =>
    rw [mapOption] at h
    cases hx : f x with
    | none => simp [hx] at h
    | some y =>
      cases hm : mapOption f xs with
      | none => simp [hx, hm] at h
      | some ys' =>
        simp [hx, hm] at h
        subst h
        simp [hx, ih hm]

theorem orderedInsert_map {α β : Type} (le : β → β → Bool) (f : α → β) (a : α) (l : List α) :
    orderedInsert le (f a) (l.map f) = (orderedInsert (fun a b => le (f a) (f b)) a l).map f := by
  induction l with
  | nil => rfl
  | cons b l ih => simp only [List.map_cons, orderedInsert]; split <;> simp [ih]

theorem pySort_map {α β : Type} (le : β → β → Bool) (f : α → β) (l : List α) :
    pySort le (l.map f) = (pySort (fun a b => le (f a) (f b)) l).map f := by
  induction l with
  | nil => rfl
  | cons a l ih =>
    show orderedInsert le (f a) (pySort le (l.map f)) = _
    rw [ih, orderedInsert_map]; rfl

theorem pySortKey_pairs {α κ : Type} (le : κ → κ → Bool) (k : α → κ) (r : Bool) (l : List α) :
    (pySortKey le Prod.fst r (l.map (fun e => (k e, e)))).map Prod.snd = pySortKey le k r l := by
  have h : ∀ l : List α, (l.map (fun e => (k e, e))).map Prod.snd = l := fun l => by simp [List.map_map, Function.comp_def]
  cases r with
  | false =>
    show (pySort _ _).map _ = pySort _ l
    rw [pySort_map, h]
  | true =>
    show (pySort _ _).reverse.map _ = (pySort _ _).reverse
    rw [← List.map_reverse, pySort_map, List.map_reverse, h]

/-- What `sortEntries` does if it does not fail. -/
theorem sortEntries_some {α : Type} {key : α → Option (List SKey)} {reverse : Bool} {entries out : List α}
    (h : sortEntries key reverse entries = some out) : (∀ e ∈ entries, key e = some ((key e).getD [])) ∧
      out = pySortKey (fun a b => !keyLtB b a) (fun e => (key e).getD []) reverse entries := by
  unfold sortEntries at h
  cases hm : mapOption (fun e => (key e).map (fun k => (k, e))) entries with
  | none => simp [hm] at h
  | some ks =>
    simp only [hm] at h
    have h1 := mapOption_eq_some hm
    have h2 : ∀ e ∈ entries, key e = some ((key e).getD []) := by
      intro e he
      have : (key e).map (fun k => (k, e)) ∈ ks.map some := by rw [← h1]; exact List.mem_map_of_mem he
      obtain ⟨y, _, hy⟩ := List.mem_map.1 this
      cases hk : key e with
      | none => simp [hk] at hy
      | some k => rfl
    have h3 : ks = entries.map (fun e => ((key e).getD [], e)) := by
      have := mapOption_some (f := fun e => (key e).map (fun k => (k, e))) (g := fun e => ((key e).getD [], e)) (l := entries)
        (fun e he => by rw [h2 e he]; rfl)
      rw [hm] at this
      exact Option.some.inj this
    split at h
    case isTrue hc =>
      refine ⟨h2, ?_⟩
      simp only [Option.some.injEq] at h
      rw [← h, h3, pySortKey_pairs]
      apply pySortKey_congr
      intro a ha b hb
      apply keyLe_eq
      simp only [allComparable, List.all_eq_true] at hc
      exact hc _ (by rw [h3]; simp only [List.map_map]; exact List.mem_map.2 ⟨a, ha, rfl⟩) _
        (by rw [h3]; simp only [List.map_map]; exact List.mem_map.2 ⟨b, hb, rfl⟩)
    case isFalse => simp at h

theorem sortEntries_of {α : Type} {key : α → Option (List SKey)} {k : α → List SKey} {reverse : Bool} {entries : List α}
    (hk : ∀ e ∈ entries, key e = some (k e)) (hc : ∀ a ∈ entries, ∀ b ∈ entries, (keyLt (k a) (k b)).isSome = true) :
    sortEntries key reverse entries = some (pySortKey (fun a b => !keyLtB b a) k reverse entries) := by
  unfold sortEntries
  rw [mapOption_some (g := fun e => (k e, e)) (fun e he => by rw [hk e he]; rfl)]
  have hall : allComparable ((entries.map (fun e => (k e, e))).map Prod.fst) = true := by
    simp only [allComparable, List.all_eq_true, List.map_map, List.mem_map, comparable, Bool.and_eq_true]
    rintro _ ⟨a, ha, rfl⟩ _ ⟨b, hb, rfl⟩
    exact ⟨hc a ha b hb, hc b hb a ha⟩
  simp only [hall, if_true, pySortKey_pairs]
  congr 1
  apply pySortKey_congr
  intro a ha b hb
  apply keyLe_eq
  simp [comparable, hc a ha b hb, hc b hb a ha]

/-- A sorted list by keys: a permutation, in order, equal keys keep their order. -/
theorem pySortKey_spec {α : Type} (k : α → List SKey) (reverse : Bool) (entries : List α) :
    (pySortKey (fun a b => !keyLtB b a) k reverse entries).Perm entries ∧
    (pySortKey (fun a b => !keyLtB b a) k reverse entries).Pairwise
      (fun a b => if reverse then keyLtB (k a) (k b) = false else keyLtB (k b) (k a) = false) ∧
    ∀ c, (pySortKey (fun a b => !keyLtB b a) k reverse entries).filter (fun e => k e = c) = entries.filter (fun e => k e = c) := by
  have hT := keyLtB_strict.totalPre.comap k
  have heq : ∀ c : List SKey, ∀ e0, k e0 = c → ∀ e, eqv (fun a b => !keyLtB (k b) (k a)) e0 e = decide (k e = c) := by
    intro c e0 h0 e
    rw [Bool.eq_iff_iff]
    simp only [eqv, Bool.and_eq_true, Bool.not_eq_true', decide_eq_true_eq, h0]
    constructor
    · rintro ⟨h1, h2⟩; exact keyLtB_strict.eq_of h1 h2
    · rintro rfl; simp [keyLtB_strict.irrefl]
  have hfil : ∀ (out : List α), out.Perm entries →
      (∀ c, out.filter (eqv (fun a b => !keyLtB (k b) (k a)) c) = entries.filter (eqv (fun a b => !keyLtB (k b) (k a)) c)) →
      ∀ c, out.filter (fun e => k e = c) = entries.filter (fun e => k e = c) := by
    intro out hp h c
    by_cases hex : ∃ e0 ∈ entries, k e0 = c
    · obtain ⟨e0, _, h0⟩ := hex
      have h1 := h e0
      have : eqv (fun a b => !keyLtB (k b) (k a)) e0 = fun e => decide (k e = c) := funext (heq c e0 h0)
      rwa [this] at h1
    · have e1 : entries.filter (fun e => k e = c) = [] := by
        rw [List.filter_eq_nil_iff]; intro e he; simpa using fun h => hex ⟨e, he, h⟩
      have e2 : out.filter (fun e => k e = c) = [] := by
        rw [List.filter_eq_nil_iff]; intro e he; simpa using fun h => hex ⟨e, hp.mem_iff.1 he, h⟩
      rw [e1, e2]
  cases reverse with
  | false =>
    refine ⟨pySort_perm _ _, ?_, hfil _ (pySort_perm _ _) (fun c => pySort_stable hT c entries)⟩
    refine (pySort_sorted hT entries).imp ?_
    intro a b h
    simpa using h
  | true =>
    refine ⟨pySortRev_perm _ _, ?_, hfil _ (pySortRev_perm _ _) (fun c => pySortRev_stable hT c entries)⟩
    refine (pySortRev_sorted hT entries).imp ?_
    intro a b h
    simpa using h

/-! ### C35 -/

/-- The values an entry is sorted by. -/
def sortVals (R : RenderEnv) (fields : List Field) (e : EntInfo) : List SortVal :=
  fields.map (fun f => sortVal R.search.tests.low f.type (R.search.attr e f.attr))

theorem sortPart_eq {R : RenderEnv} {D : DigitEnv} {e : EntInfo} {f : Field} (hm : f.modifier ≠ some 'v')
    (ht : ∀ v, R.search.attr e f.attr = some v → HasType f.type v) :
    R.sortPart D e f = some (SKey.ofVal (sortVal R.search.tests.low f.type (R.search.attr e f.attr))) := by
  unfold RenderEnv.sortPart
  cases ha : R.search.attr e f.attr with
  | none => cases hty : f.type <;> simp [Ty.sortNone, sortVal, SKey.ofVal]
  | some v =>
    have := ht v ha
    cases hty : f.type <;> cases v <;> simp [hty, HasType] at this <;> simp [Ty.sortKey, sortVal, SKey.ofVal, hm, pathSortKey_eq]

theorem sortVals_kind (R : RenderEnv) (fields : List Field) (a b : EntInfo) :
    (sortVals R fields a).map sortKind = (sortVals R fields b).map sortKind := by
  simp only [sortVals, List.map_map]
  apply List.map_congr_left
  intro f _
  simp only [Function.comp]
  cases f.type <;> cases R.search.attr a f.attr <;> cases R.search.attr b f.attr <;> simp [sortVal, sortKind] <;>
    (try (rename_i x; cases x <;> simp)) <;> (try (rename_i x _; cases x <;> simp))

/-- Sorting by attributes without the v modifier never fails. The output consists of all results, each one once; no result comes before one it
should come after; results that agree in all attributes keep their order. -/
theorem C35_sorted (R : RenderEnv) (D : DigitEnv) (fields : List Field) (reverse : Bool) (entries : List EntInfo)
    (hm : ∀ f ∈ fields, f.modifier ≠ some 'v')
    (ht : ∀ e ∈ entries, ∀ f ∈ fields, ∀ v, R.search.attr e f.attr = some v → HasType f.type v) :
    ∃ out, R.finalizeEntries D (some fields) reverse entries = some out ∧ out.Perm entries ∧
      out.Pairwise (fun a b => if reverse then ¬ Lex SortVal.Before (sortVals R fields a) (sortVals R fields b)
        else ¬ Lex SortVal.Before (sortVals R fields b) (sortVals R fields a)) ∧
      ∀ c, out.filter (fun e => sortVals R fields e = c) = entries.filter (fun e => sortVals R fields e = c) := by
  have hk : ∀ e ∈ entries, R.sortKey D fields e = some ((sortVals R fields e).map SKey.ofVal) := by
    intro e he
    unfold RenderEnv.sortKey sortVals
    rw [List.map_map]
    exact mapOption_some (fun f hf => sortPart_eq (hm f hf) (ht e he f hf))
  have hs := sortEntries_of (reverse := reverse) hk
    (fun a _ b _ => keyLt_ofVal_isSome (sortVals_kind R fields a b))
  obtain ⟨h1, h2, h3⟩ := pySortKey_spec (fun e => (sortVals R fields e).map SKey.ofVal) reverse entries
  refine ⟨_, hs, h1, h2.imp ?_, fun c => ?_⟩
  · intro a b h
    cases reverse with
    | false =>
      simp only [Bool.false_eq_true, if_false] at *
      rw [← keyLtB_ofVal (sortVals_kind R fields b a), h]; simp
    | true =>
      simp only [if_true] at *
      rw [← keyLtB_ofVal (sortVals_kind R fields a b), h]; simp
  · have := h3 (c.map SKey.ofVal)
    have e : (fun e => decide ((sortVals R fields e).map SKey.ofVal = c.map SKey.ofVal)) = (fun e => decide (sortVals R fields e = c)) := by
      funext e
      rw [Bool.eq_iff_iff, decide_eq_true_iff, decide_eq_true_iff]
      exact ⟨fun h => map_ofVal_inj h, fun h => by rw [h]⟩
    rwa [e] at this

/-- With any fields, if sorting does not fail the output consists of all results, each one once, and does not change the order of two results that
have the same sort key. -/
theorem C35_permutation (R : RenderEnv) (D : DigitEnv) (fields : List Field) (reverse : Bool) (entries out : List EntInfo)
    (h : R.finalizeEntries D (some fields) reverse entries = some out) :
    out.Perm entries ∧ ∀ c, out.filter (fun e => R.sortKey D fields e = some c) = entries.filter (fun e => R.sortKey D fields e = some c) := by
  obtain ⟨hk, rfl⟩ := sortEntries_some h
  obtain ⟨h1, _, h3⟩ := pySortKey_spec (fun e => (R.sortKey D fields e).getD []) reverse entries
  refine ⟨h1, fun c => ?_⟩
  have hcongr : ∀ l : List EntInfo, (∀ e ∈ l, e ∈ entries) →
      l.filter (fun e => R.sortKey D fields e = some c) = l.filter (fun e => (R.sortKey D fields e).getD [] = c) := by
    intro l hl
    apply List.filter_congr
    intro e he
    rw [Bool.eq_iff_iff, decide_eq_true_iff, decide_eq_true_iff, hk e (hl e he)]
    simp
  rw [hcongr _ (fun e he => h1.mem_iff.1 he), hcongr _ (fun e he => he), h3 c]

/-- Without `--sort` the results stay as they are. -/
theorem C35_unsorted (R : RenderEnv) (D : DigitEnv) (reverse : Bool) (entries : List EntInfo) :
    R.finalizeEntries D none reverse entries = some entries := rfl

/-! ### C36 -/

theorem perm_sorted_eq {α : Type} {r : α → α → Prop} : ∀ {l₁ l₂ : List α}, l₁.Perm l₂ → l₁.Pairwise r → l₂.Pairwise r →
    (∀ a ∈ l₁, ∀ b ∈ l₁, r a b → r b a → a = b) → l₁ = l₂ := by
  intro l₁
  induction l₁ with
  | nil => intro l₂ hp _ _ _; exact (List.nil_perm.1 hp).symm
  | cons a l₁ ih =>
    intro l₂ hp h1 h2 ha
    cases l₂ with
    | nil => exact absurd hp.length_eq (by simp)
    | cons b l₂ =>
      rw [List.pairwise_cons] at h1 h2
      have hab : a = b := by
        rcases List.mem_cons.1 (hp.mem_iff.1 (List.mem_cons_self (a := a) (l := l₁))) with h | h
        · exact h
        · rcases List.mem_cons.1 (hp.mem_iff.2 (List.mem_cons_self (a := b) (l := l₂))) with h' | h'
          · exact h'.symm
          · exact ha a (by simp) b (by simp [h']) (h1.1 b h') (h2.1 a h)
      subst hab
      rw [ih (List.Perm.cons_inv hp) h1.2 h2.2 (fun x hx y hy => ha x (by simp [hx]) y (by simp [hy]))]

theorem sortVals_eq_of {R : RenderEnv} {fields : List Field} {a b : EntInfo}
    (h1 : ¬ Lex SortVal.Before (sortVals R fields a) (sortVals R fields b)) (h2 : ¬ Lex SortVal.Before (sortVals R fields b) (sortVals R fields a)) :
    sortVals R fields a = sortVals R fields b := by
  rw [← keyLtB_ofVal (sortVals_kind R fields _ _), Bool.not_eq_true] at h1 h2
  exact map_ofVal_inj (keyLtB_strict.eq_of h1 h2)

/-- Whatever the order of arrival, the sequence of the values of the attributes sorted by is the same. -/
theorem C36_values (R : RenderEnv) (D : DigitEnv) (fields : List Field) (reverse : Bool) (entries entries' : List EntInfo) (hp : entries.Perm entries')
    (hm : ∀ f ∈ fields, f.modifier ≠ some 'v')
    (ht : ∀ e ∈ entries, ∀ f ∈ fields, ∀ v, R.search.attr e f.attr = some v → HasType f.type v) :
    ∃ out out', R.finalizeEntries D (some fields) reverse entries = some out ∧ R.finalizeEntries D (some fields) reverse entries' = some out' ∧
      out.map (sortVals R fields) = out'.map (sortVals R fields) := by
  obtain ⟨out, h1, h2, h3, _⟩ := C35_sorted R D fields reverse entries hm ht
  obtain ⟨out', h1', h2', h3', _⟩ := C35_sorted R D fields reverse entries' hm (fun e he => ht e (hp.mem_iff.2 he))
  refine ⟨out, out', h1, h1', ?_⟩
  refine perm_sorted_eq (r := fun x y => if reverse then ¬ Lex SortVal.Before x y else ¬ Lex SortVal.Before y x)
    ((h2.trans (hp.trans h2'.symm)).map _) (List.pairwise_map.2 h3) (List.pairwise_map.2 h3') ?_
  intro x hx y hy hxy hyx
  obtain ⟨a, _, rfl⟩ := List.mem_map.1 hx
  obtain ⟨b, _, rfl⟩ := List.mem_map.1 hy
  cases reverse with
  | false => simp only [Bool.false_eq_true, if_false] at *; exact sortVals_eq_of hyx hxy
  | true => simp only [if_true] at *; exact sortVals_eq_of hxy hyx

/-- If the results differ in the attributes sorted by then the output does not depend on the order of arrival. Missing: results that agree, see
`C36_false`. -/
theorem C36_partial (R : RenderEnv) (D : DigitEnv) (fields : List Field) (reverse : Bool) (entries entries' : List EntInfo) (hp : entries.Perm entries')
    (hm : ∀ f ∈ fields, f.modifier ≠ some 'v')
    (ht : ∀ e ∈ entries, ∀ f ∈ fields, ∀ v, R.search.attr e f.attr = some v → HasType f.type v)
    (hd : ∀ a ∈ entries, ∀ b ∈ entries, sortVals R fields a = sortVals R fields b → a = b) :
    ∃ out, R.finalizeEntries D (some fields) reverse entries = some out ∧ R.finalizeEntries D (some fields) reverse entries' = some out := by
  obtain ⟨out, h1, h2, h3, _⟩ := C35_sorted R D fields reverse entries hm ht
  obtain ⟨out', h1', h2', h3', _⟩ := C35_sorted R D fields reverse entries' hm (fun e he => ht e (hp.mem_iff.2 he))
  have : out = out' := by
    refine perm_sorted_eq (h2.trans (hp.trans h2'.symm)) h3 h3' ?_
    intro a ha b hb hxy hyx
    refine hd a (h2.mem_iff.1 ha) b (h2.mem_iff.1 hb) ?_
    cases reverse with
    | false => simp only [Bool.false_eq_true, if_false] at *; exact sortVals_eq_of hyx hxy
    | true => simp only [if_true] at *; exact sortVals_eq_of hxy hyx
  exact ⟨out, h1, by rw [this]; exact h1'⟩

def asciiDigits : DigitEnv := ⟨isDigit, fun c => if isDigit c then some (digitVal c) else none, fun c h => by
  by_cases hc : isDigit c <;> simp [hc] at h ⊢, fun c h => by simp [h]⟩

def demoRender : RenderEnv := (demoConsole []).render

def demoNamed (name : Str) : EntInfo := ⟨demoStart, name, false, []⟩

/-- `--sort` with the files `a` and `A`: the output depends on which one is found first. -/
theorem C36_false : ∃ entries entries' : List EntInfo, entries.Perm entries' ∧
    demoRender.finalizeEntries asciiDigits (some [pathField]) false entries ≠ demoRender.finalizeEntries asciiDigits (some [pathField]) false entries' :=
  ⟨[demoNamed "a".toList, demoNamed "A".toList], [demoNamed "A".toList, demoNamed "a".toList], List.Perm.swap _ _ _, by decide⟩

/-- The hypotheses of C35 and C36 hold for a search with two results sorted by size (which they do not have) and path. -/
example : (∀ f ∈ [sizeField, pathField], f.modifier ≠ some 'v') ∧
    (∀ e ∈ [demoB, demoA], ∀ f ∈ [sizeField, pathField], ∀ v, demoRender.search.attr e f.attr = some v → HasType f.type v) ∧
    (∀ a ∈ [demoB, demoA], ∀ b ∈ [demoB, demoA], sortVals demoRender [sizeField, pathField] a = sortVals demoRender [sizeField, pathField] b → a = b) ∧
    demoRender.finalizeEntries asciiDigits (some [sizeField, pathField]) false [demoB, demoA] = some [demoA, demoB] ∧
    demoRender.finalizeEntries asciiDigits (some [sizeField, pathField]) true [demoA, demoB] = some [demoB, demoA] := by
  refine ⟨by decide, ?_, by decide, by decide, by decide⟩
  have h1 : ∀ e ∈ [demoB, demoA], demoRender.search.attr e sizeField.attr = none := by decide
  intro e he f hf v hv
  simp only [List.mem_cons, List.not_mem_nil, or_false] at hf
  rcases hf with rfl | rfl
  · rw [h1 e he] at hv; cases hv
  · have : ∃ s, demoRender.search.attr e pathField.attr = some (.str s) := ⟨_, rfl⟩
    obtain ⟨s, hs⟩ := this
    rw [hs] at hv; cases hv; trivial

end FF
