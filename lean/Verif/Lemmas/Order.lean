import Verif.Props.Entry
import Verif.Lemmas.PySort
import Verif.Model.Processing
/-! Lemmas about the orders used for sorting. -/
namespace FF

structure StrictTotal {α : Type} (lt : α → α → Bool) : Prop where
  irrefl : ∀ a, lt a a = false
  trans : ∀ a b c, lt a b = true → lt b c = true → lt a c = true
  tri : ∀ a b, a ≠ b → lt a b = true ∨ lt b a = true

theorem StrictTotal.asymm {α : Type} {lt : α → α → Bool} (h : StrictTotal lt) {a b : α} (hab : lt a b = true) : lt b a = false := by
  cases hba : lt b a with
  | false => rfl
  | true => have := h.trans a b a hab hba; rw [h.irrefl] at this; exact absurd this (by simp)

theorem StrictTotal.ne {α : Type} {lt : α → α → Bool} (h : StrictTotal lt) {a b : α} (hab : lt a b = true) : a ≠ b := by
  rintro rfl; rw [h.irrefl] at hab; exact absurd hab (by simp)

theorem StrictTotal.totalPre {α : Type} {lt : α → α → Bool} (h : StrictTotal lt) : TotalPre (fun a b => !lt b a) := by
  classical
  refine ⟨fun a b => ?_, fun a b c h1 h2 => ?_⟩
  · cases hab : lt b a with
    | false => left; rfl
    | true => right; simp [h.asymm hab]
  · simp only [Bool.not_eq_true'] at *
    by_cases e1 : a = b
    · subst e1; exact h2
    by_cases e2 : b = c
    · subst e2; exact h1
    rcases h.tri a b e1 with h3 | h3
    · rcases h.tri b c e2 with h4 | h4
      · exact h.asymm (h.trans _ _ _ h3 h4)
      · rw [h4] at h2; exact absurd h2 (by simp)
    · rw [h3] at h1; exact absurd h1 (by simp)

theorem StrictTotal.eq_of {α : Type} {lt : α → α → Bool} (h : StrictTotal lt) {a b : α} (h1 : lt a b = false) (h2 : lt b a = false) : a = b := by
  classical
  by_cases e : a = b
  · exact e
  · rcases h.tri a b e with h3 | h3
    · rw [h1] at h3; exact absurd h3 (by simp)
    · rw [h2] at h3; exact absurd h3 (by simp)

/-- The lexicographic order made of an order. -/
def lexB {α : Type} [DecidableEq α] (lt : α → α → Bool) : List α → List α → Bool
  | _, [] => false
  | [], _ :: _ => true
  | a :: as, b :: bs => if a = b then lexB lt as bs else lt a b

theorem StrictTotal.lex {α : Type} [DecidableEq α] {lt : α → α → Bool} (h : StrictTotal lt) : StrictTotal (lexB lt) := by
  refine ⟨fun a => ?_, fun a => ?_, fun a => ?_⟩
  · induction a with
    | nil => rfl
    | cons x xs ih => simp [lexB, ih]
  · induction a with
    | nil =>
      intro b c h1 h2
      cases c with
      | nil => cases b <;> simp [lexB] at h2
      | cons z zs => rfl
    | cons x xs ih =>
      intro b c h1 h2
      cases b with
      | nil => simp [lexB] at h1
      | cons y ys =>
        cases c with
        | nil => simp [lexB] at h2
        | cons z zs =>
          simp only [lexB] at *
          by_cases e1 : x = y
          · subst e1
            by_cases e2 : x = z
            · subst e2; simp only [if_true] at *; exact ih _ _ h1 h2
            · simp only [if_neg e2] at *; exact h2
          · rw [if_neg e1] at h1
            by_cases e2 : y = z
            · subst e2; rw [if_neg e1]; exact h1
            · rw [if_neg e2] at h2
              have h3 := h.trans _ _ _ h1 h2
              rw [if_neg (h.ne h3)]; exact h3
  · induction a with
    | nil =>
      intro b hb
      cases b with
      | nil => exact absurd rfl hb
      | cons y ys => left; rfl
    | cons x xs ih =>
      intro b hb
      cases b with
      | nil => right; rfl
      | cons y ys =>
        simp only [lexB]
        by_cases e : x = y
        · subst e
          simp only [if_true]
          exact ih ys (fun e => hb (by rw [e]))
        · rw [if_neg e, if_neg (Ne.symm e)]
          exact h.tri x y e

/-- `lt` may fail, where it does not it gives the same as `ltB`. -/
def Agree {α : Type} (lt : α → α → Option Bool) (ltB : α → α → Bool) : Prop := ∀ a b r, lt a b = some r → ltB a b = r

theorem Agree.lex {α : Type} [DecidableEq α] {lt : α → α → Option Bool} {ltB : α → α → Bool} (h : Agree lt ltB) :
    Agree (lexLt lt) (lexB ltB) := by
  intro a
  induction a with
  | nil =>
    intro b r hr
    cases b with
    | nil => simpa [lexLt, lexB] using hr
    | cons y ys => simpa [lexLt, lexB] using hr
  | cons x xs ih =>
    intro b r hr
    cases b with
    | nil => simpa [lexLt, lexB] using hr
    | cons y ys =>
      simp only [lexLt, lexB] at *
      by_cases e : x = y
      · rw [if_pos e] at *; exact ih _ _ hr
      · rw [if_neg e] at *; exact h _ _ _ hr

theorem strLt_strict : StrictTotal strLt := by
  refine ⟨fun a => ?_, fun a b c h1 h2 => ?_, fun a b hab => ?_⟩
  · have : strLe a a = true := by rcases strLe_total a a with h | h <;> exact h
    simp [strLt, this]
  · simp only [strLt, Bool.not_eq_true'] at *
    cases hca : strLe c a with
    | false => rfl
    | true =>
      rcases strLe_total b c with h3 | h3
      · rw [strLe_trans h3 hca] at h1; exact absurd h1 (by simp)
      · rw [h3] at h2; exact absurd h2 (by simp)
  · simp only [strLt, Bool.not_eq_true']
    cases h1 : strLe b a with
    | false => left; rfl
    | true => cases h2 : strLe a b with
      | false => right; rfl
      | true => exact absurd (strLe_antisymm h2 h1) hab

def NatPart.ltB : NatPart → NatPart → Bool
  | .text a, .text b => strLt a b
  | .num a, .num b => decide (a < b)
  | .text _, .num _ => true
  | .num _, .text _ => false

theorem NatPart.ltB_strict : StrictTotal NatPart.ltB := by
  refine ⟨fun a => ?_, fun a b c h1 h2 => ?_, fun a b hab => ?_⟩
  · cases a with
    | text s => exact strLt_strict.irrefl s
    | num n => simp [ltB]
  · cases a <;> cases b <;> cases c <;> simp [ltB] at * <;> first | exact strLt_strict.trans _ _ _ h1 h2 | omega
  · cases a with
    | text s => cases b with
      | text t => exact strLt_strict.tri s t (fun e => hab (by rw [e]))
      | num m => left; rfl
    | num n => cases b with
      | text t => right; rfl
      | num m => have : n ≠ m := fun e => hab (by rw [e])
                 simp [ltB]; omega

theorem NatPart.lt_agree : Agree NatPart.lt NatPart.ltB := by
  intro a b r h
  cases a <;> cases b <;> simp [lt, ltB] at * <;> exact h

def SKey.rank : SKey → Nat
  | .str _ => 0
  | .strs _ => 1
  | .int _ => 2
  | .bool _ => 3
  | .nat _ => 4

def SKey.ltB (a b : SKey) : Bool := match a, b with
  | .str a, .str b => strLt a b
  | .strs a, .strs b => lexB strLt a b
  | .int a, .int b => decide (a < b)
  | .bool a, .bool b => !a && b
  | .nat a, .nat b => lexB (lexB NatPart.ltB) a b
  | a, b => decide (a.rank < b.rank)

theorem SKey.ltB_strict : StrictTotal SKey.ltB := by
  refine ⟨fun a => ?_, fun a b c h1 h2 => ?_, fun a b hab => ?_⟩
  · cases a with
    | str s => exact strLt_strict.irrefl s
    | strs s => exact strLt_strict.lex.irrefl s
    | int n => simp [ltB]
    | bool b => simp [ltB]
    | nat l => exact NatPart.ltB_strict.lex.lex.irrefl l
  · cases a <;> cases b <;> cases c <;> simp [ltB, rank] at * <;>
      first
        | exact strLt_strict.trans _ _ _ h1 h2
        | exact strLt_strict.lex.trans _ _ _ h1 h2
        | exact NatPart.ltB_strict.lex.lex.trans _ _ _ h1 h2
        | omega
        | (simp_all)
  · cases a <;> cases b <;> simp [ltB, rank] at * <;>
      first
        | exact strLt_strict.tri _ _ hab
        | exact strLt_strict.lex.tri _ _ hab
        | exact NatPart.ltB_strict.lex.lex.tri _ _ hab
        | omega
        | (rename_i x y; revert hab; revert x y; decide)

theorem SKey.lt_agree : Agree SKey.lt SKey.ltB := by
  intro a b r h
  have h1 : Agree (fun a b : Str => some (strLt a b)) strLt := by intro a b r h; simpa using h
  cases a <;> cases b <;> simp only [lt, ltB] at * <;>
    first
      | (simpa using h)
      | exact h1.lex _ _ _ h
      | exact NatPart.lt_agree.lex.lex _ _ _ h
      | (simp at h)

/-- The order of sort keys, extended to keys that cannot be compared. -/
def keyLtB : List SKey → List SKey → Bool := lexB SKey.ltB

theorem keyLtB_strict : StrictTotal keyLtB := SKey.ltB_strict.lex

theorem keyLt_agree : Agree keyLt keyLtB := SKey.lt_agree.lex

theorem keyLe_eq {a b : List SKey} (h : comparable a b = true) : keyLe a b = !keyLtB b a := by
  simp only [comparable, Bool.and_eq_true, Option.isSome_iff_exists] at h
  obtain ⟨_, r, hr⟩ := h
  rw [keyLe, hr, keyLt_agree b a r hr]
  cases r <;> rfl

theorem orderedInsert_congr {α : Type} {le le' : α → α → Bool} {a : α} {l : List α} (h : ∀ b ∈ l, le a b = le' a b) :
    orderedInsert le a l = orderedInsert le' a l := by
  induction l with
  | nil => rfl
  | cons b l ih =>
    rw [orderedInsert, orderedInsert, h b (by simp), ih (fun c hc => h c (by simp [hc]))]

theorem pySort_congr {α : Type} {le le' : α → α → Bool} {l : List α} (h : ∀ a ∈ l, ∀ b ∈ l, le a b = le' a b) : pySort le l = pySort le' l := by
  induction l with
  | nil => rfl
  | cons a l ih =>
    show orderedInsert le a (pySort le l) = orderedInsert le' a (pySort le' l)
    rw [ih (fun b hb c hc => h b (by simp [hb]) c (by simp [hc]))]
    exact orderedInsert_congr (fun b hb => h a (by simp) b (by simp [(pySort_perm le' l).mem_iff.1 hb]))

theorem pySortKey_congr {α κ : Type} {le le' : κ → κ → Bool} {key : α → κ} {r : Bool} {l : List α}
    (h : ∀ a ∈ l, ∀ b ∈ l, le (key a) (key b) = le' (key a) (key b)) : pySortKey le key r l = pySortKey le' key r l := by
  cases r with
  | false => exact pySort_congr h
  | true =>
    show (pySort _ l.reverse).reverse = (pySort _ l.reverse).reverse
    rw [pySort_congr (l := l.reverse) (le' := fun a b => le' (key a) (key b))]
    intro a ha b hb
    exact h a (List.mem_reverse.1 ha) b (List.mem_reverse.1 hb)

end FF
