import Verif.Model.Parser
import Verif.Spec.Expr
namespace FF
open Spec
variable {T : Type}

/-! ### Token classes -/

theorem isOpen_iff {t : Str} : isOpen t = true ↔ Open t := by simp [isOpen, Open]
theorem isClose_iff {t : Str} : isClose t = true ↔ Close t := by simp [isClose, Close]
theorem isAnd_iff {t : Str} : isAnd t = true ↔ Kw "AND" t := by simp only [isAnd]; exact decide_eq_true_iff
theorem isOr_iff {t : Str} : isOr t = true ↔ Kw "OR" t := by simp only [isOr]; exact decide_eq_true_iff
theorem isNot_iff {t : Str} : isNot t = true ↔ Kw "NOT" t := by simp only [isNot]; exact decide_eq_true_iff

theorem open_not_close {t : Str} (h : isOpen t = true) : isClose t = false := by
  rcases isOpen_iff.1 h with rfl | rfl <;> decide
theorem and_facts {t : Str} (h : isAnd t = true) : isOpen t = false ∧ isClose t = false ∧ isOr t = false ∧ isNot t = false := by
  have hu : upper t = ['A', 'N', 'D'] := by simpa [isAnd] using h
  have hl : t.length = 3 := by have := congrArg List.length hu; simpa [upper] using this
  refine ⟨?_, ?_, by simp [isOr, hu], by simp [isNot, hu]⟩ <;>
  · by_cases hh : t = ['('] ∨ t = ['{', '{'] ∨ t = [')'] ∨ t = ['}', '}']
    · rcases hh with rfl | rfl | rfl | rfl <;> simp at hl
    · simp only [not_or] at hh; simp [isOpen, isClose, hh]
theorem kw_not_bracket {t k : Str} (hu : upper t = k) (hk : k ≠ ['('] ∧ k ≠ ['{', '{'] ∧ k ≠ [')'] ∧ k ≠ ['}', '}']) :
    isOpen t = false ∧ isClose t = false := by
  by_cases hh : t = ['('] ∨ t = ['{', '{'] ∨ t = [')'] ∨ t = ['}', '}']
  · exfalso
    rcases hh with rfl | rfl | rfl | rfl
    · exact hk.1 (by rw [← hu]; decide)
    · exact hk.2.1 (by rw [← hu]; decide)
    · exact hk.2.2.1 (by rw [← hu]; decide)
    · exact hk.2.2.2 (by rw [← hu]; decide)
  · simp only [not_or] at hh; simp [isOpen, isClose, hh]
theorem or_facts {t : Str} (h : isOr t = true) : isOpen t = false ∧ isClose t = false ∧ isAnd t = false ∧ isNot t = false := by
  have hu : upper t = ['O', 'R'] := by simpa [isOr] using h
  have := kw_not_bracket hu (by decide)
  exact ⟨this.1, this.2, by simp [isAnd, hu], by simp [isNot, hu]⟩
theorem not_facts {t : Str} (h : isNot t = true) : isOpen t = false ∧ isClose t = false ∧ isAnd t = false ∧ isOr t = false := by
  have hu : upper t = ['N', 'O', 'T'] := by simpa [isNot] using h
  have := kw_not_bracket hu (by decide)
  exact ⟨this.1, this.2, by simp [isAnd, hu], by simp [isOr, hu]⟩
theorem word_iff {t : Str} : Word t ↔ isOpen t = false ∧ isClose t = false ∧ isAnd t = false ∧ isOr t = false ∧ isNot t = false := by
  simp only [Word, ← isOpen_iff, ← isClose_iff, ← isAnd_iff, ← isOr_iff, ← isNot_iff, Bool.not_eq_true]

/-! ### Fuel -/

theorem parseSeq_length (pt : Str → Except PErr T) : ∀ f ts seqs rest out,
    parseSeq pt f ts seqs = .ok (rest, out) → rest.length ≤ ts.length := by
  intro f
  induction f with
  | zero => intro ts seqs rest out h; simp [parseSeq] at h
  | succ f ih =>
    intro ts seqs rest out h
    cases ts with
    | nil =>
      simp only [parseSeq] at h
      split at h
      · cases h
      · cases h; simp
    | cons tok ts =>
      simp only [parseSeq] at h
      split at h
      · split at h
        · cases h
        · cases h
        · rename_i heq
          have h1 := ih _ _ _ _ heq
          have h2 := ih _ _ _ _ h
          simp only [List.length_cons] at *; omega
      · split at h
        · split at h
          · cases h
          · cases h; simp
        · split at h
          · have := ih _ _ _ _ h; simp; omega
          · split at h
            · have := ih _ _ _ _ h; simp; omega
            · split at h
              · split at h
                · cases h
                · rename_i tok2 ts2
                  split at h
                  · split at h
                    · cases h
                    · cases h
                    · rename_i heq
                      have h1 := ih _ _ _ _ heq
                      have h2 := ih _ _ _ _ h
                      simp only [List.length_cons] at *; omega
                  · split at h
                    · cases h
                    · split at h
                      · cases h
                      · have := ih _ _ _ _ h; simp; omega
              · split at h
                · cases h
                · have := ih _ _ _ _ h; simp; omega

/-- More fuel than tokens never changes the result. -/
theorem parseSeq_fuel (pt : Str → Except PErr T) : ∀ n ts seqs f g, ts.length ≤ n → ts.length < f → ts.length < g →
    parseSeq pt f ts seqs = parseSeq pt g ts seqs := by
  intro n
  induction n with
  | zero =>
    intro ts seqs f g hn hf hg
    cases ts with
    | nil =>
      cases f with
      | zero => omega
      | succ f => cases g with
        | zero => omega
        | succ g => rfl
    | cons t ts => simp at hn
  | succ n ih =>
    intro ts seqs f g hn hf hg
    cases f with
    | zero => omega
    | succ f =>
    cases g with
    | zero => omega
    | succ g =>
    cases ts with
    | nil => rfl
    | cons tok ts =>
      simp only [List.length_cons] at hn hf hg
      have hin : ∀ (us : List Str) sq, us.length ≤ ts.length → parseSeq pt f us sq = parseSeq pt g us sq := by
        intro us sq hl; exact ih us sq f g (by omega) (by omega) (by omega)
      simp only [parseSeq]
      split
      · rw [hin ts [[]] (by omega)]
        split
        · rfl
        · rfl
        · rename_i heq
          have := parseSeq_length pt _ _ _ _ _ heq
          exact hin _ _ (by simp at this; omega)
      · split
        · rfl
        · split
          · exact hin _ _ (by omega)
          · split
            · exact hin _ _ (by omega)
            · split
              · cases ts with
                | nil => rfl
                | cons tok2 ts2 =>
                  simp only
                  rw [hin ts2 [[]] (by simp)]
                  split
                  · split
                    · rfl
                    · rfl
                    · rename_i heq
                      have := parseSeq_length pt _ _ _ _ _ heq
                      exact hin _ _ (by simp at this; simp; omega)
                  · split
                    · rfl
                    · split
                      · rfl
                      · exact hin _ _ (by simp)
              · split
                · rfl
                · exact hin _ _ (by omega)

/-- `parse_sequence` without fuel. -/
def PS (pt : Str → Except PErr T) (ts : List Str) (seqs : List (List (Node T))) := parseSeq pt (ts.length + 1) ts seqs

theorem parseSeq_eq_PS {pt : Str → Except PErr T} {f ts seqs} (h : ts.length < f) : parseSeq pt f ts seqs = PS pt ts seqs :=
  parseSeq_fuel pt ts.length ts seqs _ _ (by omega) h (by omega)

theorem PS_length {pt : Str → Except PErr T} {ts seqs rest out} (h : PS pt ts seqs = .ok (rest, out)) :
    rest.length ≤ ts.length := parseSeq_length pt _ _ _ _ _ h

theorem PS_nil (pt : Str → Except PErr T) (seqs) : PS pt [] seqs =
    if seqs.length > 1 && seqs.any (·.isEmpty) then .error .emptyExpression else .ok ([], seqs) := rfl

/-- After a bracketed sub-sequence. -/
def afterSub (pt : Str → Except PErr T) (mk : List (List (Node T)) → Node T) (seqs : List (List (Node T)))
    (r : Except PErr (List Str × List (List (Node T)))) : Except PErr (List Str × List (List (Node T))) :=
  match r with
  | .error e => .error e
  | .ok ([], _) => .error .incompleteSub
  | .ok (_ :: ts', sub) => PS pt ts' (appendLast (mk sub) seqs)

theorem PS_open {pt : Str → Except PErr T} {tok ts seqs} (h : isOpen tok = true) : PS pt (tok :: ts) seqs =
    afterSub pt (fun sub => .or (sub.map .and)) seqs (PS pt ts [[]]) := by
  simp only [PS, parseSeq, h, if_true, List.length_cons, afterSub]
  split
  · rename_i heq; rw [heq]
  · rename_i heq; rw [heq]
  · rename_i heq; rw [heq]; simp only
    have := parseSeq_length pt _ _ _ _ _ heq
    rw [parseSeq_eq_PS (by simp at this; omega)]; rfl

theorem PS_close {pt : Str → Except PErr T} {tok ts seqs} (h : isClose tok = true) : PS pt (tok :: ts) seqs =
    if lastEmpty seqs then .error .emptyExpression else .ok (tok :: ts, seqs) := by
  have ho : isOpen tok = false := by
    by_cases h' : isOpen tok = true
    · simp [open_not_close h'] at h
    · simpa using h'
  simp [PS, parseSeq, h, ho]

theorem PS_and {pt : Str → Except PErr T} {tok ts seqs} (h : isAnd tok = true) : PS pt (tok :: ts) seqs = PS pt ts seqs := by
  obtain ⟨h1, h2, h3, h4⟩ := and_facts h
  simp [PS, parseSeq, h, h1, h2]

theorem PS_or {pt : Str → Except PErr T} {tok ts seqs} (h : isOr tok = true) : PS pt (tok :: ts) seqs =
    PS pt ts (seqs ++ [[]]) := by
  obtain ⟨h1, h2, h3, h4⟩ := or_facts h
  simp [PS, parseSeq, h, h1, h2, h3]

theorem PS_word {pt : Str → Except PErr T} {tok ts seqs} (h : Word tok) : PS pt (tok :: ts) seqs =
    match pt tok with
    | .error e => .error e
    | .ok t => PS pt ts (appendLast (.test t) seqs) := by
  obtain ⟨h1, h2, h3, h4, h5⟩ := word_iff.1 h
  simp only [PS, parseSeq, h1, h2, h3, h4, h5, if_false, List.length_cons, Bool.false_eq_true]
  cases pt tok <;> rfl

theorem PS_not_nil {pt : Str → Except PErr T} {tok seqs} (h : isNot tok = true) :
    PS pt [tok] seqs = .error .prematureEof := by
  obtain ⟨h1, h2, h3, h4⟩ := not_facts h
  simp [PS, parseSeq, h, h1, h2, h3, h4]

theorem PS_not_open {pt : Str → Except PErr T} {tok tok2 ts seqs} (h : isNot tok = true) (h' : isOpen tok2 = true) :
    PS pt (tok :: tok2 :: ts) seqs = afterSub pt (fun sub => .not (sub.map .and)) seqs (PS pt ts [[]]) := by
  obtain ⟨h1, h2, h3, h4⟩ := not_facts h
  rw [PS]
  simp only [parseSeq, h, h1, h2, h3, h4, h', if_true, if_false, List.length_cons, afterSub, Bool.false_eq_true]
  rw [parseSeq_eq_PS (f := ts.length + 1 + 1) (by omega)]
  split
  · rename_i heq; rw [heq]
  · rename_i heq; rw [heq]
  · rename_i heq; rw [heq]; simp only
    have := PS_length heq
    rw [parseSeq_eq_PS (by simp at this; omega)]

theorem PS_not_word {pt : Str → Except PErr T} {tok tok2 ts seqs} (h : isNot tok = true) (h' : Word tok2) :
    PS pt (tok :: tok2 :: ts) seqs = match pt tok2 with
      | .error e => .error e
      | .ok t => PS pt ts (appendLast (.not [.and [.test t]]) seqs) := by
  obtain ⟨h1, h2, h3, h4⟩ := not_facts h
  obtain ⟨g1, g2, g3, g4, g5⟩ := word_iff.1 h'
  rw [PS]
  simp only [parseSeq, h, h1, h2, h3, h4, g1, g2, g3, g4, g5, if_true, if_false, List.length_cons, Bool.false_eq_true,
    Bool.or_self]
  cases pt tok2 with
  | error e => rfl
  | ok t => simp only; rw [parseSeq_eq_PS (by omega)]

theorem PS_not_bad {pt : Str → Except PErr T} {tok tok2 ts seqs} (h : isNot tok = true) (ho : isOpen tok2 = false)
    (h' : ¬ Word tok2) : PS pt (tok :: tok2 :: ts) seqs = .error .unexpectedToken := by
  obtain ⟨h1, h2, h3, h4⟩ := not_facts h
  have : (isAnd tok2 || isOr tok2 || isNot tok2 || isClose tok2) = true := by
    rw [word_iff] at h'
    by_cases a1 : isAnd tok2 = true <;> by_cases a2 : isOr tok2 = true <;> by_cases a3 : isNot tok2 = true <;>
      by_cases a4 : isClose tok2 = true <;> simp_all
  rw [PS]
  simp only [parseSeq, h, h1, h2, h3, h4, ho, this, if_true, if_false, Bool.false_eq_true]

theorem parse_eq (pt : Str → Except PErr T) (ts : List Str) : parse pt ts =
    match PS pt ts [[]] with
    | .error e => .error e
    | .ok ([], seqs) => .ok seqs
    | .ok (_ :: _, _) => .error .superfluousClosing := rfl

/-- Every token is of one of the classes. -/
theorem token_cases (t : Str) : isOpen t = true ∨ isClose t = true ∨ isAnd t = true ∨ isOr t = true ∨ isNot t = true ∨ Word t := by
  rw [word_iff]
  by_cases a0 : isOpen t = true <;> by_cases a1 : isAnd t = true <;> by_cases a2 : isOr t = true <;> by_cases a3 : isNot t = true <;>
      by_cases a4 : isClose t = true <;> simp_all

theorem PS_no_fuel_error (pt : Str → Except PErr T) (hpt : ∀ s, pt s ≠ .error .fuel) : ∀ n ts seqs, ts.length ≤ n →
    PS pt ts seqs ≠ .error .fuel := by
  intro n
  induction n with
  | zero =>
    intro ts seqs h
    cases ts with
    | nil => rw [PS_nil]; split <;> simp
    | cons t ts => simp at h
  | succ n ih =>
    intro ts seqs h
    have hsub : ∀ mk ts', ts'.length ≤ n → afterSub pt mk seqs (PS pt ts' [[]]) ≠ .error .fuel := by
      intro mk ts' hl
      have h1 := ih ts' [[]] hl
      unfold afterSub
      split
      · rename_i heq; rw [heq] at h1; simpa using h1
      · simp
      · rename_i heq
        have := PS_length heq
        exact ih _ _ (by simp at this; omega)
    cases ts with
    | nil => rw [PS_nil]; split <;> simp
    | cons t ts =>
      simp only [List.length_cons] at h
      rcases token_cases t with h1 | h1 | h1 | h1 | h1 | h1
      · rw [PS_open h1]; exact hsub _ _ (by omega)
      · rw [PS_close h1]; split <;> simp
      · rw [PS_and h1]; exact ih _ _ (by omega)
      · rw [PS_or h1]; exact ih _ _ (by omega)
      · cases ts with
        | nil => rw [PS_not_nil h1]; simp
        | cons t2 ts =>
          simp only [List.length_cons] at h
          by_cases h2 : isOpen t2 = true
          · rw [PS_not_open h1 h2]; exact hsub _ _ (by omega)
          · by_cases h3 : Word t2
            · rw [PS_not_word h1 h3]
              split
              · rename_i heq; intro hc; simp at hc; subst hc; exact hpt _ heq
              · exact ih _ _ (by omega)
            · rw [PS_not_bad h1 (by simpa using h2) h3]; simp
      · rw [PS_word h1]
        split
        · rename_i heq; intro hc; simp at hc; subst hc; exact hpt _ heq
        · exact ih _ _ (by omega)

/-- The fuel of the model is always sufficient. -/
theorem parse_fuel_never (pt : Str → Except PErr T) (hpt : ∀ s, pt s ≠ .error .fuel) (ts : List Str) :
    parse pt ts ≠ .error .fuel := by
  rw [parse_eq]
  have := PS_no_fuel_error pt hpt ts.length ts [[]] (Nat.le_refl _)
  split
  · rename_i heq; rw [heq] at this; simpa using this
  · simp
  · simp

/-! ### appendLast, lastEmpty -/

theorem appendLast_append (x : Node T) (pre : List (List (Node T))) (cur : List (Node T)) :
    appendLast x (pre ++ [cur]) = pre ++ [cur ++ [x]] := by
  induction pre with
  | nil => rfl
  | cons a as ih =>
    cases as with
    | nil => simp [appendLast]
    | cons b bs => simp only [List.cons_append, appendLast] at *; rw [ih]

theorem lastEmpty_append (pre : List (List (Node T))) (cur : List (Node T)) :
    lastEmpty (pre ++ [cur]) = cur.isEmpty := by simp [lastEmpty]

/-! ### Evaluation -/

theorem evalAll_append (env : T → Option Bool) (l m : List (Node T)) :
    evalAll env (l ++ m) = (evalAll env l && evalAll env m) := by
  induction l with
  | nil => simp [evalAll]
  | cons a l ih => simp [evalAll, ih, Bool.and_assoc]

theorem evalAny_append (env : T → Option Bool) (l m : List (Node T)) :
    evalAny env (l ++ m) = (evalAny env l || evalAny env m) := by
  induction l with
  | nil => simp [evalAny]
  | cons a l ih => simp [evalAny, ih, Bool.or_assoc]

theorem evalAll_eq_all (env : T → Option Bool) (l : List (Node T)) : evalAll env l = l.all (evalNode env) := by
  induction l with
  | nil => rfl
  | cons a l ih => simp [evalAll, ih]

theorem evalAny_eq_any (env : T → Option Bool) (l : List (Node T)) : evalAny env l = l.any (evalNode env) := by
  induction l with
  | nil => rfl
  | cons a l ih => simp [evalAny, ih]

/-- Evaluation of a list of AND lists. -/
def evalSeqs (env : T → Option Bool) (seqs : List (List (Node T))) : Bool := seqs.any (fun l => evalAll env l)

theorem evalAny_map_and (env : T → Option Bool) (seqs : List (List (Node T))) :
    evalAny env (seqs.map .and) = evalSeqs env seqs := by
  rw [evalAny_eq_any, List.any_map, evalSeqs]; congr 1

theorem matcherTest_of_nonempty {env : T → Option Bool} {seqs : List (List (Node T))} (h : ∃ l ∈ seqs, l ≠ []) :
    matcherTest seqs env = evalSeqs env seqs := by
  have : filterEmpty seqs = false := by
    obtain ⟨l, hl, hne⟩ := h
    simp only [filterEmpty, List.isEmpty_eq_false_iff, ne_eq, List.flatten_eq_nil_iff]
    exact fun h => hne (h l hl)
  simp [matcherTest, this, evalAny_map_and]

/-! ### optimize -/

theorem all_perm {α} {p : α → Bool} {l m : List α} (h : l.Perm m) : l.all p = m.all p := by
  rw [Bool.eq_iff_iff]; simp only [List.all_eq_true]
  exact ⟨fun hh x hx => hh x (h.mem_iff.2 hx), fun hh x hx => hh x (h.mem_iff.1 hx)⟩

theorem any_perm {α} {p : α → Bool} {l m : List α} (h : l.Perm m) : l.any p = m.any p := by
  rw [Bool.eq_iff_iff]; simp only [List.any_eq_true]
  exact ⟨fun ⟨x, hx, hp⟩ => ⟨x, h.mem_iff.1 hx, hp⟩, fun ⟨x, hx, hp⟩ => ⟨x, h.mem_iff.2 hx, hp⟩⟩

end FF
