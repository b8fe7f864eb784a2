import Verif.Spec.Help
import Verif.Props.Message
import Verif.Props.Sort
import Verif.Props.OutputFile
/-! C111: the reference pages show everything. -/
namespace FF
open Spec

/-! ### Reading text -/

/-- The mode of a reader of text. -/
def rmode (st : Bool) : RoffMode := if st then .start else .mid

/-- Whether a reader is at the beginning of a line after the text. -/
def afterText (st : Bool) (g : Str) : Bool := match g.getLast? with | none => st | some c => c = '\n'

/-- No line of the text begins with a request. -/
def okLines : Bool → Str → Bool
  | _, [] => true
  | st, c :: s => !(st && (c = '.' || c = '\'')) && okLines (c = '\n') s

theorem afterText_cons (st : Bool) (c : Char) (g : Str) : afterText st (c :: g) = afterText (c = '\n') g := by
  unfold afterText
  cases g with
  | nil => rfl
  | cons d g => rw [List.getLast?_cons_cons]; cases h : (d :: g).getLast? with
    | none => simp at h
    | some x => rfl

theorem afterText_append (st : Bool) (a b : Str) : afterText st (a ++ b) = afterText (afterText st a) b := by
  induction a generalizing st with
  | nil => rfl
  | cons c a ih => rw [List.cons_append, afterText_cons, afterText_cons, ih]

theorem okLines_append (st : Bool) (a b : Str) : okLines st (a ++ b) = (okLines st a && okLines (afterText st a) b) := by
  induction a generalizing st with
  | nil => rfl
  | cons c a ih => simp only [List.cons_append, okLines, ih, afterText_cons, Bool.and_assoc]

theorem okLines_false {g : Str} (h : okLines true g = true) : okLines false g = true := by
  cases g with
  | nil => rfl
  | cons c g => simp only [okLines, Bool.and_eq_true] at h ⊢; exact ⟨by simp, h.2⟩

theorem okLines_any {st : Bool} {g : Str} (h : okLines st g = true) : okLines false g = true := by
  cases st with
  | true => exact okLines_false h
  | false => exact h

theorem escapeDashes_append (a b : Str) : escapeDashes (a ++ b) = escapeDashes a ++ escapeDashes b := by
  induction a with
  | nil => rfl
  | cons c a ih => simp only [List.cons_append, escapeDashes]; split <;> simp [ih]

theorem textSeen_append (K : CharKinds) (a b : Str) : textSeen K (a ++ b) = textSeen K a ++ textSeen K b := by simp [textSeen]

theorem visible_append (K : CharKinds) (a b : List Seen) : visible K (a ++ b) = visible K a ++ visible K b := by simp [visible]

theorem visible_ch (K : CharKinds) (c : Char) (l : List Seen) : visible K (.ch c :: l) = textSeen K [c] ++ visible K l := by
  cases h : Unseen K c <;> simp [visible, textSeen, h]

theorem seen_plain (st : Bool) (c : Char) (s : Str) (h1 : c ≠ '\\') (h2 : c ≠ '\n') (h3 : st = true → c ≠ '.' ∧ c ≠ '\'') : seen (rmode st) (c :: s) = .ch c :: seen .mid s := by
  cases st with
  | true => obtain ⟨h3, h4⟩ := h3 rfl; simp [rmode, seen, h1, h2, h3, h4]
  | false => simp [rmode, seen, h1, h2]

theorem seen_newline (st : Bool) (s : Str) : seen (rmode st) ('\n' :: s) = seen .start s := by
  cases st <;> simp [rmode, seen]

theorem seen_dash (st : Bool) (s : Str) : seen (rmode st) ('\\' :: '-' :: s) = .ch '-' :: seen .mid s := by
  cases st <;> simp [rmode, seen]

theorem seen_font (st : Bool) (x : Char) (s : Str) : seen (rmode st) ('\\' :: 'f' :: x :: s) = seen .mid s := by
  cases st <;> simp [rmode, seen]

/-- A text without backslashes and requests is seen as it is. -/
theorem seen_text {K : CharKinds} (hK : Blanks K) {g : Str} (hb : '\\' ∉ g) : ∀ {st : Bool}, okLines st g = true → ∀ b,
    visible K (seen (rmode st) (escapeDashes g ++ b)) = textSeen K g ++ visible K (seen (rmode (afterText st g)) b) := by
  induction g with
  | nil => intro st _ b; rfl
  | cons c g ih =>
    intro st ho b
    have hb' : '\\' ∉ g := fun h => hb (List.mem_cons_of_mem _ h)
    have hc : c ≠ '\\' := fun h => hb (by rw [h]; simp)
    simp only [okLines, Bool.and_eq_true] at ho
    rw [afterText_cons, show c :: g = [c] ++ g from rfl, textSeen_append, List.append_assoc]
    by_cases hn : c = '\n'
    · subst hn
      rw [← ih hb' ho.2 b]
      have : textSeen K ['\n'] = [] := by simp [textSeen, Unseen, hK.newline]
      rw [this, List.nil_append]
      show visible K (seen (rmode st) ('\n' :: (escapeDashes g ++ b))) = _
      rw [seen_newline]; rfl
    · rw [decide_eq_false hn] at ho ⊢
      rw [← ih hb' ho.2 b, ← visible_ch]
      by_cases hd : c = '-'
      · subst hd
        show visible K (seen (rmode st) ('\\' :: '-' :: (escapeDashes g ++ b))) = _
        rw [seen_dash]; rfl
      · rw [show escapeDashes ([c] ++ g) ++ b = c :: (escapeDashes g ++ b) by simp [escapeDashes, hd]]
        rw [seen_plain st c _ hc hn (fun hs => by
          subst hs
          have := ho.1
          simp only [Bool.true_and, Bool.not_eq_true', Bool.or_eq_false_iff, decide_eq_false_iff_not] at this
          exact this)]
        rfl

/-! ### The regular expression -/

/-- What a replacement has to do. -/
def GoodReplacement (K : CharKinds) (s r rest : Str) : Prop :=
  ∃ used, s = used ++ rest ∧ used ≠ [] ∧ used.getLast? ≠ some '\n' ∧ ∀ st b, okLines st used = true → '\\' ∉ used →
    visible K (seen (rmode st) (escapeDashes r ++ b)) = textSeen K used ++ visible K (seen .mid b)

theorem font_seen (K : CharKinds) (st : Bool) (f : Str) (hf : f = bdFont ∨ f = itFont ∨ f = rsFont) (b : Str) :
    visible K (seen (rmode st) (escapeDashes f ++ b)) = visible K (seen (rmode false) b) := by
  rcases hf with rfl | rfl | rfl <;> exact congrArg _ (seen_font st _ b)

theorem span_eq {p : Char → Bool} (t : Str) : t.takeWhile p ++ t.dropWhile p = t := List.takeWhile_append_dropWhile

/-- Text in another font. -/
theorem seen_marked {K : CharKinds} (hK : Blanks K) {f g : Str} (hf : f = bdFont ∨ f = itFont) (hg : '\\' ∉ g) (st : Bool) (ho : okLines false g = true) (b : Str) :
    visible K (seen (rmode st) (escapeDashes (f ++ g ++ rsFont) ++ b)) = textSeen K g ++ visible K (seen .mid b) := by
  rw [escapeDashes_append, escapeDashes_append, List.append_assoc, List.append_assoc, font_seen K st f (hf.imp_right .inl), seen_text hK hg ho,
    font_seen K _ rsFont (.inr (.inr rfl))]
  rfl

theorem tick_unseen (K : CharKinds) : textSeen K ['`'] = [] := by simp [textSeen, Unseen]

theorem dropWhile_ne_head {a : Char} {t : Str} (h : t.dropWhile (· ≠ a) ≠ []) : t.dropWhile (· ≠ a) = a :: (t.dropWhile (· ≠ a)).tail := by
  have h1 := List.head?_dropWhile_not (fun c : Char => decide (c ≠ a)) t
  cases hd : t.dropWhile (fun c : Char => decide (c ≠ a)) with
  | nil => exact absurd hd h
  | cons x y =>
    rw [hd] at h1
    simp only [List.head?_cons, decide_eq_true_eq, Option.all_some, decide_not, Bool.not_not] at h1
    simp_all

theorem quoteMatch_good {K : CharKinds} (hK : Blanks K) {s r rest : Str} (h : quoteMatch K s = some (r, rest)) : GoodReplacement K s r rest := by
  cases s with
  | nil => exact nomatch h
  | cons q t =>
    simp only [quoteMatch] at h
    split at h
    · exact nomatch h
    · rename_i hn
      simp only [not_or] at hn
      obtain ⟨h1, -, -, h4⟩ := hn
      have h1 := Decidable.not_not.1 h1
      subst h1
      simp only [Option.some.injEq, Prod.mk.injEq] at h
      obtain ⟨rfl, rfl⟩ := h
      have ht := span_eq (p := fun c => decide (c ≠ '\'')) t
      rw [dropWhile_ne_head h4] at ht
      generalize t.takeWhile (fun c => decide (c ≠ '\'')) = g at ht ⊢
      generalize (t.dropWhile (fun c => decide (c ≠ '\''))).tail = rest at ht ⊢
      subst ht
      refine ⟨'\'' :: g ++ ['\''], by simp, by simp, by rw [List.getLast?_append]; simp, fun st b ho hb => ?_⟩
      have hst : st = false := by
        simp only [List.cons_append, okLines, Bool.and_eq_true] at ho
        have := ho.1
        cases st <;> simp_all
      subst hst
      have hg : okLines false g = true := by
        simp only [List.cons_append, okLines, Bool.and_eq_true, okLines_append] at ho
        exact ho.2.1
      have hbg : '\\' ∉ g := fun h => hb (by simp [h])
      rw [escapeDashes_append, escapeDashes_append, List.append_assoc, List.append_assoc]
      show visible K (seen (rmode false) ('\'' :: _)) = _
      rw [seen_plain false _ _ (by decide) (by decide) (by simp), visible_ch]
      show _ ++ visible K (seen (rmode false) (escapeDashes (itFont ++ g ++ rsFont) ++ (escapeDashes ['\''] ++ b))) = _
      rw [seen_marked hK (.inr rfl) hbg false hg, List.cons_append, show '\'' :: (g ++ ['\'']) = ['\''] ++ (g ++ ['\'']) from rfl, textSeen_append, textSeen_append]
      simp only [List.append_assoc]
      congr 2
      show visible K (seen (rmode false) ('\'' :: _)) = _
      rw [seen_plain false _ _ (by decide) (by decide) (by simp), visible_ch]
      rfl

theorem take_split {n : Nat} {s p : Str} (h : s.take n = p) : s = p ++ s.drop n := by rw [← h, List.take_append_drop]

theorem ticksMatch_good {K : CharKinds} (hK : Blanks K) {s r rest : Str} (h : ticksMatch s = some (r, rest)) : GoodReplacement K s r rest := by
  unfold ticksMatch at h
  split at h
  · exact nomatch h
  · rename_i hn
    simp only [not_or, ne_eq, Decidable.not_not] at hn
    obtain ⟨h1, -, h3⟩ := hn
    simp only [Option.some.injEq, Prod.mk.injEq] at h
    obtain ⟨rfl, rfl⟩ := h
    have e1 := take_split h1
    generalize s.drop 2 = t at *
    subst e1
    have e2 := take_split h3
    have ht := span_eq (p := fun c => decide (c ≠ '`')) t
    simp only [ne_eq] at ht
    generalize t.takeWhile (fun c => decide (¬ c = '`')) = g at *
    generalize t.dropWhile (fun c => decide (¬ c = '`')) = d at *
    generalize d.drop 2 = rest at *
    subst e2
    subst ht
    refine ⟨['`', '`'] ++ g ++ ['`', '`'], by simp, by simp, by rw [List.getLast?_append]; simp, fun st b ho hb => ?_⟩
    have hg : okLines false g = true := by
      rw [okLines_append, okLines_append, Bool.and_eq_true, Bool.and_eq_true] at ho
      exact okLines_any ho.1.2
    have hbg : '\\' ∉ g := fun h => hb (by simp [h])
    rw [seen_marked hK (.inr rfl) hbg st hg, textSeen_append, textSeen_append]
    simp [textSeen, Unseen]

theorem tickMatch_good {K : CharKinds} (hK : Blanks K) {s r rest : Str} (h : tickMatch s = some (r, rest)) : GoodReplacement K s r rest := by
  unfold tickMatch at h
  split at h
  · exact nomatch h
  · rename_i hn
    simp only [not_or, ne_eq, Decidable.not_not] at hn
    obtain ⟨h1, -, h3⟩ := hn
    simp only [Option.some.injEq, Prod.mk.injEq] at h
    obtain ⟨rfl, rfl⟩ := h
    have e1 := take_split h1
    generalize s.drop 1 = t at *
    subst e1
    have e2 := take_split h3
    have ht := span_eq (p := fun c => decide (c ≠ '`')) t
    simp only [ne_eq] at ht
    generalize t.takeWhile (fun c => decide (¬ c = '`')) = g at *
    generalize t.dropWhile (fun c => decide (¬ c = '`')) = d at *
    generalize d.drop 1 = rest at *
    subst e2
    subst ht
    refine ⟨['`'] ++ g ++ ['`'], by simp, by simp, by rw [List.getLast?_append]; simp, fun st b ho hb => ?_⟩
    have hg : okLines false g = true := by
      rw [okLines_append, okLines_append, Bool.and_eq_true, Bool.and_eq_true] at ho
      exact okLines_any ho.1.2
    have hbg : '\\' ∉ g := fun h => hb (by simp [h])
    rw [seen_marked hK (.inl rfl) hbg st hg, textSeen_append, textSeen_append]
    simp [textSeen, Unseen]

theorem pageMatch_good {K : CharKinds} (hK : Blanks K) (hd : NotDigits K) {s r rest : Str} (h : pageMatch K s = some (r, rest)) :
    GoodReplacement K s r rest := by
  unfold pageMatch at h
  split at h
  · rename_i p d q rest' he
    split at h
    · exact nomatch h
    · rename_i hn
      simp only [not_or, ne_eq, Decidable.not_not] at hn
      obtain ⟨-, rfl, rfl, h4⟩ := hn
      simp only [Option.some.injEq, Prod.mk.injEq] at h
      obtain ⟨rfl, rfl⟩ := h
      have ht := span_eq (p := isPageChar) s
      rw [he] at ht
      generalize s.takeWhile isPageChar = g at *
      subst ht
      have hd1 : d ≠ '\n' := by rintro rfl; simp [hd.1] at h4
      have hd2 : d ≠ '\\' := by rintro rfl; simp [hd.2.1] at h4
      have hd3 : d ≠ '-' := by rintro rfl; simp [hd.2.2] at h4
      refine ⟨g ++ ['(', d, ')'], by simp, by simp, by simp, fun st b ho hb => ?_⟩
      rw [okLines_append, Bool.and_eq_true] at ho
      have hbg : '\\' ∉ g := fun h => hb (by simp [h])
      rw [escapeDashes_append, List.append_assoc, seen_marked hK (.inl rfl) hbg st (okLines_any ho.1), textSeen_append]
      rw [List.append_assoc]
      congr 1
      have := seen_text hK (g := ['(', d, ')']) (st := false) (by simp; exact fun h => hd2 h.symm) (by simp [okLines]) b
      exact this
  · exact nomatch h

theorem alpha_ne {c : Char} (h : c.isAlpha = true) : c ≠ '\n' ∧ c ≠ '\\' ∧ c ≠ '.' ∧ c ≠ '\'' := by
  refine ⟨?_, ?_, ?_, ?_⟩ <;> rintro rfl <;> exact absurd h (by decide)

theorem optionMatch_good {K : CharKinds} (hK : Blanks K) {prev : Option Char} {s r rest : Str} (h : optionMatch prev s = some (r, rest)) : GoodReplacement K s r rest := by
  unfold optionMatch at h
  split at h
  · rename_i d c t
    split at h
    · exact nomatch h
    · rename_i hn
      simp only [not_or, ne_eq, Decidable.not_not] at hn
      obtain ⟨rfl, -⟩ := hn
      split at h
      · rename_i hc
        simp only [Option.some.injEq, Prod.mk.injEq] at h
        obtain ⟨rfl, rfl⟩ := h
        exact ⟨['-', c], rfl, by simp, by simpa using (alpha_ne hc).1, fun st b ho hb => seen_marked hK (.inl rfl) hb st (okLines_any ho) b⟩
      · split at h
        · rename_i hc
          obtain ⟨rfl, hg⟩ := hc
          simp only [Option.some.injEq, Prod.mk.injEq] at h
          obtain ⟨rfl, rfl⟩ := h
          refine ⟨'-' :: '-' :: t.takeWhile isOptionChar, by simp, by simp, ?_, fun st b ho hb => seen_marked hK (.inl rfl) hb st (okLines_any ho) b⟩
          intro hl
          have hm : '\n' ∈ '-' :: '-' :: t.takeWhile isOptionChar := List.mem_of_getLast? hl
          simp only [List.mem_cons, show ¬ '\n' = '-' by decide, false_or] at hm
          exact absurd (List.all_eq_true.1 List.all_takeWhile _ hm) (by decide)
        · exact nomatch h
  · exact nomatch h

theorem helpMatch_good {K : CharKinds} (hK : Blanks K) (hd : NotDigits K) {prev : Option Char} {s r rest : Str}
    (h : helpMatch K prev s = some (r, rest)) : GoodReplacement K s r rest := by
  unfold helpMatch at h
  cases h1 : quoteMatch K s with
  | some x => rw [h1] at h; cases h; exact quoteMatch_good hK h1
  | none =>
    rw [h1] at h
    cases h2 : ticksMatch s with
    | some x => rw [h2] at h; cases h; exact ticksMatch_good hK h2
    | none =>
      rw [h2] at h
      cases h3 : tickMatch s with
      | some x => rw [h3] at h; cases h; exact tickMatch_good hK h3
      | none =>
        rw [h3] at h
        cases h4 : pageMatch K s with
        | some x => rw [h4] at h; cases h; exact pageMatch_good hK hd h4
        | none => rw [h4] at h; exact optionMatch_good hK h

theorem helpSub_seen {K : CharKinds} (hK : Blanks K) (hd : NotDigits K) : ∀ (n : Nat) (prev : Option Char) (s : Str) (st : Bool), okLines st s = true → '\\' ∉ s → ∀ b,
    visible K (seen (rmode st) (escapeDashes (helpSub K n prev s) ++ b)) = textSeen K s ++ visible K (seen (rmode (afterText st s)) b) := by
  intro n
  induction n with
  | zero =>
    intro prev s st ho hb b
    cases s with
    | nil => rfl
    | cons c s => exact seen_text hK hb ho b
  | succ n ih =>
    intro prev s st ho hb b
    cases s with
    | nil => rfl
    | cons c s =>
      unfold helpSub
      split
      · rename_i r rest h
        obtain ⟨used, hs, hne, hl, hgood⟩ := helpMatch_good hK hd h
        rw [hs] at ho hb
        rw [okLines_append, Bool.and_eq_true] at ho
        have hbu : '\\' ∉ used := fun h => hb (by simp [h])
        have hbr : '\\' ∉ rest := fun h => hb (by simp [h])
        have ha : afterText st used = false := by
          unfold afterText
          cases hu : used.getLast? with
          | none => rw [List.getLast?_eq_none_iff] at hu; exact absurd hu hne
          | some x => rw [hu] at hl; simpa using hl
        rw [ha] at ho
        rw [escapeDashes_append, List.append_assoc, hgood st _ ho.1 hbu]
        have := ih (((c :: s).take ((c :: s).length - rest.length)).getLast?) rest false ho.2 hbr b
        rw [show (RoffMode.mid) = rmode false from rfl, this, ← List.append_assoc, ← textSeen_append, hs, afterText_append, ha]
      · have hc : '\\' ∉ [c] := fun h => hb (by simp only [List.mem_singleton] at h; rw [h]; simp)
        have hb' : '\\' ∉ s := fun h => hb (List.mem_cons_of_mem _ h)
        simp only [okLines, Bool.and_eq_true] at ho
        rw [show c :: helpSub K n (some c) s = [c] ++ helpSub K n (some c) s from rfl, escapeDashes_append, List.append_assoc,
          seen_text hK hc (st := st) (by simp only [okLines, Bool.and_true]; exact ho.1), afterText_cons, afterText_cons]
        show textSeen K [c] ++ visible K (seen (rmode (decide (c = '\n'))) _) = _
        rw [ih (some c) s _ ho.2 hb', ← List.append_assoc, ← textSeen_append]
        rfl

/-! ### Paragraphs -/

theorem textSeen_blank {K : CharKinds} {c : Char} (h : K.space c = true) : textSeen K [c] = [] := by simp [textSeen, Unseen, h]

theorem pyWords_seen {K : CharKinds} (hK : Blanks K) (s : Str) : ∀ w : Str, textSeen K (joinStr [' '] (pyWords K.space w s)) = textSeen K (w ++ s) := by
  induction s with
  | nil => intro w; unfold pyWords; split <;> simp_all [joinStr]
  | cons c s ih =>
    intro w
    unfold pyWords
    by_cases hc : K.space c = true
    · rw [if_pos hc]
      have e : textSeen K (w ++ c :: s) = textSeen K w ++ textSeen K s := by
        rw [show c :: s = [c] ++ s from rfl, textSeen_append, textSeen_append, textSeen_blank hc]; rfl
      rw [e]
      split
      · rename_i hw; rw [ih, hw]; rfl
      · have h := ih []
        rw [List.nil_append] at h
        cases hp : pyWords K.space [] s with
        | nil => rw [hp] at h; rw [← h]; simp [joinStr, textSeen]
        | cons x xs => rw [hp] at h; rw [← h]; simp only [joinStr]; rw [textSeen_append, textSeen_append, textSeen_blank hK.blank]; rfl
    · rw [if_neg hc, ih]
      simp

theorem splitNN_seen {K : CharKinds} (hK : Blanks K) (f : Str → Str) (hf : ∀ p, textSeen K (f p) = textSeen K p) : ∀ (n : Nat) (t : Str), t.length ≤ n →
    splitNN t ≠ [] ∧ textSeen K (joinStr ['\n', '\n'] ((splitNN t).map f)) = textSeen K t := by
  have hj : ∀ (p : Str) (ps : List Str), textSeen K (joinStr ['\n', '\n'] (f p :: ps.map f)) = textSeen K p ++ textSeen K (joinStr ['\n', '\n'] (ps.map f)) := by
    intro p ps
    cases ps with
    | nil => show textSeen K (f p) = _ ++ []; rw [hf, List.append_nil]
    | cons q qs =>
      simp only [List.map_cons, joinStr]
      rw [textSeen_append, textSeen_append, hf]
      simp [textSeen, Unseen, hK.newline]
  intro n
  induction n with
  | zero => intro t ht; have : t = [] := List.length_eq_zero_iff.1 (by omega); subst this; exact ⟨by simp [splitNN], by simp [splitNN, joinStr, hf]⟩
  | succ n ih =>
    intro t ht
    match t, ht with
    | [], _ => exact ⟨by simp [splitNN], by simp [splitNN, joinStr, hf]⟩
    | [c], _ => exact ⟨by simp [splitNN], by simp [splitNN, joinStr, hf]⟩
    | c :: d :: s, ht =>
      unfold splitNN
      split
      · rename_i h
        obtain ⟨rfl, rfl⟩ := h
        refine ⟨by simp, ?_⟩
        rw [List.map_cons, hj, (ih s (by simp only [List.length_cons] at ht; omega)).2]
        simp [textSeen, Unseen, hK.newline]
      · have h1 := ih (d :: s) (by simp only [List.length_cons] at ht ⊢; omega)
        split
        · rename_i h; exact absurd h h1.1
        · rename_i w ws h
          refine ⟨by simp, ?_⟩
          rw [h, List.map_cons, hj] at h1
          rw [List.map_cons, hj, show c :: w = [c] ++ w from rfl, textSeen_append, List.append_assoc, h1.2, ← textSeen_append]
          rfl

theorem collapse_seen {K : CharKinds} (hK : Blanks K) (t : Str) : textSeen K (collapse K t) = textSeen K t :=
  (splitNN_seen hK _ (fun p => by rw [pyWords_seen hK, List.nil_append]) t.length t (Nat.le_refl _)).2

theorem mem_joinStr {c : Char} {sep : Str} : ∀ {ws : List Str}, c ∈ joinStr sep ws → c ∈ sep ∨ ∃ w ∈ ws, c ∈ w
  | [], h => by simp [joinStr] at h
  | [w], h => .inr ⟨w, by simp, h⟩
  | w :: x :: ws, h => by
    simp only [joinStr, List.mem_append] at h
    rcases h with h | h | h
    · exact .inr ⟨w, by simp, h⟩
    · exact .inl h
    · rcases mem_joinStr h with h | ⟨y, hy, h⟩
      · exact .inl h
      · exact .inr ⟨y, List.mem_cons_of_mem _ hy, h⟩

theorem mem_pyWords {space : Char → Bool} {s : Str} : ∀ {w x : Str} {c : Char}, x ∈ pyWords space w s → c ∈ x → c ∈ w ∨ (c ∈ s) := by
  induction s with
  | nil =>
    intro w x c h hc
    unfold pyWords at h
    split at h
    · simp at h
    · simp only [List.mem_singleton] at h; subst h; exact .inl hc
  | cons d s ih =>
    intro w x c h hc
    unfold pyWords at h
    split at h
    · split at h
      · rcases ih h hc with h | h
        · simp at h
        · exact .inr (List.mem_cons_of_mem _ h)
      · rw [List.mem_cons] at h
        rcases h with rfl | h
        · exact .inl hc
        · rcases ih h hc with h | h
          · simp at h
          · exact .inr (List.mem_cons_of_mem _ h)
    · rcases ih h hc with h | h
      · rw [List.mem_append, List.mem_singleton] at h
        rcases h with h | rfl
        · exact .inl h
        · exact .inr (by simp)
      · exact .inr (List.mem_cons_of_mem _ h)

/-- The words of a text contain no blanks. -/
theorem pyWords_solid {space : Char → Bool} {s : Str} : ∀ {w : Str}, (∀ c ∈ w, space c = false) → ∀ x ∈ pyWords space w s, x ≠ [] ∧ ∀ c ∈ x, space c = false := by
  induction s with
  | nil =>
    intro w hw x h
    unfold pyWords at h
    split at h
    · simp at h
    · simp only [List.mem_singleton] at h; subst h; exact ⟨by assumption, hw⟩
  | cons d s ih =>
    intro w hw x h
    unfold pyWords at h
    split at h
    · split at h
      · exact ih (by simp) x h
      · rw [List.mem_cons] at h
        rcases h with rfl | h
        · exact ⟨by assumption, hw⟩
        · exact ih (by simp) x h
    · rename_i hd
      refine ih (fun c hc => ?_) x h
      rw [List.mem_append, List.mem_singleton] at hc
      rcases hc with hc | rfl
      · exact hw c hc
      · simpa using hd

/-- The first character of the words. -/
theorem pyWords_head {space : Char → Bool} {s : Str} : ∀ {w : Str}, (joinStr [' '] (pyWords space w s)).head? = if w = [] then (s.dropWhile space).head? else w.head? := by
  induction s with
  | nil =>
    intro w
    unfold pyWords
    by_cases hw : w = []
    · simp [hw, joinStr]
    · simp [hw, joinStr]
  | cons d s ih =>
    intro w
    unfold pyWords
    by_cases hd : space d = true
    · rw [if_pos hd]
      by_cases hw : w = []
      · rw [if_pos hw, if_pos hw, ih, if_pos rfl, List.dropWhile_cons_of_pos hd]
      · rw [if_neg hw, if_neg hw]
        cases pyWords space [] s with
        | nil => rfl
        | cons x xs => simp only [joinStr]; cases w with
          | nil => exact absurd rfl hw
          | cons c w => rfl
    · rw [if_neg hd, ih, if_neg (by simp), List.dropWhile_cons_of_neg hd]
      by_cases hw : w = []
      · simp [hw]
      · rw [if_neg hw]; cases w with
        | nil => exact absurd rfl hw
        | cons c w => rfl

theorem splitNN_mem {c : Char} : ∀ (n : Nat) {t p : Str}, t.length ≤ n → p ∈ splitNN t → c ∈ p → c ∈ t := by
  intro n
  induction n with
  | zero => intro t p ht hp hc; have : t = [] := List.length_eq_zero_iff.1 (by omega); subst this; simp [splitNN] at hp; subst hp; exact hc
  | succ n ih =>
    intro t p ht hp hc
    match t, ht, hp with
    | [], _, hp => simp [splitNN] at hp; subst hp; exact hc
    | [x], _, hp => simp [splitNN] at hp; subst hp; exact hc
    | x :: y :: s, ht, hp =>
      unfold splitNN at hp
      simp only [List.length_cons] at ht
      split at hp
      · rw [List.mem_cons] at hp
        rcases hp with rfl | hp
        · simp at hc
        · exact List.mem_cons_of_mem _ (List.mem_cons_of_mem _ (ih (by omega) hp hc))
      · split at hp
        · simp only [List.mem_singleton] at hp; subst hp; simp only [List.mem_singleton] at hc; subst hc; simp
        · rename_i w ws h
          rw [List.mem_cons] at hp
          rcases hp with rfl | hp
          · rw [List.mem_cons] at hc
            rcases hc with rfl | hc
            · simp
            · exact List.mem_cons_of_mem _ (ih (t := y :: s) (by simp only [List.length_cons]; omega) (h ▸ List.mem_cons_self ..) hc)
          · exact List.mem_cons_of_mem _ (ih (t := y :: s) (by simp only [List.length_cons]; omega) (h ▸ List.mem_cons_of_mem _ hp) hc)

theorem collapse_backslash {K : CharKinds} {t : Str} (h : '\\' ∉ t) : '\\' ∉ collapse K t := by
  intro hm
  rcases mem_joinStr hm with hm | ⟨w, hw, hm⟩
  · exact absurd hm (by decide)
  · obtain ⟨p, hp, rfl⟩ := List.mem_map.1 hw
    rcases mem_joinStr hm with hm | ⟨x, hx, hm⟩
    · exact absurd hm (by decide)
    · rcases mem_pyWords hx hm with hm | hm
      · simp at hm
      · exact h (splitNN_mem _ (Nat.le_refl _) hp hm)

theorem okLines_solid {g : Str} (hn : '\n' ∉ g) : ∀ {st : Bool}, (st = true → ∀ c, g.head? = some c → c ≠ '.' ∧ c ≠ '\'') → okLines st g = true := by
  induction g with
  | nil => intro st _; rfl
  | cons c g ih =>
    intro st h
    have hc : c ≠ '\n' := fun e => hn (by rw [e]; simp)
    simp only [okLines, Bool.and_eq_true, decide_eq_false hc]
    refine ⟨?_, ih (fun e => hn (List.mem_cons_of_mem _ e)) (fun e => by cases e)⟩
    cases st with
    | false => rfl
    | true => have := h rfl c rfl; simp [this.1, this.2]

theorem okLines_join {ws : List Str} (h : ∀ w ∈ ws, '\n' ∉ w ∧ ∀ c, w.head? = some c → c ≠ '.' ∧ c ≠ '\'') : ∀ {st : Bool}, okLines st (joinStr ['\n', '\n'] ws) = true := by
  induction ws with
  | nil => intro st; rfl
  | cons w ws ih =>
    intro st
    obtain ⟨h1, h2⟩ := h w (by simp)
    cases ws with
    | nil => exact okLines_solid h1 fun _ => h2
    | cons x xs =>
      simp only [joinStr]
      rw [okLines_append, okLines_append, okLines_solid h1 fun _ => h2]
      have e := ih (fun w hw => h w (List.mem_cons_of_mem _ hw)) (st := afterText (afterText st w) ['\n', '\n'])
      rw [e]
      simp [okLines]

theorem collapse_okLines {K : CharKinds} (hK : Blanks K) {t : Str} (h : PlainText K t) : okLines true (collapse K t) = true := by
  refine okLines_join fun w hw => ?_
  obtain ⟨p, hp, rfl⟩ := List.mem_map.1 hw
  refine ⟨fun hm => ?_, fun c hc => ?_⟩
  · rcases mem_joinStr hm with hm | ⟨x, hx, hm⟩
    · exact absurd hm (by decide)
    · have := (pyWords_solid (by simp) x hx).2 _ hm
      rw [hK.newline] at this
      cases this
  · rw [pyWords_head, if_pos rfl] at hc
    exact h.2 p hp c hc

/-- A text on a line of its own is seen as it is. -/
theorem process_seen {K : CharKinds} (hK : Blanks K) (hd : NotDigits K) {t : Str} (h : PlainText K t) (b : Str) :
    visible K (seen .start (roffProcess K t ++ '\n' :: b)) = textSeen K t ++ visible K (seen .start b) := by
  have := helpSub_seen hK hd (collapse K t).length none (collapse K t) true (collapse_okLines hK h) (collapse_backslash h.1) ('\n' :: b)
  rw [show RoffMode.start = rmode true from rfl]
  unfold roffProcess
  rw [this, collapse_seen hK, seen_newline]
  rfl

/-! ### Lines and pages -/

/-- What is seen of a line, with or without one after it. -/
def LineSeen (K : CharKinds) (l : Str) (v : List Seen) : Prop :=
  (∀ b, visible K (seen .start (l ++ '\n' :: b)) = v ++ visible K (seen .start b)) ∧ visible K (seen .start l) = v

/-- What is seen of lines. -/
inductive LinesSeen (K : CharKinds) : List Str → List Seen → Prop
  | nil : LinesSeen K [] []
  | cons {l : Str} {v : List Seen} {ls : List Str} {vs : List Seen} : LineSeen K l v → LinesSeen K ls vs → LinesSeen K (l :: ls) (v ++ vs)

theorem LinesSeen.append {K : CharKinds} {a b : List Str} {v w : List Seen} (ha : LinesSeen K a v) (hb : LinesSeen K b w) : LinesSeen K (a ++ b) (v ++ w) := by
  induction ha with
  | nil => exact hb
  | cons h _ ih => rw [List.append_assoc]; exact .cons h ih

theorem LinesSeen.one {K : CharKinds} {l : Str} {v : List Seen} (h : LineSeen K l v) : LinesSeen K [l] v := by
  have := LinesSeen.cons h .nil
  rwa [List.append_nil] at this

theorem LinesSeen.flatMap {α : Type} {K : CharKinds} {f : α → List Str} {g : α → List Seen} {xs : List α} (h : ∀ x ∈ xs, LinesSeen K (f x) (g x)) :
    LinesSeen K (xs.flatMap f) (xs.flatMap g) := by
  induction xs with
  | nil => exact .nil
  | cons x xs ih =>
    simp only [List.flatMap_cons]
    exact (h x (by simp)).append (ih fun y hy => h y (List.mem_cons_of_mem _ hy))

/-- A page is seen line by line. -/
theorem LinesSeen.page {K : CharKinds} {ls : List Str} {v : List Seen} (h : LinesSeen K ls v) : visible K (seen .start (pageText ls)) = v := by
  unfold pageText
  induction h with
  | nil => rfl
  | @cons l v ls vs h h' ih =>
    cases h' with
    | nil => rw [List.append_nil]; exact h.2
    | cons h1 h2 =>
      simp only [joinStr] at ih ⊢
      rw [List.singleton_append, h.1, ih]

theorem process_line {K : CharKinds} (hK : Blanks K) (hd : NotDigits K) {t : Str} (h : PlainText K t) : LineSeen K (roffProcess K t) (textSeen K t) := by
  refine ⟨process_seen hK hd h, ?_⟩
  have := helpSub_seen hK hd (collapse K t).length none (collapse K t) true (collapse_okLines hK h) (collapse_backslash h.1) []
  rw [List.append_nil, collapse_seen hK] at this
  rw [show RoffMode.start = rmode true from rfl]
  unfold roffProcess
  rw [this]
  cases afterText true (collapse K t) <;> simp [rmode, seen, visible]

theorem plain_nil (K : CharKinds) : PlainText K [] := ⟨by simp, by simp [splitNN]⟩

theorem empty_line {K : CharKinds} (hK : Blanks K) (hd : NotDigits K) : LineSeen K (roffProcess K []) [] := process_line hK hd (plain_nil K)

/-- A request is read to the end of its line. -/
theorem seen_request (l : Str) (hl : '\n' ∉ l) : ∀ (r b : Str), seen (.req r) (l ++ '\n' :: b) = request (r ++ l) ++ seen .start b ∧ seen (.req r) l = request (r ++ l) := by
  induction l with
  | nil => intro r b; simp [seen]
  | cons c l ih =>
    intro r b
    have hc : c ≠ '\n' := fun e => hl (by rw [e]; simp)
    have := ih (fun e => hl (List.mem_cons_of_mem _ e)) (r ++ [c]) b
    simp only [List.append_assoc, List.singleton_append] at this
    rw [List.cons_append, seen, if_neg hc, seen, if_neg hc]
    exact this

theorem request_line (K : CharKinds) {l : Str} (hl : '\n' ∉ l) {v : List Seen} (hv : visible K (request l) = v) : LineSeen K ('.' :: l) v := by
  have h := seen_request l hl []
  simp only [List.nil_append] at h
  refine ⟨fun b => ?_, ?_⟩
  · rw [List.cons_append]
    simp only [seen, show ¬ '.' = '\\' by decide, show ¬ '.' = '\n' by decide, if_false, true_or, if_true]
    rw [(h b).1, visible_append, hv]
  · simp only [seen, show ¬ '.' = '\\' by decide, show ¬ '.' = '\n' by decide, if_false, true_or, if_true]
    rw [(h []).2, hv]

theorem upper_newline {n : Str} (h : '\n' ∉ n) : '\n' ∉ upper n := by
  intro hm
  obtain ⟨c, hc, e⟩ := List.mem_map.1 hm
  refine h ?_
  have : c = '\n' := by
    unfold Char.toUpper at e
    split at e
    · rename_i hr
      have h1 : ((c.val + ('A'.val - 'a'.val)).toNat) = 10 := by
        have := congrArg Char.val e
        simpa using congrArg UInt32.toNat this
      have h2 := hr.1
      have h3 := hr.2
      exfalso
      have h4 : 97 ≤ c.val.toNat := UInt32.le_iff_toNat_le.1 h2
      have h5 : c.val.toNat ≤ 122 := UInt32.le_iff_toNat_le.1 h3
      rw [UInt32.toNat_add] at h1
      have h6 : ('A'.val - 'a'.val).toNat = 4294967264 := by decide
      rw [h6] at h1
      omega
    · exact e
  rwa [← this]

theorem section_line (K : CharKinds) {n : Str} (h : '\n' ∉ n) : LineSeen K (roffSection n) [.heading (upper n)] := by
  refine request_line K (l := "SH ".toList ++ upper n) (fun hm => ?_) ?_
  · rw [List.mem_append] at hm
    rcases hm with hm | hm
    · exact absurd hm (by decide)
    · exact upper_newline h hm
  · rfl

theorem dropFonts_plain {t : Str} (h : '\\' ∉ t) (b : Str) : dropFonts (t ++ b) = t ++ dropFonts b := by
  induction t with
  | nil => rfl
  | cons c t ih =>
    have hc : c ≠ '\\' := fun e => h (by rw [e]; simp)
    have hd : dropFonts (c :: (t ++ b)) = c :: dropFonts (t ++ b) := by
      rw [dropFonts]
      intro x s e
      exact fun _ => hc e
    rw [List.cons_append, hd, ih fun e => h (List.mem_cons_of_mem _ e)]
    rfl

theorem definition_line (K : CharKinds) {n : Str} (h : PlainName n) : LineSeen K (roffDefinition n) [.item n] := by
  obtain ⟨h1, h2, h3⟩ := h
  refine request_line K (l := "IP \"".toList ++ bdFont ++ n ++ rsFont ++ "\" 4".toList) (fun hm => ?_) ?_
  · simp only [List.mem_append] at hm
    rcases hm with (((hm | hm) | hm) | hm) | hm
    · exact absurd hm (by decide)
    · exact absurd hm (by decide)
    · exact h1 hm
    · exact absurd hm (by decide)
    · exact absurd hm (by decide)
  · have e : (("IP \"".toList ++ bdFont ++ n ++ rsFont ++ "\" 4".toList).drop 4) = (bdFont ++ n ++ rsFont) ++ '"' :: " 4".toList := by
      simp [bdFont, rsFont]
    have hw : ∀ c ∈ bdFont ++ n ++ rsFont, decide (c ≠ '"') = true := by
      intro c hc
      simp only [List.mem_append] at hc
      rcases hc with (hc | hc) | hc
      · revert c; decide
      · exact decide_eq_true fun e => h2 (e ▸ hc)
      · revert c; decide
    have hq : request ("IP \"".toList ++ bdFont ++ n ++ rsFont ++ "\" 4".toList) =
        [.item (dropFonts ((("IP \"".toList ++ bdFont ++ n ++ rsFont ++ "\" 4".toList).drop 4).takeWhile (· ≠ '"')))] := rfl
    rw [hq, e, List.takeWhile_append_of_pos hw, List.takeWhile_cons_of_neg (by decide), List.append_nil]
    show [Seen.item (dropFonts (n ++ rsFont))] = _
    rw [dropFonts_plain h3]
    simp [rsFont, dropFonts]

theorem br_process {K : CharKinds} (hK : Blanks K) : roffProcess K brLine = brLine := by
  have h1 := hK.printable '.' (by decide) (by decide)
  have h2 := hK.printable 'b' (by decide) (by decide)
  have h3 := hK.printable 'r' (by decide) (by decide)
  have e : collapse K brLine = brLine := by
    show collapse K ['.', 'b', 'r'] = ['.', 'b', 'r']
    simp [collapse, splitNN, pyWords, h1, h2, h3, joinStr]
  unfold roffProcess
  rw [e]
  rfl

theorem br_line {K : CharKinds} (hK : Blanks K) : LineSeen K (roffProcess K brLine) [.brk] := by
  rw [br_process hK]
  exact request_line K (l := "br".toList) (by decide) rfl

theorem header_lines (K : CharKinds) {name sect date version title : Str} (h : '\n' ∉ name ∧ '\n' ∉ sect ∧ '\n' ∉ date ∧ '\n' ∉ version ∧ '\n' ∉ title) :
    LinesSeen K (roffHeader name sect date version title) [] := by
  obtain ⟨h1, h2, h3, h4, h5⟩ := h
  have e : ([] : List Seen) = [] ++ ([] ++ []) := rfl
  rw [e]
  refine .cons (request_line K (l := "TH ".toList ++ name ++ [' '] ++ sect ++ " \"".toList ++ date ++ "\" \"Version ".toList ++ version ++ "\" \"".toList ++ title ++ ['"'])
    (fun hm => ?_) rfl) (.cons (request_line K (l := "nh".toList) (by decide) rfl) .nil)
  simp only [List.mem_append] at hm
  rcases hm with (((((((((hm | hm) | hm) | hm) | hm) | hm) | hm) | hm) | hm) | hm) | hm
  · exact absurd hm (by decide)
  · exact h1 hm
  · exact absurd hm (by decide)
  · exact h2 hm
  · exact absurd hm (by decide)
  · exact h3 hm
  · exact absurd hm (by decide)
  · exact h4 hm
  · exact absurd hm (by decide)
  · exact h5 hm
  · exact absurd hm (by decide)

theorem start_lines {E : HelpEnv} (hK : Blanks E.kinds) (hd : NotDigits E.kinds) (hE : PlainEnv E) {name sect title : Str} (h : '\n' ∉ name ∧ '\n' ∉ sect ∧ '\n' ∉ title)
    {description : Option Str} (hp : ∀ d, description = some d → PlainText E.kinds d) :
    LinesSeen E.kinds (helpStart E name sect title description)
      (if description.getD [] = [] then [] else .heading "DESCRIPTION".toList :: textSeen E.kinds (description.getD [])) := by
  unfold helpStart
  have hh := header_lines E.kinds (name := name) (sect := sect) (date := E.date) (version := E.version) (title := title) ⟨h.1, h.2.1, hE.1, hE.2, h.2.2⟩
  cases description with
  | none => exact hh.append .nil
  | some d =>
    by_cases hn : d = []
    · simp only [Option.getD_some, if_pos hn]; exact hh.append .nil
    · simp only [Option.getD_some, if_neg hn]
      refine hh.append (w := .heading "DESCRIPTION".toList :: textSeen E.kinds d) ?_
      have e : (Seen.heading "DESCRIPTION".toList :: textSeen E.kinds d) = [Seen.heading (upper "Description".toList)] ++ (textSeen E.kinds d ++ ([] ++ [])) := by
        simp only [List.append_nil, List.singleton_append]; rfl
      rw [e]
      exact .cons (section_line _ (by decide)) (.cons (process_line hK hd (hp d rfl)) (.cons (empty_line hK hd) .nil))

theorem attribute_name {p a : Str} (hp : PlainName p) (ha : PlainName a) : PlainName (attributeTitle p a) := by
  unfold attributeTitle
  obtain ⟨p1, p2, p3⟩ := hp
  obtain ⟨a1, a2, a3⟩ := ha
  split
  · refine ⟨?_, ?_, ?_⟩ <;> (simp only [List.mem_append, not_or]; exact ⟨by decide, by assumption⟩)
  · refine ⟨?_, ?_, ?_⟩ <;> (simp only [List.mem_append, not_or]; exact ⟨⟨by assumption, by decide⟩, by assumption⟩)

theorem splitNN_single : ∀ {t : Str}, '\n' ∉ t → splitNN t = [t]
  | [], _ => rfl
  | [c], _ => rfl
  | c :: d :: s, h => by
    unfold splitNN
    have h1 : c ≠ '\n' := fun e => h (by rw [e]; simp)
    rw [if_neg (fun e => h1 e.1), splitNN_single (t := d :: s) fun e => h (List.mem_cons_of_mem _ e)]

/-- A label and a text in one line. -/
theorem label_plain {K : CharKinds} (hK : Blanks K) {c : Char} {label t : Str} (hc : 65 ≤ c.toNat ∧ c.toNat < 127) (hl : OneLine (c :: label)) (ht : OneLine t) :
    PlainText K (c :: label ++ t) := by
  refine ⟨fun hm => ?_, ?_⟩
  · rw [List.mem_append] at hm
    exact hm.elim hl.2 ht.2
  · rw [splitNN_single (fun hm => by rw [List.mem_append] at hm; exact hm.elim hl.1 ht.1)]
    intro p hp x hx
    simp only [List.mem_singleton] at hp
    subst hp
    have : K.space c = false := hK.printable c (by omega) hc.2
    rw [List.cons_append, List.dropWhile_cons_of_neg (by simp [this])] at hx
    cases hx
    exact ⟨by rintro rfl; revert hc; decide, by rintro rfl; revert hc; decide⟩

theorem label_line {K : CharKinds} (hK : Blanks K) (hd : NotDigits K) {c : Char} {label t : Str} (hc : 65 ≤ c.toNat ∧ c.toNat < 127) (hl : OneLine (c :: label)) (ht : OneLine t) :
    LinesSeen K [roffProcess K (c :: label ++ t), roffProcess K brLine] (textSeen K (c :: label) ++ textSeen K t ++ [.brk]) := by
  rw [← textSeen_append, ← List.append_nil [Seen.brk]]
  exact .cons (process_line hK hd (label_plain hK hc hl ht)) (.cons (br_line hK) .nil)

theorem oneLine_decide {t : Str} (h : (t.all fun c => decide (c ≠ '\n' ∧ c ≠ '\\')) = true) : OneLine t := by
  rw [List.all_eq_true] at h
  exact ⟨fun e => (of_decide_eq_true (h _ e)).1 rfl, fun e => (of_decide_eq_true (h _ e)).2 rfl⟩

theorem textSeen_label {K : CharKinds} (hK : Blanks K) (t : Str) : textSeen K (t ++ [' ']) = textSeen K t := by
  rw [textSeen_append, textSeen_blank hK.blank, List.append_nil]

theorem ops_seen {K : CharKinds} (hK : Blanks K) (ops : List Str) : textSeen K (joinStr [' '] ops) = textSeen K ops.flatten := by
  induction ops with
  | nil => rfl
  | cons o ops ih =>
    cases ops with
    | nil => simp [joinStr]
    | cons o' ops =>
      simp only [joinStr] at ih ⊢
      rw [textSeen_append, textSeen_append, textSeen_blank hK.blank, ih, List.flatten_cons (L := o' :: ops), textSeen_append]; rfl

theorem ops_oneLine {ops : List Str} (h : ∀ o ∈ ops, OneLine o) : OneLine (joinStr [' '] ops) := by
  refine ⟨fun hm => ?_, fun hm => ?_⟩ <;> rcases mem_joinStr hm with hm | ⟨o, ho, hm⟩
  · exact absurd hm (by decide)
  · exact (h o ho).1 hm
  · exact absurd hm (by decide)
  · exact (h o ho).2 hm

theorem oneLine_append {a b : Str} (ha : OneLine a) (hb : OneLine b) : OneLine (a ++ b) :=
  ⟨fun h => (List.mem_append.1 h).elim ha.1 hb.1, fun h => (List.mem_append.1 h).elim ha.2 hb.2⟩

theorem typeText_plain {K : CharKinds} (hK : Blanks K) {t : HelpType} (h1 : OneLine t.name) (h2 : ∀ o ∈ t.operators, OneLine o) : PlainText K (typeText t) := by
  have := label_plain hK (c := 'T') (label := "ype: ".toList) (by decide) (oneLine_decide (by decide))
    (oneLine_append (oneLine_append (oneLine_append h1 (oneLine_decide (t := "  ( ".toList) (by decide))) (ops_oneLine h2)) (oneLine_decide (t := " )".toList) (by decide)))
  have e : typeText t = 'T' :: "ype: ".toList ++ (t.name ++ "  ( ".toList ++ joinStr [' '] t.operators ++ " )".toList) := by
    unfold typeText
    simp only [List.append_assoc]
    rfl
  rw [e]
  exact this

theorem typeText_seen {K : CharKinds} (hK : Blanks K) (t : HelpType) :
    textSeen K (typeText t) = textSeen K "Type:".toList ++ textSeen K t.name ++ textSeen K "(".toList ++ textSeen K t.operators.flatten ++ textSeen K ")".toList := by
  have hb : ∀ s : Str, textSeen K (' ' :: s) = textSeen K s := fun s => by
    rw [show ' ' :: s = [' '] ++ s from rfl, textSeen_append, textSeen_blank hK.blank, List.nil_append]
  unfold typeText
  rw [textSeen_append, textSeen_append, textSeen_append, textSeen_append, ops_seen hK]
  rw [show "Type: ".toList = "Type:".toList ++ [' '] from rfl, textSeen_label hK, show "  ( ".toList = ' ' :: ' ' :: ("(".toList ++ [' ']) from rfl, hb, hb, textSeen_label hK,
    show " )".toList = ' ' :: ")".toList from rfl, hb]

theorem attributes_lines {E : HelpEnv} (hK : Blanks E.kinds) (hd : NotDigits E.kinds) {p : HelpPlugin} (hp : PlainAttributes E.kinds p) :
    LinesSeen E.kinds (renderAttributes E p) (attributesSeen E.kinds p) := by
  have hs : attributesSeen E.kinds p = (p.attributes.flatMap fun a => Seen.item (attributeTitle p.name a.1) :: textSeen E.kinds (typeText a.2.1) ++ .brk :: textSeen E.kinds a.2.2) ++ [] := by
    rw [List.append_nil]
    unfold attributesSeen
    congr 1
    funext a
    rw [typeText_seen hK]
    have : (if p.name = "file".toList then "[file.]".toList else p.name ++ ".".toList) ++ a.1 = attributeTitle p.name a.1 := by
      unfold attributeTitle
      split <;> rfl
    rw [this]
    simp only [List.append_assoc, List.cons_append]
  unfold renderAttributes
  rw [hs]
  refine LinesSeen.append (LinesSeen.flatMap fun a ha => ?_) (.one (empty_line hK hd))
  obtain ⟨h1, h2, h3⟩ := hp.2 a ha
  have e : (Seen.item (attributeTitle p.name a.1) :: textSeen E.kinds (typeText a.2.1) ++ .brk :: textSeen E.kinds a.2.2) =
      [.item (attributeTitle p.name a.1)] ++ (textSeen E.kinds (typeText a.2.1) ++ ([.brk] ++ (textSeen E.kinds a.2.2 ++ ([] ++ [])))) := by simp
  rw [e]
  exact .cons (definition_line _ (attribute_name hp.1 h1)) (.cons (process_line hK hd (typeText_plain hK h2.1 h2.2)) (.cons (br_line hK) (.cons (process_line hK hd h3) (.cons (empty_line hK hd) .nil))))

theorem detail_lines {E : HelpEnv} (hK : Blanks E.kinds) (hd : NotDigits E.kinds) {p : HelpPlugin} (hp : PlainDetails p) (full : Bool) :
    LinesSeen E.kinds (renderDetail E p full) (detailSeen E.kinds p full) := by
  obtain ⟨h1, h2, h3, h4, h5, h6⟩ := hp
  have hu : OneLine (if p.useCache then "Yes".toList else "No".toList) := by cases p.useCache <;> exact oneLine_decide (by decide)
  have l1 := label_line hK hd (c := 'N') (label := "ame: ".toList) (by decide) (oneLine_decide (by decide)) h1
  have l2 := label_line hK hd (c := 'S') (label := "ource: ".toList) (by decide) (oneLine_decide (by decide)) h2
  have l3 := label_line hK hd (c := 'P') (label := "ath: ".toList) (by decide) (oneLine_decide (by decide)) h3
  have l4 := label_line hK hd (c := 'U') (label := "ses cache: ".toList) (by decide) (oneLine_decide (by decide)) hu
  have l5 := label_line hK hd (c := 'A') (label := "uthor: ".toList) (by decide) (oneLine_decide (by decide)) h4
  have l6 := label_line hK hd (c := 'E') (label := "mail: ".toList) (by decide) (oneLine_decide (by decide)) h5
  have l7 := label_line hK hd (c := 'U') (label := "rl: ".toList) (by decide) (oneLine_decide (by decide)) h6
  have e1 : textSeen E.kinds ('N' :: "ame: ".toList) = textSeen E.kinds "Name:".toList := textSeen_label hK "Name:".toList
  have e2 : textSeen E.kinds ('S' :: "ource: ".toList) = textSeen E.kinds "Source:".toList := textSeen_label hK "Source:".toList
  have e3 : textSeen E.kinds ('P' :: "ath: ".toList) = textSeen E.kinds "Path:".toList := textSeen_label hK "Path:".toList
  have e4 : textSeen E.kinds ('U' :: "ses cache: ".toList) = textSeen E.kinds "Usescache:".toList := by
    rw [show 'U' :: "ses cache: ".toList = "Uses".toList ++ [' '] ++ ("cache:".toList ++ [' ']) from rfl, textSeen_append, textSeen_label hK, textSeen_label hK, ← textSeen_append]; rfl
  have e5 : textSeen E.kinds ('A' :: "uthor: ".toList) = textSeen E.kinds "Author:".toList := textSeen_label hK "Author:".toList
  have e6 : textSeen E.kinds ('E' :: "mail: ".toList) = textSeen E.kinds "Email:".toList := textSeen_label hK "Email:".toList
  have e7 : textSeen E.kinds ('U' :: "rl: ".toList) = textSeen E.kinds "Url:".toList := textSeen_label hK "Url:".toList
  rw [e1] at l1; rw [e2] at l2; rw [e3] at l3; rw [e4] at l4; rw [e5] at l5; rw [e6] at l6; rw [e7] at l7
  have l14 := ((l1.append l2).append l3).append l4
  cases full with
  | false =>
    have e : detailSeen E.kinds p false = (textSeen E.kinds "Name:".toList ++ textSeen E.kinds p.name ++ [Seen.brk] ++ (textSeen E.kinds "Source:".toList ++ textSeen E.kinds p.source ++ [Seen.brk]) ++
        (textSeen E.kinds "Path:".toList ++ textSeen E.kinds p.path ++ [Seen.brk]) ++
        (textSeen E.kinds "Usescache:".toList ++ textSeen E.kinds (if p.useCache then "Yes".toList else "No".toList) ++ [Seen.brk])) := by
      unfold detailSeen
      simp only [Bool.false_eq_true, if_false, List.append_nil, List.append_assoc, List.cons_append, List.nil_append]
    rw [e]
    exact l14
  | true =>
    have l := l14.append ((l5.append l6).append l7)
    have e : detailSeen E.kinds p true = (textSeen E.kinds "Name:".toList ++ textSeen E.kinds p.name ++ [Seen.brk] ++ (textSeen E.kinds "Source:".toList ++ textSeen E.kinds p.source ++ [Seen.brk]) ++
        (textSeen E.kinds "Path:".toList ++ textSeen E.kinds p.path ++ [Seen.brk]) ++
        (textSeen E.kinds "Usescache:".toList ++ textSeen E.kinds (if p.useCache then "Yes".toList else "No".toList) ++ [Seen.brk])) ++
        (textSeen E.kinds "Author:".toList ++ textSeen E.kinds p.author ++ [Seen.brk] ++ (textSeen E.kinds "Email:".toList ++ textSeen E.kinds p.email ++ [Seen.brk]) ++
        (textSeen E.kinds "Url:".toList ++ textSeen E.kinds p.url ++ [Seen.brk])) := by
      unfold detailSeen
      simp only [if_true, List.append_nil, List.append_assoc, List.cons_append, List.nil_append]
    rw [e]
    exact l

/-- A text of one paragraph, possibly indented. -/
theorem plain_indented {K : CharKinds} (hK : Blanks K) {t pre rest : Str} {c : Char} (hb : '\\' ∉ t) (hs : splitNN t = [t]) (ht : t = pre ++ c :: rest)
    (hpre : ∀ x ∈ pre, x = ' ' ∨ x = '\n') (hc : 65 ≤ c.toNat ∧ c.toNat < 127) : PlainText K t := by
  refine ⟨hb, ?_⟩
  rw [hs]
  intro p hp x hx
  simp only [List.mem_singleton] at hp
  subst hp
  rw [ht, List.dropWhile_append_of_pos (fun y hy => by rcases hpre y hy with rfl | rfl; exact hK.blank; exact hK.newline),
    List.dropWhile_cons_of_neg (by simp [hK.printable c (by omega) hc.2])] at hx
  cases hx
  exact ⟨by rintro rfl; revert hc; decide, by rintro rfl; revert hc; decide⟩

/-- An indented paragraph. -/
def describedCheck (t : Str) : Bool :=
  (t.all fun c => decide (c ≠ '\\')) && splitNN t == [t] && ((t.take 9).all fun c => c = ' ' || c = '\n') && t.drop 9 == 'T' :: t.drop 10 && !t.isEmpty

theorem described_plain {K : CharKinds} (hK : Blanks K) {t : Str} (h : describedCheck t = true) : PlainText K t := by
  simp only [describedCheck, Bool.and_eq_true, List.all_eq_true, beq_iff_eq, Bool.or_eq_true, decide_eq_true_eq] at h
  obtain ⟨⟨⟨⟨h1, h2⟩, h3⟩, h4⟩, -⟩ := h
  exact plain_indented hK (pre := t.take 9) (c := 'T') (rest := t.drop 10) (fun e => h1 _ e rfl) h2 (by rw [← h4, List.take_append_drop]) h3 (by decide)

theorem described_start {E : HelpEnv} (hK : Blanks E.kinds) (hd : NotDigits E.kinds) (hE : PlainEnv E) {name sect title : Str} (h : '\n' ∉ name ∧ '\n' ∉ sect ∧ '\n' ∉ title)
    {d : Str} (hc : describedCheck d = true) :
    LinesSeen E.kinds (helpStart E name sect title (some d)) (.heading "DESCRIPTION".toList :: textSeen E.kinds d) := by
  have := start_lines hK hd hE h (description := some d) (fun x e => by cases e; exact described_plain hK hc)
  have hn : (some d).getD [] ≠ [] := by
    rintro rfl
    exact absurd hc (by decide)
  rwa [if_neg hn] at this

theorem attributesDescription_check : describedCheck attributesDescription = true := by decide +kernel

theorem typesDescription_check : describedCheck typesDescription = true := by decide +kernel

theorem pluginsDescription_check : describedCheck pluginsDescription = true := by decide +kernel

theorem seeAlso_lines {K : CharKinds} (hK : Blanks K) (hd : NotDigits K) {t : Str} (ht : PlainText K t) :
    LinesSeen K [roffSection "See Also".toList, roffProcess K t] (.heading "SEE ALSO".toList :: textSeen K t) := by
  have e : (Seen.heading "SEE ALSO".toList :: textSeen K t) = [Seen.heading (upper "See Also".toList)] ++ (textSeen K t ++ []) := by
    simp only [List.append_nil, List.singleton_append]; rfl
  rw [e]
  exact .cons (section_line _ (by decide)) (.cons (process_line hK hd ht) .nil)

/-- The pages of all plugins or types. -/
theorem page_parts {α : Type} {K : CharKinds} {f : α → Option (List Str)} {g : α → List Seen} {xs : List α} {head tail : List Str} {v w : List Seen}
    (hh : LinesSeen K head v) (ht : LinesSeen K tail w) (h : ∀ x ∈ xs, ∃ ls, f x = some ls ∧ LinesSeen K ls (g x)) :
    ∃ lines, ((mapOption f xs).map fun parts => head ++ parts.flatten ++ tail) = some lines ∧ visible K (seen .start (pageText lines)) = v ++ xs.flatMap g ++ w := by
  have hm : mapOption f xs = some (xs.map fun x => (f x).getD []) := mapOption_some fun x hx => by obtain ⟨ls, e, -⟩ := h x hx; rw [e]; rfl
  rw [hm]
  refine ⟨_, rfl, LinesSeen.page ((hh.append ?_).append ht)⟩
  rw [← List.flatMap_def]
  exact LinesSeen.flatMap fun x hx => by obtain ⟨ls, e, hl⟩ := h x hx; rw [e]; exact hl

/-- **C111**: `ff --help-attributes` shows the description of every plugin and all of its attributes with their types and their descriptions, in the order of the plugins. -/
theorem C111_attributes_partial {E : HelpEnv} (hK : Blanks E.kinds) (hd : NotDigits E.kinds) (hE : PlainEnv E) {plugins : List HelpPlugin}
    (h : ∀ p ∈ plugins, PlainAttributes E.kinds p ∧ ∃ d, p.doc = some d ∧ PlainText E.kinds d) :
    ∃ lines, attributesPage E plugins = some lines ∧ visible E.kinds (seen .start (pageText lines)) =
      .heading "DESCRIPTION".toList :: textSeen E.kinds attributesDescription ++
      (plugins.flatMap fun p => .heading (upper p.name ++ " PLUGIN".toList) :: textSeen E.kinds (p.doc.getD []) ++ attributesSeen E.kinds p) ++
      .heading "SEE ALSO".toList :: textSeen E.kinds "ff(1)".toList := by
  refine page_parts (described_start hK hd hE (by decide) attributesDescription_check)
    (seeAlso_lines hK hd (plain_indented hK (pre := []) (c := 'f') (by decide) rfl rfl (by simp) (by decide))) fun p hp => ?_
  obtain ⟨ha, d, e, hdoc⟩ := h p hp
  refine ⟨_, by rw [e]; rfl, ?_⟩
  rw [e]
  refine LinesSeen.append ?_ (attributes_lines hK hd ha)
  have e' : (Seen.heading (upper p.name ++ " PLUGIN".toList) :: textSeen E.kinds ((some d).getD [])) = [Seen.heading (upper (p.name ++ " Plugin".toList))] ++ ([] ++ (textSeen E.kinds d ++ ([] ++ []))) := by
    simp only [List.append_nil, List.nil_append, List.singleton_append, Option.getD_some]
    rw [show upper (p.name ++ " Plugin".toList) = upper p.name ++ " PLUGIN".toList by simp [upper]]
  rw [e']
  exact .cons (section_line _ (by simp [ha.1.1])) (.cons (empty_line hK hd) (.cons (process_line hK hd hdoc) (.cons (empty_line hK hd) .nil)))

/-- **C111**: `ff --help <plugin>` shows the description of the plugin, all of its attributes, and where it comes from. -/
theorem C111_plugin_partial {E : HelpEnv} (hK : Blanks E.kinds) (hd : NotDigits E.kinds) (hE : PlainEnv E) {p : HelpPlugin}
    (ha : PlainAttributes E.kinds p) (hdet : PlainDetails p) (hdoc : ∀ d, p.doc = some d → PlainText E.kinds d) :
    visible E.kinds (seen .start (pageText (pluginPage E p))) =
      (if p.doc.getD [] = [] then [] else .heading "DESCRIPTION".toList :: textSeen E.kinds (p.doc.getD [])) ++
      .heading "ATTRIBUTES".toList :: attributesSeen E.kinds p ++ .heading "DETAILS".toList :: detailSeen E.kinds p true ++
      .heading "SEE ALSO".toList :: textSeen E.kinds "ff(1), ff(7)".toList := by
  unfold pluginPage
  have hn := ha.1.1
  have hs := start_lines hK hd hE (name := "ff-".toList ++ p.name) (sect := "1".toList) (title := p.name ++ " Plugin Reference".toList) (by simp [hn]) hdoc
  have h2 : LinesSeen E.kinds [roffSection "Attributes".toList, roffProcess E.kinds []] [.heading "ATTRIBUTES".toList] :=
    .cons (v := [.heading "ATTRIBUTES".toList]) (section_line E.kinds (n := "Attributes".toList) (by decide)) (.one (empty_line hK hd))
  have h3 : LinesSeen E.kinds [roffSection "Details".toList] [.heading "DETAILS".toList] := .one (section_line E.kinds (n := "Details".toList) (by decide))
  have h4 : PlainText E.kinds "ff(1), ff(7)".toList := plain_indented hK (pre := []) (c := 'f') (by decide) rfl rfl (by simp) (by decide)
  have := ((((hs.append h2).append (attributes_lines hK hd ha)).append h3).append (detail_lines hK hd hdet true)).append (seeAlso_lines hK hd h4)
  rw [this.page]
  simp only [List.append_assoc, List.cons_append, List.nil_append]

/-- **C111**: `ff --help-types` shows the name, the operators, the way of counting and the description of every type. -/
theorem C111_types_partial {E : HelpEnv} (hK : Blanks E.kinds) (hd : NotDigits E.kinds) (hE : PlainEnv E) {types : List HelpType}
    (h : ∀ t ∈ types, OneLine t.name ∧ (∀ o ∈ t.operators, OneLine o) ∧ OneLine t.count ∧ ∃ d, t.doc = some d ∧ PlainText E.kinds d) :
    ∃ lines, typesPage E types = some lines ∧ visible E.kinds (seen .start (pageText lines)) =
      .heading "DESCRIPTION".toList :: textSeen E.kinds typesDescription ++
      (types.flatMap fun t => .heading (upper t.name ++ " TYPE".toList) :: textSeen E.kinds "Name:".toList ++ textSeen E.kinds t.name ++
        .brk :: textSeen E.kinds "Operators:".toList ++ textSeen E.kinds t.operators.flatten ++ .brk :: textSeen E.kinds "Count:".toList ++ textSeen E.kinds t.count ++
        textSeen E.kinds (t.doc.getD [])) ++
      .heading "SEE ALSO".toList :: textSeen E.kinds "ff(1), ff(7)".toList := by
  refine page_parts (described_start hK hd hE (by decide) typesDescription_check)
    (seeAlso_lines hK hd (plain_indented hK (pre := []) (c := 'f') (by decide) rfl rfl (by simp) (by decide))) fun t ht => ?_
  obtain ⟨h1, h2, h3, d, e, hdoc⟩ := h t ht
  refine ⟨_, by rw [e]; rfl, ?_⟩
  rw [e]
  have hops := ops_oneLine h2
  have l1 := label_line hK hd (c := 'N') (label := "ame:  ".toList) (by decide) (oneLine_decide (by decide)) h1
  have l2 := label_line hK hd (c := 'O') (label := "perators:  ".toList) (by decide) (oneLine_decide (by decide)) hops
  have l3 := process_line hK hd (label_plain hK (c := 'C') (label := "ount: ".toList) (by decide) (oneLine_decide (by decide)) h3)
  have e1 : textSeen E.kinds ('N' :: "ame:  ".toList) = textSeen E.kinds "Name:".toList :=
    (textSeen_label hK ("Name:".toList ++ [' '])).trans (textSeen_label hK "Name:".toList)
  have e2 : textSeen E.kinds ('O' :: "perators:  ".toList) = textSeen E.kinds "Operators:".toList :=
    (textSeen_label hK ("Operators:".toList ++ [' '])).trans (textSeen_label hK "Operators:".toList)
  have e3 : textSeen E.kinds ('C' :: "ount: ".toList) = textSeen E.kinds "Count:".toList := textSeen_label hK "Count:".toList
  rw [e1] at l1; rw [e2, ops_seen hK] at l2; rw [textSeen_append, e3] at l3
  have hs := section_line E.kinds (n := t.name ++ " Type".toList) (by simp [h1.1])
  rw [show upper (t.name ++ " Type".toList) = upper t.name ++ " TYPE".toList by simp [upper]] at hs
  have := ((LinesSeen.one hs).append (l1.append l2)).append (.cons l3 (.cons (empty_line hK hd) (.cons (process_line hK hd hdoc) (.one (empty_line hK hd)))))
  simp only [List.append_assoc, List.cons_append, List.nil_append, List.append_nil] at this ⊢
  exact this

/-- **C111**: `ff --help-plugins` shows the name, the source, the path and the description of every plugin, and whether it uses the cache. -/
theorem C111_plugins_partial {E : HelpEnv} (hK : Blanks E.kinds) (hd : NotDigits E.kinds) (hE : PlainEnv E) {plugins : List HelpPlugin}
    (h : ∀ p ∈ plugins, PlainDetails p ∧ ∃ d, p.doc = some d ∧ PlainText E.kinds d) :
    ∃ lines, pluginsPage E plugins = some lines ∧ visible E.kinds (seen .start (pageText lines)) =
      .heading "DESCRIPTION".toList :: textSeen E.kinds pluginsDescription ++
      (plugins.flatMap fun p => .heading (upper p.name ++ " PLUGIN".toList) :: detailSeen E.kinds p false ++ textSeen E.kinds (p.doc.getD [])) ++
      .heading "SEE ALSO".toList :: textSeen E.kinds "ff(1), ff(7)".toList := by
  refine page_parts (described_start hK hd hE (by decide) pluginsDescription_check)
    (seeAlso_lines hK hd (plain_indented hK (pre := []) (c := 'f') (by decide) rfl rfl (by simp) (by decide))) fun p hp => ?_
  obtain ⟨hdet, d, e, hdoc⟩ := h p hp
  refine ⟨_, by rw [e]; rfl, ?_⟩
  rw [e]
  have hs := section_line E.kinds (n := p.name ++ " Plugin".toList) (by simp [hdet.1.1])
  rw [show upper (p.name ++ " Plugin".toList) = upper p.name ++ " PLUGIN".toList by simp [upper]] at hs
  have := ((LinesSeen.one hs).append (detail_lines hK hd hdet false)).append (.cons (empty_line hK hd) (.one (process_line hK hd hdoc)))
  simpa only [List.append_assoc, List.cons_append, List.nil_append, List.append_nil, Option.getD_some] using this

/-- **C111**: the pages of all plugins and of all types are shown exactly if all of them are described. -/
theorem C111_shown (E : HelpEnv) (plugins : List HelpPlugin) (types : List HelpType) :
    ((attributesPage E plugins).isSome = true ↔ ∀ p ∈ plugins, p.doc ≠ none) ∧ ((pluginsPage E plugins).isSome = true ↔ ∀ p ∈ plugins, p.doc ≠ none) ∧
    ((typesPage E types).isSome = true ↔ ∀ t ∈ types, t.doc ≠ none) := by
  have key : ∀ {α : Type} (doc : α → Option Str) (f : α → Str → List Str) (xs : List α) (g : List (List Str) → List Str),
      (((mapOption (fun x => (doc x).map (f x)) xs).map g).isSome = true ↔ ∀ x ∈ xs, doc x ≠ none) := by
    intro α doc f xs g
    rw [Option.isSome_map]
    constructor
    · intro h x hx e
      rw [mapOption_none hx (by rw [e]; rfl)] at h
      cases h
    · intro h
      have : mapOption (fun x => (doc x).map (f x)) xs = some (xs.map fun x => ((doc x).map (f x)).getD []) := mapOption_some fun x hx => by
        cases e : doc x with
        | none => exact absurd e (h x hx)
        | some d => rfl
      rw [this]; rfl
  exact ⟨key _ _ _ _, key _ _ _ _, key _ _ _ _⟩

/-! ### What is not shown -/

/-- A plugin for the examples. -/
def helpPlugin (doc : Option Str) (help : Str) : HelpPlugin :=
  ⟨"music".toList, doc, [("title".toList, ⟨"string".toList, ["=".toList, "~".toList], "count".toList, none⟩, help)], "user".toList, "/home/u/music.py".toList, true, "A".toList,
    "a@b.c".toList, "-".toList⟩

/-- Where the examples run. -/
def helpEnv : HelpEnv := ⟨asciiKinds, "2026-01-01".toList, "1.0".toList⟩

theorem asciiKinds_blanks : Blanks asciiKinds := by
  refine ⟨by decide, by decide, fun c h1 h2 => ?_⟩
  rw [Bool.eq_false_iff]
  intro h
  have hm : c ∈ [' ', '\t', '\n', '\r', '\x0b', '\x0c'] := (isSpace_iff c).1 h
  simp only [List.mem_cons, List.not_mem_nil, or_false] at hm
  rcases hm with rfl | rfl | rfl | rfl | rfl | rfl <;> exact absurd h1 (by decide)

theorem asciiKinds_digits : NotDigits asciiKinds := by unfold NotDigits; decide

/-- A text in one line that can be shown. -/
theorem plain_check {t : Str} (h : ((t.all fun c => decide (c ≠ '\\' ∧ c ≠ '\n')) && ((t.dropWhile isSpace).head?.all fun c => decide (c ≠ '.' ∧ c ≠ '\''))) = true) : PlainText asciiKinds t := by
  rw [Bool.and_eq_true, List.all_eq_true] at h
  obtain ⟨h1, h2⟩ := h
  refine ⟨fun e => (of_decide_eq_true (h1 _ e)).1 rfl, ?_⟩
  rw [splitNN_single fun e => (of_decide_eq_true (h1 _ e)).2 rfl]
  intro p hp c hc
  simp only [List.mem_singleton] at hp
  subst hp
  have hc' : (p.dropWhile isSpace).head? = some c := hc
  rw [hc'] at h2
  simpa using h2

theorem helpPlugin_plain {doc : Option Str} {help : Str} (h : PlainText asciiKinds help) : PlainAttributes asciiKinds (helpPlugin doc help) ∧ PlainDetails (helpPlugin doc help) := by
  have h1 : PlainName "music".toList := by unfold PlainName; decide
  have h2 : PlainName "title".toList := by unfold PlainName; decide
  refine ⟨⟨h1, fun a ha => ?_⟩, ?_⟩
  · simp only [helpPlugin, List.mem_singleton] at ha
    subst ha
    exact ⟨h2, ⟨oneLine_decide (t := "string".toList) (by decide), fun o ho => by
      simp only [List.mem_cons, List.not_mem_nil, or_false] at ho
      rcases ho with rfl | rfl
      · exact oneLine_decide (t := "=".toList) (by decide)
      · exact oneLine_decide (t := "~".toList) (by decide)⟩, h⟩
  · exact ⟨oneLine_decide (t := "music".toList) (by decide), oneLine_decide (t := "user".toList) (by decide), oneLine_decide (t := "/home/u/music.py".toList) (by decide),
      oneLine_decide (t := "A".toList) (by decide), oneLine_decide (t := "a@b.c".toList) (by decide), oneLine_decide (t := "-".toList) (by decide)⟩

/-- **C111** does not hold for `--help-attributes` and `--help-plugins` if there is a plugin without a description: nothing is shown of the other ones either. -/
theorem C111_doc_false : ∃ plugins : List HelpPlugin, (∀ p ∈ plugins, PlainAttributes asciiKinds p ∧ PlainDetails p) ∧
    (∃ p ∈ plugins, p.doc = some "Music files.".toList) ∧ attributesPage helpEnv plugins = none ∧ pluginsPage helpEnv plugins = none := by
  refine ⟨[helpPlugin (some "Music files.".toList) "The title.".toList, helpPlugin none "The title.".toList], fun p hp => ?_, ⟨_, List.mem_cons_self .., rfl⟩, rfl, rfl⟩
  simp only [List.mem_cons, List.not_mem_nil, or_false] at hp
  rcases hp with rfl | rfl <;> exact helpPlugin_plain (plain_check (by decide +kernel))

set_option maxRecDepth 20000 in
/-- **C111** does not hold for a description that begins with an apostrophe: the line is taken for a request and nothing is seen of it. -/
theorem C111_quote_false : ∃ p : HelpPlugin, p.doc = some "'Fuzzy' titles.".toList ∧ PlainAttributes asciiKinds p ∧ PlainDetails p ∧
    Seen.ch 'z' ∉ seen .start (pageText (pluginPage helpEnv p)) :=
  ⟨helpPlugin (some "'Fuzzy' titles.".toList) "The title.".toList, rfl, (helpPlugin_plain (plain_check (by decide +kernel))).1, (helpPlugin_plain (plain_check (by decide +kernel))).2,
    by decide +kernel⟩

set_option maxRecDepth 20000 in
/-- **C111** does not hold for a description with a backslash: it is taken for the beginning of an escape sequence and is not seen. -/
theorem C111_backslash_false : ∃ p : HelpPlugin, p.doc = some "Titles like \\zeta.".toList ∧ PlainAttributes asciiKinds p ∧ PlainDetails p ∧
    Seen.ch '\\' ∉ seen .start (pageText (pluginPage helpEnv p)) :=
  ⟨helpPlugin (some "Titles like \\zeta.".toList) "The title.".toList, rfl, (helpPlugin_plain (plain_check (by decide +kernel))).1, (helpPlugin_plain (plain_check (by decide +kernel))).2,
    by decide +kernel⟩

/-- The hypotheses of the theorems can be met. -/
example : PlainEnv helpEnv ∧ PlainAttributes asciiKinds (helpPlugin (some "Music files, see `ls(1)` and --sort.".toList) "The 'title'.".toList) ∧
    PlainDetails (helpPlugin (some "Music files, see `ls(1)` and --sort.".toList) "The 'title'.".toList) ∧ PlainText asciiKinds "Music files, see `ls(1)` and --sort.".toList := by
  refine ⟨⟨by decide, by decide⟩, (helpPlugin_plain (plain_check (by decide +kernel))).1, (helpPlugin_plain (plain_check (by decide +kernel))).2, plain_check (by decide +kernel)⟩

set_option maxRecDepth 20000 in
/-- What is seen of the attribute of the example. -/
example : visible asciiKinds (seen .start (pageText (renderAttributes helpEnv (helpPlugin none "Use `-t` or 'x'.".toList)))) =
    .item "music.title".toList :: "Type:string(=~)".toList.map .ch ++ .brk :: "Use-tor'x'.".toList.map .ch := by decide +kernel

/-- A text is marked up for roff. -/
example : roffProcess asciiKinds "Use `-t` or 'x' with ls(1)\n  and --all.".toList = "Use \\fB\\-t\\fR or '\\fIx\\fR' with \\fBls\\fR(1) and \\fB\\-\\-all\\fR.".toList := by decide +kernel

end FF
