import Verif.Spec.Message
/-! Lemmas about `textwrap`. -/
namespace FF
open Spec

theorem ink_append (b : Char → Bool) (s t : Str) : ink b (s ++ t) = ink b s ++ ink b t := by
  induction s with
  | nil => rfl
  | cons c s ih =>
    simp only [List.cons_append, ink]
    by_cases h : b c = true
    · simp [h, ih]
    · simp [h, ih]

theorem ink_blank (b : Char → Bool) (s : Str) (h : ∀ c ∈ s, b c = true) : ink b s = [] := by
  induction s with
  | nil => rfl
  | cons c s ih =>
    simp only [ink, h c List.mem_cons_self, if_true]
    exact ih fun x hx => h x (List.mem_cons_of_mem _ hx)

theorem isSpace_iff (c : Char) : isSpace c = true ↔ Whitespace c := by
  simp [isSpace, Whitespace, or_assoc]

theorem ascii_space {K : CharKinds} (h : K.Ascii) {c : Char} (hc : isSpace c = true) : K.space c = true := h c ((isSpace_iff c).1 hc)

theorem ink_expandTabs {K : CharKinds} (h : K.Ascii) (col : Nat) (s : Str) : ink K.space (expandTabs col s) = ink K.space s := by
  induction s generalizing col with
  | nil => rfl
  | cons c s ih =>
    simp only [expandTabs]
    split
    · next hc =>
      subst hc
      rw [ink_append, ih, ink_blank K.space (List.replicate _ ' ') (fun x hx => by rw [List.eq_of_mem_replicate hx]; exact h _ (by simp))]
      simp [ink, h '\t' (by simp)]
    · split <;> simp only [ink, ih]

theorem ink_munge {K : CharKinds} (h : K.Ascii) (s : Str) : ink K.space (mungeWhitespace s) = ink K.space s := by
  unfold mungeWhitespace
  rw [← ink_expandTabs h 0 s]
  generalize expandTabs 0 s = t
  induction t with
  | nil => rfl
  | cons c t ih =>
    simp only [List.map_cons, ink, ih]
    by_cases hc : isSpace c = true
    · simp [hc, ascii_space h hc, h ' ' (by simp)]
    · simp [hc]

/-! ### The chunks -/

theorem takeWord_append (K : CharKinds) (before s : Str) : (K.takeWord before s).1 ++ (K.takeWord before s).2 = s := by
  induction s generalizing before with
  | nil => rfl
  | cons c s ih =>
    simp only [CharKinds.takeWord]
    split
    · simp
    · simp [ih]

theorem wordsep_append (K : CharKinds) (before s : Str) : (K.wordsep before s).1 ++ (K.wordsep before s).2 = s := by
  cases s with
  | nil => rfl
  | cons c s =>
    simp only [CharKinds.wordsep]
    split
    · exact List.takeWhile_append_dropWhile
    · split
      · simp
      · simp [takeWord_append]

theorem emDash_some {K : CharKinds} {s : Str} {n : Nat} (h : K.emDash s = some n) : 2 ≤ n ∧ ∀ c ∈ s.take n, c = '-' := by
  unfold CharKinds.emDash at h
  split at h
  · split at h
    · next hc =>
      cases h
      refine ⟨hc.1, ?_⟩
      intro c hc
      have : s.take (s.takeWhile (· = '-')).length = s.takeWhile (· = '-') := by
        have := List.takeWhile_prefix (p := fun c : Char => decide (c = '-')) (l := s)
        rw [List.prefix_iff_eq_take] at this
        exact this.symm
      rw [this] at hc
      have := List.all_takeWhile (p := fun c : Char => decide (c = '-')) (l := s)
      rw [List.all_eq_true] at this
      exact of_decide_eq_true (this c hc)
    · exact absurd h (by simp)
  · exact absurd h (by simp)

theorem wordsep_ne_nil (K : CharKinds) (before : Str) (c : Char) (s : Str) : (K.wordsep before (c :: s)).1 ≠ [] := by
  simp only [CharKinds.wordsep]
  split
  · next h => simp [List.takeWhile, h]
  · split
    · next n hn =>
      split at hn
      · have := (emDash_some hn).1
        intro h
        have h' := congrArg List.length h
        simp at h'
        omega
      · exact absurd hn (by simp)
    · simp

theorem wordEnd_some {K : CharKinds} {before : Str} {c : Char} {s : Str} {n : Nat} (h : K.wordEnd before (c :: s) = some n) :
    ∀ x ∈ (c :: s).take n, isSpace x = false := by
  simp only [CharKinds.wordEnd] at h
  split at h
  · next hc => cases h; simp [hc.1]; decide
  · split at h
    · cases h; simp
    · split at h
      · cases h; simp
      · exact absurd h (by simp)

theorem wordEnd_none {K : CharKinds} {before : Str} {c : Char} {s : Str} (h : K.wordEnd before (c :: s) = none) : isSpace c = false := by
  simp only [CharKinds.wordEnd] at h
  split at h
  · exact absurd h (by simp)
  · split at h
    · exact absurd h (by simp)
    · next hc => simpa using hc

theorem takeWord_solid (K : CharKinds) (before s : Str) : ∀ x ∈ (K.takeWord before s).1, isSpace x = false := by
  induction s generalizing before with
  | nil => simp [CharKinds.takeWord]
  | cons c s ih =>
    simp only [CharKinds.takeWord]
    split
    · next h => exact wordEnd_some h
    · next h =>
      intro x hx
      rcases List.mem_cons.1 hx with rfl | hx
      · exact wordEnd_none h
      · exact ih _ x hx

theorem wordsep_solid (K : CharKinds) (before s : Str) :
    (∀ x ∈ (K.wordsep before s).1, isSpace x = true) ∨ ∀ x ∈ (K.wordsep before s).1, isSpace x = false := by
  cases s with
  | nil => left; simp [CharKinds.wordsep]
  | cons c s =>
    simp only [CharKinds.wordsep]
    split
    · left
      have := List.all_takeWhile (p := isSpace) (l := c :: s)
      rwa [List.all_eq_true] at this
    · next hc =>
      right
      split
      · next n hn =>
        split at hn
        · intro x hx
          rw [(emDash_some hn).2 x hx]
          decide
        · exact absurd hn (by simp)
      · intro x hx
        rcases List.mem_cons.1 hx with rfl | hx
        · simpa using hc
        · exact takeWord_solid K _ _ x hx

theorem splitFrom_flatten (K : CharKinds) (n : Nat) (before s : Str) (h : s.length ≤ n) : (K.splitFrom n before s).flatten = s := by
  induction n generalizing before s with
  | zero => cases s with
    | nil => rfl
    | cons c s => simp at h
  | succ n ih =>
    cases s with
    | nil => rfl
    | cons c s =>
      simp only [CharKinds.splitFrom, List.flatten_cons]
      have ha := wordsep_append K before (c :: s)
      have hn := wordsep_ne_nil K before c s
      have hl := congrArg List.length ha
      have : 0 < (K.wordsep before (c :: s)).1.length := List.length_pos_iff.2 hn
      simp only [List.length_append, List.length_cons] at hl h
      rw [ih _ _ (by omega), ha]

theorem splitFrom_ne_nil (K : CharKinds) (n : Nat) (before s : Str) : ∀ c ∈ K.splitFrom n before s, c ≠ [] := by
  induction n generalizing before s with
  | zero => simp [CharKinds.splitFrom]
  | succ n ih =>
    cases s with
    | nil => simp [CharKinds.splitFrom]
    | cons c s =>
      intro x hx
      rcases List.mem_cons.1 hx with rfl | hx
      · exact wordsep_ne_nil K before c s
      · exact ih _ _ x hx

theorem split_flatten (K : CharKinds) (s : Str) : (K.splitChunks s).flatten = s := splitFrom_flatten K _ [] s (Nat.le_refl _)
theorem split_ne_nil (K : CharKinds) (s : Str) : ∀ c ∈ K.splitChunks s, c ≠ [] := splitFrom_ne_nil K _ [] s

theorem emDash_none (K : CharKinds) (c : Char) (s : Str) (h : c ≠ '-') : K.emDash (c :: s) = none := by
  simp [CharKinds.emDash, h, List.takeWhile, List.dropWhile]

theorem takeWord_word (K : CharKinds) (before w post : Str) (hw : ∀ c ∈ w, isSpace c = false ∧ c ≠ '-') (hp : post = [] ∨ ∃ c q, post = c :: q ∧ isSpace c = true) :
    K.takeWord before (w ++ post) = (w, post) := by
  induction w generalizing before with
  | nil =>
    rcases hp with rfl | ⟨c, q, rfl, hc⟩
    · rfl
    · have hn : c ≠ '-' := by rintro rfl; revert hc; decide
      have : K.wordEnd before (c :: q) = some 0 := by simp [CharKinds.wordEnd, hn, hc]
      simp [CharKinds.takeWord, this]
  | cons x w ih =>
    obtain ⟨hs, hn⟩ := hw x List.mem_cons_self
    have : K.wordEnd before (x :: (w ++ post)) = none := by
      simp [CharKinds.wordEnd, hn, hs, emDash_none K x _ hn]
    simp only [List.cons_append, CharKinds.takeWord, this]
    rw [ih _ fun c hc => hw c (List.mem_cons_of_mem _ hc)]

theorem splitFrom_word (K : CharKinds) (n : Nat) (before pre w post : Str) (hl : (pre ++ w ++ post).length ≤ n) (hne : w ≠ [])
    (hw : ∀ c ∈ w, isSpace c = false ∧ c ≠ '-') (hpre : pre = [] ∨ ∃ q c, pre = q ++ [c] ∧ isSpace c = true)
    (hp : post = [] ∨ ∃ c q, post = c :: q ∧ isSpace c = true) : w ∈ K.splitFrom n before (pre ++ w ++ post) := by
  induction n generalizing before pre with
  | zero =>
    have : 0 < w.length := List.length_pos_iff.2 hne
    simp only [List.length_append] at hl
    omega
  | succ n ih =>
    rcases hpre with rfl | ⟨q, c, rfl, hc⟩
    · cases w with
      | nil => exact absurd rfl hne
      | cons x w =>
        obtain ⟨hs, hn⟩ := hw x List.mem_cons_self
        have hsep : (K.wordsep before (x :: (w ++ post))).1 = x :: w := by
          have hd : (if K.afterWord before then K.emDash (x :: (w ++ post)) else none) = none := by
            rw [emDash_none K x _ hn]; split <;> rfl
          simp only [CharKinds.wordsep, hs, hd]
          simp only [Bool.false_eq_true, if_false]
          rw [takeWord_word K _ w post (fun c hc => hw c (List.mem_cons_of_mem _ hc)) hp]
        simp only [List.nil_append, List.cons_append, CharKinds.splitFrom, hsep]
        exact List.mem_cons_self
    · obtain ⟨y, t, ht⟩ : ∃ y t, q ++ [c] ++ w ++ post = y :: t := by
        cases q with
        | nil => exact ⟨_, _, rfl⟩
        | cons a q => exact ⟨_, _, rfl⟩
      rw [ht]
      simp only [CharKinds.splitFrom]
      refine List.mem_cons_of_mem _ ?_
      have ha := wordsep_append K before (y :: t)
      have hnn := wordsep_ne_nil K before y t
      have hs := wordsep_solid K before (y :: t)
      generalize (K.wordsep before (y :: t)).1 = a at ha hnn hs ⊢
      generalize (K.wordsep before (y :: t)).2 = b at ha ⊢
      rw [← ht] at ha
      have hpos : 0 < a.length := List.length_pos_iff.2 hnn
      -- the first chunk ends before the word
      have hle : a.length ≤ (q ++ [c]).length := by
        rcases Nat.lt_or_ge (q ++ [c]).length a.length with hlt | hge
        · exfalso
          cases w with
          | nil => exact hne rfl
          | cons x w =>
            have h1 : a = q ++ [c] ++ [x] ++ (a.drop (q.length + 2)) := by
              have h3 := congrArg (List.take (q.length + 2)) ha
              have h4 : (a ++ b).take (q.length + 2) = a.take (q.length + 2) := by
                rw [List.take_append_of_le_length]
                simp only [List.length_append, List.length_cons, List.length_nil] at hlt
                omega
              have h5 : (q ++ [c] ++ x :: w ++ post).take (q.length + 2) = q ++ [c] ++ [x] := by
                have : q ++ [c] ++ x :: w ++ post = (q ++ [c] ++ [x]) ++ (w ++ post) := by simp
                rw [this]
                exact List.take_left' (by simp)
              rw [h4, h5] at h3
              rw [← h3, List.take_append_drop]
            have hxc : isSpace c = true ∧ isSpace x = false := ⟨hc, (hw x List.mem_cons_self).1⟩
            have hca : c ∈ a := by rw [h1]; simp
            have hxa : x ∈ a := by rw [h1]; simp
            rcases hs with hs | hs
            · rw [hs x hxa] at hxc; exact absurd hxc.2 (by simp)
            · rw [hs c hca] at hxc; exact absurd hxc.1 (by simp)
        · exact hge
      have hpe : q ++ [c] = a ++ (q ++ [c]).drop a.length := by
        have h3 := congrArg (List.take a.length) ha
        rw [List.take_left' rfl, List.append_assoc, List.take_append_of_le_length hle] at h3
        rw [h3]
        conv => rhs; rw [List.length_take, Nat.min_eq_left hle]
        exact (List.take_append_drop _ _).symm
      have hb : b = (q ++ [c]).drop a.length ++ w ++ post := by
        have h3 := ha
        rw [hpe] at h3
        simp only [List.append_assoc] at h3
        have h4 := List.append_cancel_left h3
        rw [h4]
        simp only [List.append_assoc]
      rw [hb]
      refine ih _ _ ?_ ?_
      · have hlen := congrArg List.length ha
        rw [hb] at hlen
        simp only [List.length_append] at hlen hl ⊢
        omega
      · rcases Nat.lt_or_ge a.length (q ++ [c]).length with hlt | hge
        · right
          refine ⟨q.drop a.length, c, ?_, hc⟩
          rw [List.drop_append_of_le_length]
          simp only [List.length_append, List.length_cons, List.length_nil] at hlt
          omega
        · left
          exact List.drop_eq_nil_of_le hge

/-! ### The lines -/

theorem takeFit_append (w : Int) (cur : Nat) (cs : List Str) : (takeFit w cur cs).1 ++ (takeFit w cur cs).2 = cs := by
  induction cs generalizing cur with
  | nil => rfl
  | cons c cs ih =>
    simp only [takeFit]
    split
    · simp [ih]
    · rfl

theorem takeFit_length (w : Int) (cur : Nat) (cs : List Str) :
    (takeFit w cur cs).1 = [] ∨ (cur : Int) + (takeFit w cur cs).1.flatten.length ≤ w := by
  induction cs generalizing cur with
  | nil => left; rfl
  | cons c cs ih =>
    simp only [takeFit]
    split
    · next h =>
      right
      rcases ih (cur + c.length) with h1 | h1
      · simp [h1]; exact h
      · simp only [List.flatten_cons, List.length_append]
        push_cast at h1 ⊢
        omega
    · left; rfl

theorem longWord_flatten (w : Int) (line cs : List Str) : ((longWord w line cs).1 ++ (longWord w line cs).2).flatten = (line ++ cs).flatten := by
  cases cs with
  | nil => rfl
  | cons c cs =>
    simp only [longWord]
    split
    · simp only [List.flatten_append, List.flatten_cons, List.flatten_nil, List.append_nil, List.append_assoc]
      rw [← List.append_assoc (c.take _), List.take_append_drop]
    · rfl

theorem rfindHyphen_lt {s : Str} {h : Nat} (hs : rfindHyphen s = some h) : h < s.length := by
  simp only [rfindHyphen] at hs
  split at hs
  · cases hs; omega
  · exact absurd hs (by simp)

theorem breakAt_le (c : Str) (n : Nat) : breakAt c n ≤ n := by
  unfold breakAt
  split
  · split
    · next h hh =>
      have := rfindHyphen_lt hh
      rw [List.length_take] at this
      split <;> omega
    · exact Nat.le_refl _
  · exact Nat.le_refl _

theorem breakAt_pos (c : Str) (n : Nat) (hn : 0 < n) : 0 < breakAt c n := by
  unfold breakAt
  split
  · split
    · split <;> omega
    · exact hn
  · exact hn

theorem longWord_length (w : Int) (line cs : List Str) (h : line = [] ∨ (line.flatten.length : Int) ≤ w) :
    ((longWord w line cs).1.flatten.length : Int) ≤ max w 1 := by
  have h0 : (line.flatten.length : Int) ≤ max w 1 := by
    rcases h with rfl | h
    · simp only [List.flatten_nil, List.length_nil]; omega
    · omega
  cases cs with
  | nil => exact h0
  | cons c cs =>
    simp only [longWord]
    split
    · simp only [List.flatten_append, List.flatten_cons, List.flatten_nil, List.append_nil, List.length_append, List.length_take]
      have := breakAt_le c (if w < 1 then 1 else (w - line.flatten.length).toNat)
      split at this
      · next hw =>
        rcases h with rfl | h
        · rw [if_pos hw]
          simp only [List.flatten_nil, List.length_nil]
          push_cast
          omega
        · rw [if_pos hw]
          push_cast
          omega
      · next hw =>
        rw [if_neg hw]
        push_cast
        rcases h with rfl | h
        · simp only [List.flatten_nil, List.length_nil] at this ⊢
          omega
        · omega
    · exact h0

theorem dropLast_ink (K : CharKinds) (line : List Str) : ink K.space (K.dropLast line).flatten = ink K.space line.flatten := by
  unfold CharKinds.dropLast
  rcases List.eq_nil_or_concat line with rfl | ⟨l, c, rfl⟩
  · rfl
  · rw [List.concat_eq_append, List.getLast?_concat]
    simp only
    split
    · next h =>
      rw [List.dropLast_concat, List.flatten_append, ink_append]
      simp only [List.flatten_cons, List.flatten_nil, List.append_nil]
      rw [ink_blank K.space c (fun x hx => List.all_eq_true.1 h x hx), List.append_nil]
    · rfl

theorem dropLast_length (K : CharKinds) (line : List Str) : (K.dropLast line).flatten.length ≤ line.flatten.length := by
  unfold CharKinds.dropLast
  rcases List.eq_nil_or_concat line with rfl | ⟨l, c, rfl⟩
  · exact Nat.le_refl _
  · rw [List.concat_eq_append, List.getLast?_concat]
    simp only
    split
    · rw [List.dropLast_concat, List.flatten_append, List.length_append]; omega
    · exact Nat.le_refl _

theorem dropLast_mem (K : CharKinds) (line : List Str) (c : Str) (hc : c ∈ line) (hb : K.blank c = false) : c ∈ K.dropLast line := by
  unfold CharKinds.dropLast
  rcases List.eq_nil_or_concat line with rfl | ⟨l, d, rfl⟩
  · exact hc
  · rw [List.concat_eq_append] at hc ⊢
    rw [List.getLast?_concat]
    simp only
    split
    · next h =>
      rw [List.dropLast_concat]
      rcases List.mem_append.1 hc with hc | hc
      · exact hc
      · rw [List.mem_singleton] at hc
        subst hc
        rw [hb] at h
        exact absurd h (by simp)
    · exact hc

theorem dropFirst_ink (K : CharKinds) (st : Bool) (cs : List Str) : ink K.space (K.dropFirst st cs).flatten = ink K.space cs.flatten := by
  cases cs with
  | nil => rfl
  | cons c cs =>
    simp only [CharKinds.dropFirst]
    split
    · next h =>
      rw [Bool.and_eq_true] at h
      rw [List.flatten_cons, ink_append, ink_blank K.space c (fun x hx => List.all_eq_true.1 h.1 x hx), List.nil_append]
    · rfl

theorem dropFirst_mem (K : CharKinds) (st : Bool) (cs : List Str) (c : Str) (hc : c ∈ cs) (hb : K.blank c = false) : c ∈ K.dropFirst st cs := by
  cases cs with
  | nil => exact hc
  | cons d cs =>
    simp only [CharKinds.dropFirst]
    split
    · next h =>
      rw [Bool.and_eq_true] at h
      rcases List.mem_cons.1 hc with rfl | hc
      · rw [hb] at h; exact absurd h.1 (by simp)
      · exact hc
    · exact hc

theorem oneLine_ink (K : CharKinds) (w : Int) (st : Bool) (cs : List Str) :
    ink K.space (K.oneLine w st cs).1.flatten ++ ink K.space (K.oneLine w st cs).2.flatten = ink K.space cs.flatten := by
  simp only [CharKinds.oneLine]
  rw [dropLast_ink, ← ink_append, ← List.flatten_append, longWord_flatten, takeFit_append, dropFirst_ink]

theorem oneLine_length (K : CharKinds) (w : Int) (st : Bool) (cs : List Str) : ((K.oneLine w st cs).1.flatten.length : Int) ≤ max w 1 := by
  simp only [CharKinds.oneLine]
  refine Int.le_trans (Int.ofNat_le.2 (dropLast_length K _)) (longWord_length w _ _ ?_)
  simpa using takeFit_length w 0 (K.dropFirst st cs)

theorem oneLine_mem (K : CharKinds) (w : Int) (st : Bool) (cs : List Str) (c : Str) (hc : c ∈ cs) (hb : K.blank c = false) (hl : (c.length : Int) ≤ w) :
    c ∈ (K.oneLine w st cs).1 ∨ c ∈ (K.oneLine w st cs).2 := by
  simp only [CharKinds.oneLine]
  have h1 := dropFirst_mem K st cs c hc hb
  rw [← takeFit_append w 0 (K.dropFirst st cs)] at h1
  generalize (takeFit w 0 (K.dropFirst st cs)).1 = line at h1 ⊢
  generalize (takeFit w 0 (K.dropFirst st cs)).2 = rest at h1 ⊢
  have h2 : c ∈ (longWord w line rest).1 ∨ c ∈ (longWord w line rest).2 := by
    rcases List.mem_append.1 h1 with h | h
    · left
      cases rest with
      | nil => exact h
      | cons d rest =>
        simp only [longWord]
        split
        · exact List.mem_append_left _ h
        · exact h
    · right
      cases rest with
      | nil => exact h
      | cons d rest =>
        simp only [longWord]
        split
        · next hd =>
          rcases List.mem_cons.1 h with rfl | h
          · omega
          · exact List.mem_cons_of_mem _ h
        · exact h
  rcases h2 with h | h
  · exact .inl (dropLast_mem K _ c h hb)
  · exact .inr h

/-- What remains to be done. -/
def chunkSize' (cs : List Str) : Nat := cs.flatten.length + cs.length

theorem takeFit_size (w : Int) (cur : Nat) (cs : List Str) : chunkSize' (takeFit w cur cs).2 ≤ chunkSize' cs := by
  have := congrArg chunkSize' (takeFit_append w cur cs)
  simp only [chunkSize', List.flatten_append, List.length_append] at this ⊢
  omega

theorem longWord_size (w : Int) (line cs : List Str) : chunkSize' (longWord w line cs).2 ≤ chunkSize' cs := by
  cases cs with
  | nil => exact Nat.le_refl _
  | cons c cs =>
    simp only [longWord]
    split
    · simp only [chunkSize', List.flatten_cons, List.length_append, List.length_drop, List.length_cons]
      omega
    · exact Nat.le_refl _

theorem oneLine_size (K : CharKinds) (w : Int) (st : Bool) (c : Str) (cs : List Str) (h : st = true ∨ c ≠ []) :
    chunkSize' (K.oneLine w st (c :: cs)).2 < chunkSize' (c :: cs) := by
  simp only [CharKinds.oneLine, CharKinds.dropFirst]
  split
  · refine Nat.lt_of_le_of_lt (Nat.le_trans (longWord_size _ _ _) (takeFit_size _ _ _)) ?_
    simp only [chunkSize', List.flatten_cons, List.length_append, List.length_cons]
    omega
  · next hb =>
    have hne : c ≠ [] := by
      rcases h with h | h
      · rintro rfl
        rw [h] at hb
        exact hb rfl
      · exact h
    have hpos : 0 < c.length := List.length_pos_iff.2 hne
    simp only [takeFit]
    split
    · refine Nat.lt_of_le_of_lt (Nat.le_trans (longWord_size _ _ _) (takeFit_size _ _ _)) ?_
      simp only [chunkSize', List.flatten_cons, List.length_append, List.length_cons]
      omega
    · next hf =>
      have hw : w < c.length := by simp only [Int.natCast_zero] at hf; omega
      simp only [longWord, hw, if_true, List.flatten_nil, List.length_nil]
      have := breakAt_pos c (if w < 1 then 1 else (w - ((0 : Nat) : Int)).toNat) (by split <;> omega)
      simp only [chunkSize', List.flatten_cons, List.length_append, List.length_drop, List.length_cons]
      omega

/-- The chunks at which `_wrap_chunks` can begin a line: none at all, or there is room, or the first chunk is not blank. -/
def Startable (K : CharKinds) (w : Int) (cs : List Str) : Prop :=
  (0 < w ∧ ∀ c ∈ cs, c ≠ []) ∨ ∀ c, cs.head? = some c → K.blank c = false

theorem Startable.ne_nil {K : CharKinds} {w : Int} {c : Str} {cs : List Str} (h : Startable K w (c :: cs)) : c ≠ [] := by
  rcases h with h | h
  · exact h.2 c List.mem_cons_self
  · rintro rfl
    exact absurd (h [] rfl) (by simp [CharKinds.blank])

theorem dropLast_ne_nil (K : CharKinds) (line : List Str) (c : Str) (hc : c ∈ line) (hb : K.blank c = false) : K.dropLast line ≠ [] := by
  intro h
  have := dropLast_mem K line c hc hb
  rw [h] at this
  exact absurd this (by simp)

theorem oneLine_startable (K : CharKinds) (w : Int) (c : Str) (cs : List Str) (h : Startable K w (c :: cs)) (hn : (K.oneLine w false (c :: cs)).1 = []) :
    Startable K w (K.oneLine w false (c :: cs)).2 := by
  simp only [CharKinds.oneLine, CharKinds.dropFirst, Bool.and_false, Bool.false_eq_true, if_false] at hn ⊢
  rcases h with ⟨hw, hc⟩ | hb
  · left
    refine ⟨hw, ?_⟩
    have h1 : ∀ x ∈ (takeFit w 0 (c :: cs)).2, x ≠ [] := fun x hx => hc x (by rw [← takeFit_append w 0 (c :: cs)]; exact List.mem_append_right _ hx)
    have h2 := takeFit_length w 0 (c :: cs)
    generalize (takeFit w 0 (c :: cs)).1 = line at h2 ⊢
    generalize (takeFit w 0 (c :: cs)).2 = rest at h1 ⊢
    cases rest with
    | nil => simpa [longWord] using h1
    | cons d rest =>
      simp only [longWord]
      split
      · next hd =>
        intro x hx
        rcases List.mem_cons.1 hx with rfl | hx
        · intro he
          have h3 := breakAt_le d (if w < 1 then 1 else (w - line.flatten.length).toNat)
          have h4 := congrArg List.length he
          rw [if_neg (by omega)] at h3 h4
          simp only [List.length_drop, List.length_nil] at h4
          omega
        · exact h1 x (List.mem_cons_of_mem _ hx)
      · exact h1
  · right
    have hb := hb c rfl
    by_cases hf : ((0 : Nat) : Int) + c.length ≤ w
    · exfalso
      simp only [takeFit, hf, if_true] at hn
      refine dropLast_ne_nil K _ c ?_ hb hn
      generalize (takeFit w (0 + c.length) cs).1 = line
      generalize (takeFit w (0 + c.length) cs).2 = rest
      cases rest with
      | nil => exact List.mem_cons_self
      | cons d rest =>
        simp only [longWord]
        split
        · exact List.mem_append_left _ List.mem_cons_self
        · exact List.mem_cons_self
    · simp only [takeFit, hf, if_false] at hn ⊢
      have hw : w < c.length := by simp only [Int.natCast_zero] at hf; omega
      simp only [longWord, hw, if_true, List.flatten_nil, List.length_nil, List.nil_append] at hn ⊢
      generalize breakAt c (if w < 1 then 1 else (w - ((0 : Nat) : Int)).toNat) = e at hn ⊢
      intro x hx
      simp only [List.head?_cons, Option.some.injEq] at hx
      subst hx
      rw [Bool.eq_false_iff]
      intro hd
      have ht : K.blank (c.take e) = true := by
        cases hq : K.blank (c.take e) with
        | true => rfl
        | false => exact absurd hn (dropLast_ne_nil K _ (c.take e) (by simp) hq)
      have : K.blank c = true := by
        rw [← List.take_append_drop e c]
        simp only [CharKinds.blank, List.all_append, Bool.and_eq_true] at ht hd ⊢
        exact ⟨ht, hd⟩
      rw [hb] at this
      exact absurd this (by simp)

theorem wrapChunks_isSome (K : CharKinds) (width : Int) (first other : Str) (n : Nat) (st : Bool) (cs : List Str) (hn : chunkSize' cs ≤ n)
    (hs : st = true ∨ Startable K (width - first.length) cs) : (K.wrapChunks width first other n st cs).isSome = true := by
  induction n generalizing st cs with
  | zero =>
    cases cs with
    | nil => simp [CharKinds.wrapChunks]
    | cons c cs => simp [chunkSize'] at hn
  | succ n ih =>
    cases cs with
    | nil => simp [CharKinds.wrapChunks]
    | cons c cs =>
      have hsize := oneLine_size K (width - (if st then other else first).length) st c cs
        (hs.imp_right Startable.ne_nil)
      simp only [CharKinds.wrapChunks]
      split
      · next he =>
        refine ih _ _ (by omega) ?_
        rcases hs with rfl | hs
        · exact .inl rfl
        · cases st with
          | true => exact .inl rfl
          | false => exact .inr (oneLine_startable K _ c cs hs he)
      · rw [Option.isSome_map]
        exact ih _ _ (by omega) (.inl rfl)

theorem wrapChunks_ink (K : CharKinds) (width : Int) (first other : Str) (h1 : ink K.space first = []) (h2 : ink K.space other = []) (n : Nat) (st : Bool)
    (cs : List Str) (lines : List Str) (h : K.wrapChunks width first other n st cs = some lines) : ink K.space lines.flatten = ink K.space cs.flatten := by
  induction n generalizing st cs lines with
  | zero =>
    cases cs with
    | nil => simp only [CharKinds.wrapChunks, Option.some.injEq] at h; subst h; rfl
    | cons c cs => simp [CharKinds.wrapChunks] at h
  | succ n ih =>
    cases cs with
    | nil => simp only [CharKinds.wrapChunks, Option.some.injEq] at h; subst h; rfl
    | cons c cs =>
      have ho := oneLine_ink K (width - (if st then other else first).length) st (c :: cs)
      simp only [CharKinds.wrapChunks] at h
      split at h
      · next he =>
        rw [he] at ho
        rw [ih _ _ _ h, ← ho]
        rfl
      · rw [Option.map_eq_some_iff] at h
        obtain ⟨ls, hl, rfl⟩ := h
        rw [List.flatten_cons, ink_append, ink_append, ih _ _ _ hl, ← ho]
        have : ink K.space (if st then other else first) = [] := by cases st <;> simp [h1, h2]
        rw [this, List.nil_append]

theorem wrapChunks_length (K : CharKinds) (width : Int) (first other : Str) (n : Nat) (st : Bool) (cs : List Str) (lines : List Str)
    (h : K.wrapChunks width first other n st cs = some lines) :
    ∀ l ∈ lines, (l.length : Int) ≤ max width (max first.length other.length + 1) := by
  induction n generalizing st cs lines with
  | zero =>
    cases cs with
    | nil => simp only [CharKinds.wrapChunks, Option.some.injEq] at h; subst h; simp
    | cons c cs => simp [CharKinds.wrapChunks] at h
  | succ n ih =>
    cases cs with
    | nil => simp only [CharKinds.wrapChunks, Option.some.injEq] at h; subst h; simp
    | cons c cs =>
      have ho := oneLine_length K (width - (if st then other else first).length) st (c :: cs)
      simp only [CharKinds.wrapChunks] at h
      split at h
      · exact ih _ _ _ h
      · rw [Option.map_eq_some_iff] at h
        obtain ⟨ls, hl, rfl⟩ := h
        intro l hm
        rcases List.mem_cons.1 hm with rfl | hm
        · rw [List.length_append]
          push_cast
          cases st
          · simp only [Bool.false_eq_true, if_false] at ho ⊢; omega
          · simp only [if_true] at ho ⊢; omega
        · exact ih _ _ _ hl l hm

/-- Every line but the first begins with the one, the first with the other indentation. -/
theorem wrapChunks_indent (K : CharKinds) (width : Int) (first other : Str) (n : Nat) (st : Bool) (cs : List Str) (lines : List Str)
    (h : K.wrapChunks width first other n st cs = some lines) :
    ∀ i l, lines[i]? = some l → (if st = false ∧ i = 0 then first else other) <+: l := by
  induction n generalizing st cs lines with
  | zero =>
    cases cs with
    | nil => simp only [CharKinds.wrapChunks, Option.some.injEq] at h; subst h; simp
    | cons c cs => simp [CharKinds.wrapChunks] at h
  | succ n ih =>
    cases cs with
    | nil => simp only [CharKinds.wrapChunks, Option.some.injEq] at h; subst h; simp
    | cons c cs =>
      simp only [CharKinds.wrapChunks] at h
      split at h
      · exact ih _ _ _ h
      · rw [Option.map_eq_some_iff] at h
        obtain ⟨ls, hl, rfl⟩ := h
        intro i l hm
        cases i with
        | zero =>
          simp only [List.getElem?_cons_zero, Option.some.injEq] at hm
          subst hm
          cases st <;> simp
        | succ i =>
          simp only [List.getElem?_cons_succ] at hm
          have := ih _ _ _ hl i l hm
          simp at this
          simpa using this

theorem wrapChunks_mem (K : CharKinds) (width : Int) (first other : Str) (n : Nat) (st : Bool) (cs : List Str) (lines : List Str)
    (h : K.wrapChunks width first other n st cs = some lines) (w : Str) (hw : w ∈ cs) (hb : K.blank w = false)
    (h1 : ((first.length + w.length : Nat) : Int) ≤ width) (h2 : ((other.length + w.length : Nat) : Int) ≤ width) : ∃ l ∈ lines, w <:+: l := by
  induction n generalizing st cs lines with
  | zero =>
    cases cs with
    | nil => exact absurd hw (by simp)
    | cons c cs => simp [CharKinds.wrapChunks] at h
  | succ n ih =>
    cases cs with
    | nil => exact absurd hw (by simp)
    | cons c cs =>
      have ho := oneLine_mem K (width - (if st then other else first).length) st (c :: cs) w hw hb (by cases st <;> simp <;> omega)
      simp only [CharKinds.wrapChunks] at h
      split at h
      · next he =>
        rw [he] at ho
        exact ih _ _ _ h (ho.resolve_left (by simp))
      · rw [Option.map_eq_some_iff] at h
        obtain ⟨ls, hl, rfl⟩ := h
        rcases ho with ho | ho
        · refine ⟨_, List.mem_cons_self, ?_⟩
          obtain ⟨a, b, hab⟩ := List.append_of_mem ho
          rw [hab]
          refine ⟨(if st then other else first) ++ a.flatten, b.flatten, ?_⟩
          simp
        · obtain ⟨l, hl', hi⟩ := ih _ _ _ hl ho
          exact ⟨l, List.mem_cons_of_mem _ hl', hi⟩

/-- Whitespace space and the words between it survive `_munge_whitespace`. -/
theorem munge_word (text w : Str) (h : WordOf text w) :
    ∃ pre post, mungeWhitespace text = pre ++ w ++ post ∧ (pre = [] ∨ ∃ q c, pre = q ++ [c] ∧ isSpace c = true) ∧
      (post = [] ∨ ∃ c q, post = c :: q ∧ isSpace c = true) := by
  obtain ⟨hne, hs, pre, post, rfl, hpre, hpost⟩ := h
  have happ : ∀ (s t : Str) (col : Nat), ∃ col', expandTabs col (s ++ t) = expandTabs col s ++ expandTabs col' t := by
    intro s t
    induction s with
    | nil => exact fun col => ⟨col, rfl⟩
    | cons c s ih =>
      intro col
      simp only [List.cons_append, expandTabs]
      split
      · obtain ⟨c', h⟩ := ih 0
        exact ⟨c', by rw [h, List.append_assoc]⟩
      · split
        · obtain ⟨c', h⟩ := ih 0
          exact ⟨c', by rw [h, List.cons_append]⟩
        · obtain ⟨c', h⟩ := ih (col + 1)
          exact ⟨c', by rw [h, List.cons_append]⟩
  have hword : ∀ (s : Str) (col : Nat), (∀ c ∈ s, isSpace c = false) → expandTabs col s = s ∧ s.map (fun c => if isSpace c then ' ' else c) = s := by
    intro s
    induction s with
    | nil => exact fun col _ => ⟨rfl, rfl⟩
    | cons c s ih =>
      intro col hc
      have h0 := hc c List.mem_cons_self
      have h1 : c ≠ '\t' := by rintro rfl; revert h0; decide
      have h2 : ¬ (c = '\n' ∨ c = '\r') := by rintro (rfl | rfl) <;> revert h0 <;> decide
      have h3 := ih (col + 1) fun x hx => hc x (List.mem_cons_of_mem _ hx)
      simp only [expandTabs, h1, h2, if_false, h3.1, List.map_cons, h0, h3.2, Bool.false_eq_true, and_self]
  have hs' : ∀ c ∈ w, isSpace c = false := fun c hc => by
    rw [Bool.eq_false_iff]; exact fun h => hs c hc ((isSpace_iff c).1 h)
  obtain ⟨c1, e1⟩ := happ (pre ++ w) post 0
  obtain ⟨c2, e2⟩ := happ pre w 0
  refine ⟨(expandTabs 0 pre).map (fun c => if isSpace c then ' ' else c), (expandTabs c1 post).map (fun c => if isSpace c then ' ' else c), ?_, ?_, ?_⟩
  · unfold mungeWhitespace
    rw [e1, e2, (hword w c2 hs').1, List.map_append, List.map_append, (hword w c2 hs').2]
  · rcases hpre with rfl | ⟨q, c, rfl, hc⟩
    · exact .inl rfl
    · right
      obtain ⟨c3, e3⟩ := happ q [c] 0
      have hlast : ∃ r, expandTabs c3 [c] = r ++ [' '] ∨ expandTabs c3 [c] = r ++ [c] := by
        simp only [expandTabs]
        split
        · refine ⟨List.replicate (8 - c3 % 8 - 1) ' ', .inl ?_⟩
          have : 8 - c3 % 8 = (8 - c3 % 8 - 1) + 1 := by omega
          rw [List.append_nil]
          conv => lhs; rw [this]
          exact List.replicate_succ'
        · split
          · exact ⟨[], .inr rfl⟩
          · exact ⟨[], .inr rfl⟩
      obtain ⟨r, hr⟩ := hlast
      refine ⟨(expandTabs 0 q ++ r).map (fun c => if isSpace c then ' ' else c), ' ', ?_, by decide⟩
      rw [e3]
      rcases hr with hr | hr
      · rw [hr]; simp [show isSpace ' ' = true by decide]
      · rw [hr]; simp [(isSpace_iff c).2 hc]
  · rcases hpost with rfl | ⟨c, q, rfl, hc⟩
    · exact .inl rfl
    · right
      refine ⟨' ', ((expandTabs c1 (c :: q)).drop 1).map (fun c => if isSpace c then ' ' else c), ?_, by decide⟩
      have hfirst : ∃ r, expandTabs c1 (c :: q) = ' ' :: r ∨ expandTabs c1 (c :: q) = c :: r := by
        simp only [expandTabs]
        split
        · have : 8 - c1 % 8 = (8 - c1 % 8 - 1) + 1 := by omega
          refine ⟨List.replicate (8 - c1 % 8 - 1) ' ' ++ expandTabs 0 q, .inl ?_⟩
          conv => lhs; rw [this, List.replicate_succ]
          rfl
        · split
          · exact ⟨_, .inr rfl⟩
          · exact ⟨_, .inr rfl⟩
      obtain ⟨r, hr | hr⟩ := hfirst
      · rw [hr]; simp [show isSpace ' ' = true by decide]
      · rw [hr]; simp [(isSpace_iff c).2 hc]

end FF
