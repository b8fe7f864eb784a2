import Verif.Model.Grep
import Verif.Spec.Grep
import Verif.Props.Types
/-! C80, C81: the plugins grep and mime. -/
namespace FF
open Spec

theorem universal_plain {l : Str} (h : '\r' ∉ l) (s : Str) : universalNewlines (l ++ s) = l ++ universalNewlines s := by
  induction l with
  | nil => rfl
  | cons c l ih =>
    have hc : c ≠ '\r' := by rintro rfl; simp at h
    rw [List.cons_append, universalNewlines, if_neg hc, ih (fun x => h (by simp [x]))]
    · rfl
    · rintro t rfl; exact absurd rfl hc

theorem readlines_line {l : Str} (h : '\n' ∉ l) (s : Str) : readlines (l ++ '\n' :: s) = (l ++ ['\n']) :: readlines s := by
  induction l with
  | nil => simp [readlines]
  | cons c l ih =>
    have hc : c ≠ '\n' := by rintro rfl; simp at h
    rw [List.cons_append, readlines, if_neg hc, ih (fun x => h (by simp [x]))]
    rfl

theorem readlines_last {l : Str} (h : '\n' ∉ l) (hne : l ≠ []) : readlines l = [l] := by
  induction l with
  | nil => exact absurd rfl hne
  | cons c l ih =>
    have hc : c ≠ '\n' := by rintro rfl; simp at h
    rw [readlines, if_neg hc]
    by_cases h0 : l = []
    · subst h0; rfl
    · rw [ih (fun x => h (by simp [x])) h0]

/-- What the plugin takes for the lines: all of them have a `\n` at the end, except for an unfinished last line. -/
theorem readlines_spec {s : Str} {ls : List Str} (h : TextLines s ls) :
    readlines (universalNewlines s) = ls.map (· ++ ['\n']) ∨ ∃ init l, ls = init ++ [l] ∧ l ≠ [] ∧ readlines (universalNewlines s) = init.map (· ++ ['\n']) ++ [l] := by
  have key : ∀ (l : Str) (ls : List Str) (r : List Str), (r = ls.map (· ++ ['\n']) ∨ ∃ init k, ls = init ++ [k] ∧ k ≠ [] ∧ r = init.map (· ++ ['\n']) ++ [k]) →
      ((l ++ ['\n']) :: r = (l :: ls).map (· ++ ['\n']) ∨ ∃ init k, l :: ls = init ++ [k] ∧ k ≠ [] ∧ (l ++ ['\n']) :: r = init.map (· ++ ['\n']) ++ [k]) := by
    intro l ls r h
    rcases h with rfl | ⟨init, k, rfl, hk, rfl⟩
    · exact .inl rfl
    · exact .inr ⟨l :: init, k, rfl, hk, rfl⟩
  induction h with
  | nil => exact .inl rfl
  | @last l h0 h1 h2 =>
    have := universal_plain h2 []
    rw [List.append_nil] at this
    refine .inr ⟨[], l, rfl, h0, ?_⟩
    rw [this]
    simpa [universalNewlines] using readlines_last h1 h0
  | @unix l s ls h1 h2 _ ih =>
    rw [universal_plain h2, universalNewlines, if_neg (by decide), readlines_line h1]
    · exact key l ls _ ih
    · rintro t ⟨⟩
  | @dos l s ls h1 h2 _ ih =>
    rw [universal_plain h2, universalNewlines, readlines_line h1]
    exact key l ls _ ih
  | @mac l s ls h1 h2 h3 _ ih =>
    rw [universal_plain h2, universalNewlines, if_pos rfl, readlines_line h1]
    · exact key l ls _ ih
    · rintro t _ rfl; exact h3 t rfl

/-- C80: `linecount` is the number of lines, whatever their ends, and whether or not the last one has one. -/
theorem C80_count {s : Str} {ls : List Str} (h : TextLines s ls) : (grepProcess (some s)).text = true ∧ (grepProcess (some s)).linecount = some ls.length := by
  refine ⟨rfl, ?_⟩
  simp only [grepProcess]
  rcases readlines_spec h with e | ⟨init, l, rfl, _, e⟩ <;> rw [e] <;> simp

/-- C80: a file that cannot be decoded is no text and has no lines. -/
theorem C80_binary : grepProcess none = ⟨false, none, none⟩ := rfl

/-- C80: `grep.text` holds exactly for files that can be decoded. -/
theorem C80_text (content : Option Str) : (grepProcess content).text = content.isSome := by cases content <;> rfl

/-- C80: every text has lines. -/
theorem C80_lines (s : Str) : ∃ ls, TextLines s ls := by
  suffices h : ∀ n, ∀ s : Str, s.length ≤ n → ∃ ls, TextLines s ls from h _ s (Nat.le_refl _)
  intro n
  induction n with
  | zero => intro s hs; have : s = [] := by simpa using hs
            subst this; exact ⟨[], .nil⟩
  | succ n ih =>
    intro s hs
    have first : ∀ s : Str, (∃ l c r, s = l ++ c :: r ∧ (c = '\n' ∨ c = '\r') ∧ '\n' ∉ l ∧ '\r' ∉ l) ∨ ('\n' ∉ s ∧ '\r' ∉ s) := by
      intro s
      induction s with
      | nil => exact .inr (by simp)
      | cons x s ih =>
        by_cases hx : x = '\n' ∨ x = '\r'
        · exact .inl ⟨[], x, s, rfl, hx, by simp, by simp⟩
        · have hx1 : x ≠ '\n' := fun e => hx (.inl e)
          have hx2 : x ≠ '\r' := fun e => hx (.inr e)
          rcases ih with ⟨l, c, r, rfl, hc, h1, h2⟩ | ⟨h1, h2⟩
          · exact .inl ⟨x :: l, c, r, rfl, hc, by simp [h1, Ne.symm hx1], by simp [h2, Ne.symm hx2]⟩
          · exact .inr ⟨by simp [h1, Ne.symm hx1], by simp [h2, Ne.symm hx2]⟩
    rcases first s with ⟨l, c, r, rfl, hc, h1, h2⟩ | ⟨h1, h2⟩
    · simp only [List.length_append, List.length_cons] at hs
      rcases hc with rfl | rfl
      · obtain ⟨ls, h⟩ := ih r (by omega)
        exact ⟨l :: ls, .unix h1 h2 h⟩
      · by_cases hr : ∃ t, r = '\n' :: t
        · obtain ⟨t, rfl⟩ := hr
          obtain ⟨ls, h⟩ := ih t (by simp at hs; omega)
          exact ⟨l :: ls, .dos h1 h2 h⟩
        · obtain ⟨ls, h⟩ := ih r (by omega)
          exact ⟨l :: ls, .mac h1 h2 (fun t e => hr ⟨t, e⟩) h⟩
    · by_cases h0 : s = []
      · subst h0; exact ⟨[], .nil⟩
      · exact ⟨[s], .last h0 h1 h2⟩

theorem infix_newline {p l : Str} (hp : '\n' ∉ p) : (∃ a b, l ++ ['\n'] = a ++ p ++ b) ↔ ∃ a b, l = a ++ p ++ b := by
  constructor
  · rintro ⟨a, b, h⟩
    rcases List.eq_nil_or_concat b with rfl | ⟨b, c, rfl⟩
    · rw [List.append_nil] at h
      rcases List.eq_nil_or_concat p with rfl | ⟨p, c, rfl⟩
      · exact ⟨l, [], by simp⟩
      · rw [List.concat_eq_append, ← List.append_assoc] at h
        rw [List.concat_eq_append] at hp
        have := (List.append_inj' h rfl).2
        simp at this
        exact absurd (by simp [← this]) hp
    · rw [List.concat_eq_append, ← List.append_assoc] at h
      exact ⟨a, b, (List.append_inj' h rfl).1⟩
  · rintro ⟨a, b, rfl⟩
    exact ⟨a, b ++ ['\n'], by simp⟩

/-- C80: `grep.lines:text` holds for exactly the files with a line that contains the text (shown for tests that heed case). -/
theorem C80_contains (env : TestEnv) {s pat : Str} {ls : List Str} (h : TextLines s ls) (hp : '\n' ∉ pat) {t : Test}
    (ht : createTest env .sensitive .listOfStrings [':'] none pat = .ok t) (e : EntryInfo) :
    ∃ vs, (grepProcess (some s)).lines = some vs ∧ (Ty.test env.low .listOfStrings t e (.strs vs) = true ↔ ∃ l ∈ ls, ∃ a b, l = a ++ pat ++ b) := by
  refine ⟨_, rfl, ?_⟩
  rw [C28_any env .sensitive ht]
  have hf : ∀ v, fold env.low .sensitive pat v = v := by intro v; simp [fold, insensitive]
  simp only [hf, strTest]
  rcases readlines_spec h with e | ⟨init, l, rfl, _, e⟩
  · rw [e]
    constructor
    · rintro ⟨v, hv, h⟩
      obtain ⟨l, hl, rfl⟩ := List.mem_map.1 hv
      exact ⟨l, hl, (infix_newline hp).1 h⟩
    · rintro ⟨l, hl, h⟩
      exact ⟨l ++ ['\n'], List.mem_map_of_mem hl, (infix_newline hp).2 h⟩
  · rw [e]
    constructor
    · rintro ⟨v, hv, h'⟩
      rcases List.mem_append.1 hv with hv | hv
      · obtain ⟨l', hl, rfl⟩ := List.mem_map.1 hv
        exact ⟨l', by simp [hl], (infix_newline hp).1 h'⟩
      · simp at hv; subst hv; exact ⟨v, by simp, h'⟩
    · rintro ⟨l', hl, h'⟩
      rcases List.mem_append.1 hl with hl | hl
      · exact ⟨l' ++ ['\n'], by simp [hl], (infix_newline hp).2 h'⟩
      · simp at hl; subst hl; exact ⟨l', by simp, h'⟩

example : TextLines "ab\r\nc\n\nd".toList ["ab".toList, "c".toList, [], "d".toList] :=
  .dos (l := "ab".toList) (by decide) (by decide) (.unix (l := "c".toList) (by decide) (by decide) (.unix (l := []) (by decide) (by decide) (.last (by decide) (by decide) (by decide))))

/-- C80 fails for `=`: a file with the line `a` does not pass the test `grep.lines=a`, since the lines include their ends. -/
theorem C80_equal_false : TextLines "a\nb\n".toList ["a".toList, "b".toList] ∧ ∃ t vs, createTest demoEnv .sensitive .listOfStrings ['='] none "a".toList = .ok t ∧
    (grepProcess (some "a\nb\n".toList)).lines = some vs ∧ Ty.test demoEnv.low .listOfStrings t ⟨[], false⟩ (.strs vs) = false :=
  ⟨.unix (l := "a".toList) (by decide) (by decide) (.unix (l := "b".toList) (by decide) (by decide) .nil), _, _, rfl, rfl, by decide⟩

/-! ### Content types -/

theorem splitSlash_first {a : Str} (h : '/' ∉ a) (b : Str) : splitSlash (a ++ '/' :: b) = [a, b] := by
  induction a with
  | nil => simp [splitSlash]
  | cons c a ih =>
    have hc : c ≠ '/' := by rintro rfl; simp at h
    rw [List.cons_append, splitSlash, if_neg hc, ih (fun x => h (by simp [x]))]

theorem splitSlash_none {a : Str} (h : '/' ∉ a) : splitSlash a = [a] := by
  induction a with
  | nil => rfl
  | cons c a ih =>
    have hc : c ≠ '/' := by rintro rfl; simp at h
    rw [splitSlash, if_neg hc, ih (fun x => h (by simp [x]))]

/-- C81: `type` and `subtype` are what is before and after the first slash of the content type. -/
theorem C81_parts (mime a b : Str) : mimeParts mime = some (a, b) ↔ mime = a ++ '/' :: b ∧ '/' ∉ a := by
  unfold mimeParts
  by_cases h : '/' ∈ mime
  · obtain ⟨x, y, rfl, hx⟩ : ∃ x y, mime = x ++ '/' :: y ∧ '/' ∉ x := by
      clear a b
      induction mime with
      | nil => simp at h
      | cons c s ih =>
        by_cases hc : c = '/'
        · subst hc; exact ⟨[], s, rfl, by simp⟩
        · obtain ⟨x, y, rfl, hx⟩ := ih (by simpa [Ne.symm hc] using h)
          exact ⟨c :: x, y, rfl, by simp [hx, Ne.symm hc]⟩
    rw [splitSlash_first hx]
    constructor
    · intro e; simp at e; obtain ⟨rfl, rfl⟩ := e; exact ⟨rfl, hx⟩
    · rintro ⟨e, ha⟩
      have := splitSlash_first hx y
      rw [e, splitSlash_first ha] at this
      simp at this
      obtain ⟨rfl, rfl⟩ := this
      rfl
  · rw [splitSlash_none h]
    constructor
    · intro e; simp at e
    · rintro ⟨rfl, _⟩; simp at h

example : mimeParts "text/x-c/y".toList = some ("text".toList, "x-c/y".toList) := by decide

end FF
