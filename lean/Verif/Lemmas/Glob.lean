import Verif.Model.Glob
import Verif.Lemmas.Re
import Verif.Spec.Glob
import Verif.Spec.Entry
namespace FF
open Spec

/-- The language of a regular expression without groups and anchors. -/
def Re.L : Re → Str → Prop
  | .eps, a => a = []
  | .chr p, a => ∃ x, a = [x] ∧ p x = true
  | .seq r s, a => ∃ b c, a = b ++ c ∧ r.L b ∧ s.L c
  | .alt r s, a => r.L a ∨ s.L a
  | .star _ p, a => ∀ x ∈ a, p x = true
  | .cap _ _, _ => False
  | .eol, _ => False

/-- No groups, no anchors. -/
def Re.Plain : Re → Prop
  | .seq r s | .alt r s => r.Plain ∧ s.Plain
  | .cap _ _ | .eol => False
  | _ => True

theorem Re.mat_plain : ∀ {r : Re}, r.Plain → ∀ {s s' : Str} {c c' : Caps}, r.Mat s c s' c' ↔ ∃ a, s = a ++ s' ∧ r.L a ∧ c' = c := by
  intro r
  induction r with
  | eps => intro _ s s' c c'; simp only [Re.Mat, Re.L]; constructor
           · rintro ⟨rfl, rfl⟩; exact ⟨[], rfl, rfl, rfl⟩
           · rintro ⟨a, rfl, rfl, rfl⟩; exact ⟨rfl, rfl⟩
  | chr p =>
    intro _ s s' c c'; simp only [Re.Mat, Re.L]; constructor
    · rintro ⟨x, rfl, h, rfl⟩; exact ⟨[x], rfl, ⟨x, rfl, h⟩, rfl⟩
    · rintro ⟨a, rfl, ⟨x, rfl, h⟩, rfl⟩; exact ⟨x, rfl, h, rfl⟩
  | seq r1 r2 ih1 ih2 =>
    intro hp s s' c c'; simp only [Re.Mat, Re.L]; constructor
    · rintro ⟨s1, c1, h1, h2⟩
      obtain ⟨a, rfl, ha, rfl⟩ := (ih1 hp.1).1 h1
      obtain ⟨b, rfl, hb, rfl⟩ := (ih2 hp.2).1 h2
      exact ⟨a ++ b, by simp, ⟨a, b, rfl, ha, hb⟩, rfl⟩
    · rintro ⟨_, rfl, ⟨a, b, rfl, ha, hb⟩, rfl⟩
      exact ⟨b ++ s', c', (ih1 hp.1).2 ⟨a, by simp, ha, rfl⟩, (ih2 hp.2).2 ⟨b, rfl, hb, rfl⟩⟩
  | alt r1 r2 ih1 ih2 =>
    intro hp s s' c c'; simp only [Re.Mat, Re.L, ih1 hp.1, ih2 hp.2]; constructor
    · rintro (⟨a, h1, h2, h3⟩ | ⟨a, h1, h2, h3⟩)
      · exact ⟨a, h1, Or.inl h2, h3⟩
      · exact ⟨a, h1, Or.inr h2, h3⟩
    · rintro ⟨a, h1, h2 | h2, h3⟩
      · exact Or.inl ⟨a, h1, h2, h3⟩
      · exact Or.inr ⟨a, h1, h2, h3⟩
  | star g p => intro _ s s' c c'; simp only [Re.Mat, Re.L]
  | cap n a _ => intro hp; exact absurd hp (by simp [Re.Plain])
  | eol => intro hp; exact absurd hp (by simp [Re.Plain])

theorem bodyMatch_iff {r : Re} (hp : r.Plain) {s : Str} : bodyMatch r s = true ↔ r.L s ∨ ∃ a, s = a ++ ['\n'] ∧ r.L a := by
  unfold bodyMatch Re.match'
  rw [Re.run_isSome_iff]
  constructor
  · rintro ⟨s', c', h, _⟩
    obtain ⟨s1, c1, h1, h2⟩ : ∃ s1 c1, r.Mat s [] s1 c1 ∧ Re.eol.Mat s1 c1 s' c' := h
    obtain ⟨a, rfl, ha, rfl⟩ := (Re.mat_plain hp).1 h1
    obtain ⟨h3, _, _⟩ := h2
    rcases h3 with rfl | rfl
    · left; simpa using ha
    · right; exact ⟨a, rfl, ha⟩
  · rintro (h | ⟨a, rfl, h⟩)
    · exact ⟨[], [], ⟨[], [], (Re.mat_plain hp).2 ⟨s, by simp, h, rfl⟩, Or.inl rfl, rfl, rfl⟩, rfl⟩
    · exact ⟨['\n'], [], ⟨['\n'], [], (Re.mat_plain hp).2 ⟨a, by simp, h, rfl⟩, Or.inr rfl, rfl, rfl⟩, rfl⟩

theorem L_lit {c : Char} {a : Str} : (Re.lit c).L a ↔ a = [c] := by
  simp only [Re.lit, Re.L, decide_eq_true_eq]
  constructor
  · rintro ⟨x, rfl, rfl⟩; rfl
  · rintro rfl; exact ⟨c, rfl, rfl⟩

theorem L_str {w a : Str} : (Re.str w).L a ↔ a = w := by
  induction w generalizing a with
  | nil => simp [Re.str, Re.L]
  | cons x xs ih =>
    rw [Re.str]
    simp only [Re.L, ih]
    constructor
    · rintro ⟨b, c, rfl, h1, rfl⟩; rw [(L_lit).1 h1]; rfl
    · rintro rfl; exact ⟨[x], xs, rfl, L_lit.2 rfl, rfl⟩

theorem L_plus {g : Bool} {p : Char → Bool} {a : Str} : (Re.plus g p).L a ↔ a ≠ [] ∧ ∀ x ∈ a, p x = true := by
  simp only [Re.plus, Re.L]
  constructor
  · rintro ⟨b, c, rfl, ⟨x, rfl, hx⟩, hc⟩
    refine ⟨by simp, ?_⟩
    intro y hy
    simp only [List.singleton_append, List.mem_cons] at hy
    rcases hy with rfl | hy
    · exact hx
    · exact hc y hy
  · rintro ⟨hne, h⟩
    cases a with
    | nil => exact absurd rfl hne
    | cons x xs => exact ⟨[x], xs, rfl, ⟨x, rfl, h x (by simp)⟩, fun y hy => h y (by simp [hy])⟩

theorem plain_str (w : Str) : (Re.str w).Plain := by
  induction w with
  | nil => trivial
  | cons x xs ih => exact ⟨trivial, ih⟩

/-- The language of a part, `none`-parts being empty. -/
def partL (p : Str) (a : Str) : Prop := ∃ r, partRe p = some r ∧ r.L a

/-- The language of a list of parts. -/
def partsL : List Str → Str → Prop
  | [], a => a = []
  | p :: ps, a => ∃ b c, a = b ++ c ∧ partL p b ∧ partsL ps c

theorem partsRe_L {ps : List Str} {r : Re} (h : partsRe ps = some r) {a : Str} : r.L a ↔ partsL ps a := by
  induction ps generalizing r a with
  | nil => simp only [partsRe, Option.some.injEq] at h; subst h; simp [Re.L, partsL]
  | cons p ps ih =>
    simp only [partsRe] at h
    cases h1 : partRe p with
    | none => simp [h1] at h
    | some r1 =>
      cases h2 : partsRe ps with
      | none => simp [h1, h2] at h
      | some r2 =>
        simp only [h1, h2, Option.some.injEq] at h
        subst h
        simp only [Re.L, partsL, partL, h1, Option.some.injEq, exists_eq_left']
        constructor
        · rintro ⟨b, c, h3, h4, h5⟩; exact ⟨b, c, h3, h4, (ih h2).1 h5⟩
        · rintro ⟨b, c, h3, h4, h5⟩; exact ⟨b, c, h3, h4, (ih h2).2 h5⟩

theorem plain_partRe {p : Str} {r : Re} (h : partRe p = some r) : r.Plain := by
  have hc : ∀ c r, classRe c = some r → r.Plain := by
    intro c r h
    unfold classRe at h
    split at h
    · cases h
    · cases h
    · simp only [Option.map_eq_some_iff] at h; obtain ⟨_, _, rfl⟩ := h; trivial
    · simp only [Option.map_eq_some_iff] at h; obtain ⟨_, _, rfl⟩ := h; trivial
  unfold partRe at h
  repeat' split at h
  all_goals first
    | (cases h; simp [Re.Plain, Re.opt, Re.lit, Re.plus]; done)
    | exact hc _ _ h
    | (cases h; exact plain_str _)

theorem plain_partsRe {ps : List Str} {r : Re} (h : partsRe ps = some r) : r.Plain := by
  induction ps generalizing r with
  | nil => simp only [partsRe, Option.some.injEq] at h; subst h; trivial
  | cons p ps ih =>
    simp only [partsRe] at h
    cases h1 : partRe p with
    | none => simp [h1] at h
    | some r1 =>
      cases h2 : partsRe ps with
      | none => simp [h1, h2] at h
      | some r2 =>
        simp only [h1, h2, Option.some.injEq] at h
        subst h
        exact ⟨plain_partRe h1, ih h2⟩

/-! ### Tokens -/

theorem globSplit_skip (cur : Str) (n : Nat) (s : Str) : globSplit cur n s = globSplit cur 0 (s.drop n) := by
  induction n generalizing s with
  | zero => simp
  | succ n ih =>
    cases s with
    | nil => simp [globSplit]
    | cons c cs => rw [globSplit, ih]; simp

/-- A token: one literal character or a separator. -/
inductive GTok
  | lit (c : Char)
  | sep (s : Str)

/-- `Tokens s ts`: `s` is scanned as the tokens `ts`, no literal being an opening bracket. -/
inductive Tokens : Str → List GTok → Prop
  | nil : Tokens [] []
  | lit {s ts} (c : Char) : sepLen (c :: s) = 0 → c ≠ '[' → Tokens s ts → Tokens (c :: s) (.lit c :: ts)
  | sep {s ts} (w : Str) : w ≠ [] → sepLen (w ++ s) = w.length → Tokens s ts → Tokens (w ++ s) (.sep w :: ts)

/-- The language of tokens. -/
def toksL : List GTok → Str → Prop
  | [], a => a = []
  | .lit c :: ts, a => ∃ b, a = c :: b ∧ toksL ts b
  | .sep w :: ts, a => ∃ b c, a = b ++ c ∧ partL w b ∧ toksL ts c

/-- All separators can be translated. -/
def toksOk : List GTok → Prop
  | [] => True
  | .lit _ :: ts => toksOk ts
  | .sep w :: ts => (partRe w).isSome = true ∧ toksOk ts

/-- Literal text that is not taken for a separator or class. -/
def litPart (w : Str) : Prop := (∀ c cs, w = c :: cs → c ≠ '[') ∧ w ∉ [['/', '*', '*', '/'], ['*', '*', '/'], ['/', '*', '*'], ['*'], ['?']]

theorem startsWith_cons (c : Char) (cs : Str) (p : Char) (ps : Str) : startsWith (c :: cs) (p :: ps) = (p == c && startsWith cs ps) := rfl
theorem startsWith_nil (s : Str) : startsWith s [] = true := by cases s <;> rfl

theorem partRe_lit {w : Str} (h : litPart w) : partRe w = some (.str w) := by
  obtain ⟨h1, h2⟩ := h
  simp only [List.mem_cons, List.not_mem_nil, or_false, not_or] at h2
  have e1 : startsWith w ['[', '!'] = false := by
    cases w with
    | nil => rfl
    | cons c cs => simp [startsWith_cons, Ne.symm (h1 c cs rfl)]
  have e2 : startsWith w ['['] = false := by
    cases w with
    | nil => rfl
    | cons c cs => simp [startsWith_cons, Ne.symm (h1 c cs rfl)]
  simp [partRe, h2.1, h2.2.1, h2.2.2.1, h2.2.2.2.1, h2.2.2.2.2, e1, e2]

/-- Scanned literals never contain an asterisk or question mark. -/
theorem sepLen_zero {c : Char} {s : Str} (h : sepLen (c :: s) = 0) : c ≠ '*' ∧ c ≠ '?' := by
  constructor
  · rintro rfl
    unfold sepLen at h
    split at h <;> simp_all
  · rintro rfl
    simp [sepLen] at h

theorem globSplit_L {s : Str} {ts : List GTok} (h : Tokens s ts) :
    ∀ (cur : Str), (∀ c cs, cur = c :: cs → c ≠ '[') → (∀ c ∈ cur, c ≠ '*' ∧ c ≠ '?') → ∀ a,
      partsL (globSplit cur 0 s) a ↔ ∃ b, a = cur ++ b ∧ toksL ts b := by
  have hlit : ∀ cur : Str, (∀ c cs, cur = c :: cs → c ≠ '[') → (∀ c ∈ cur, c ≠ '*' ∧ c ≠ '?') → ∀ a, partL cur a ↔ a = cur := by
    intro cur h1 h2 a
    have : litPart cur := by
      refine ⟨h1, ?_⟩
      simp only [List.mem_cons, List.not_mem_nil, or_false]
      rintro (rfl | rfl | rfl | rfl | rfl)
      · exact (h2 '*' (by simp)).1 rfl
      · exact (h2 '*' (by simp)).1 rfl
      · exact (h2 '*' (by simp)).1 rfl
      · exact (h2 '*' (by simp)).1 rfl
      · exact (h2 '?' (by simp)).2 rfl
    simp [partL, partRe_lit this, L_str]
  induction h with
  | nil =>
    intro cur h1 h2 a
    simp only [globSplit, partsL, toksL, hlit cur h1 h2]
    constructor
    · rintro ⟨b, c, rfl, rfl, rfl⟩; exact ⟨[], rfl, rfl⟩
    · rintro ⟨b, rfl, rfl⟩; exact ⟨cur, [], rfl, rfl, rfl⟩
  | @lit s ts c hs hc _ ih =>
    intro cur h1 h2 a
    rw [globSplit, hs]
    simp only
    rw [ih (cur ++ [c])]
    · simp only [toksL]
      constructor
      · rintro ⟨b, rfl, hb⟩; exact ⟨c :: b, by simp, b, rfl, hb⟩
      · rintro ⟨b, rfl, d, rfl, hd⟩; exact ⟨d, by simp, hd⟩
    · intro x xs hx
      cases cur with
      | nil => simp at hx; rw [← hx.1]; exact hc
      | cons y ys => simp at hx; rw [← hx.1]; exact h1 y ys rfl
    · intro x hx
      rcases List.mem_append.1 hx with hx | hx
      · exact h2 x hx
      · simp at hx; subst hx; exact sepLen_zero hs
  | @sep s ts w hne hs _ ih =>
    intro cur h1 h2 a
    obtain ⟨x, xs, rfl⟩ : ∃ x xs, w = x :: xs := by
      cases w with
      | nil => exact absurd rfl hne
      | cons x xs => exact ⟨x, xs, rfl⟩
    rw [List.cons_append] at hs ⊢
    rw [globSplit, hs]
    simp only [List.length_cons]
    rw [globSplit_skip]
    have e1 : (x :: (xs ++ s)).take (xs.length + 1) = x :: xs := by simp
    have e2 : (xs ++ s).drop xs.length = s := by simp
    rw [e1, e2]
    simp only [partsL, toksL, hlit cur h1 h2]
    constructor
    · rintro ⟨b, c, rfl, rfl, d, e, rfl, hd, he⟩
      rw [ih [] (by simp) (by simp)] at he
      obtain ⟨f, hf1, hf⟩ := he
      rw [List.nil_append] at hf1
      subst hf1
      exact ⟨d ++ e, by simp, d, e, rfl, hd, hf⟩
    · rintro ⟨b, rfl, d, e, rfl, hd, he⟩
      exact ⟨cur, d ++ e, rfl, rfl, d, e, rfl, hd, (ih [] (by simp) (by simp) e).2 ⟨e, rfl, he⟩⟩

theorem globSplit_some {s : Str} {ts : List GTok} (h : Tokens s ts) (hok : toksOk ts) :
    ∀ (cur : Str), (∀ c cs, cur = c :: cs → c ≠ '[') → (∀ c ∈ cur, c ≠ '*' ∧ c ≠ '?') → (partsRe (globSplit cur 0 s)).isSome = true := by
  have hlit : ∀ cur : Str, (∀ c cs, cur = c :: cs → c ≠ '[') → (∀ c ∈ cur, c ≠ '*' ∧ c ≠ '?') → partRe cur = some (.str cur) := by
    intro cur h1 h2
    have : litPart cur := by
      refine ⟨h1, ?_⟩
      simp only [List.mem_cons, List.not_mem_nil, or_false]
      rintro (rfl | rfl | rfl | rfl | rfl)
      · exact (h2 '*' (by simp)).1 rfl
      · exact (h2 '*' (by simp)).1 rfl
      · exact (h2 '*' (by simp)).1 rfl
      · exact (h2 '*' (by simp)).1 rfl
      · exact (h2 '?' (by simp)).2 rfl
    exact partRe_lit this
  induction h with
  | nil => intro cur h1 h2; simp [globSplit, partsRe, hlit cur h1 h2]
  | @lit s ts c hs hc _ ih =>
    intro cur h1 h2
    rw [globSplit, hs]
    simp only
    apply ih hok
    · intro x xs hx
      cases cur with
      | nil => simp at hx; rw [← hx.1]; exact hc
      | cons y ys => simp at hx; rw [← hx.1]; exact h1 y ys rfl
    · intro x hx
      rcases List.mem_append.1 hx with hx | hx
      · exact h2 x hx
      · simp at hx; subst hx; exact sepLen_zero hs
  | @sep s ts w hne hs _ ih =>
    intro cur h1 h2
    obtain ⟨x, xs, rfl⟩ : ∃ x xs, w = x :: xs := by
      cases w with
      | nil => exact absurd rfl hne
      | cons x xs => exact ⟨x, xs, rfl⟩
    rw [List.cons_append] at hs ⊢
    rw [globSplit, hs]
    simp only [List.length_cons]
    rw [globSplit_skip]
    have e1 : (x :: (xs ++ s)).take (xs.length + 1) = x :: xs := by simp
    have e2 : (xs ++ s).drop xs.length = s := by simp
    rw [e1, e2]
    obtain ⟨r, hr⟩ := Option.isSome_iff_exists.1 hok.1
    obtain ⟨r', hr'⟩ := Option.isSome_iff_exists.1 (ih hok.2 [] (by simp) (by simp))
    simp only [partsRe, hlit cur h1 h2, hr, hr', Option.isSome_some]

/-- What a pattern without markers matches. -/
theorem body_of_tokens {s : Str} {ts : List GTok} (h : Tokens s ts) (hok : toksOk ts) :
    ∃ r, partsRe (globSplit [] 0 s) = some r ∧ ∀ a, '\n' ∉ a → (bodyMatch r a = true ↔ toksL ts a) := by
  obtain ⟨r, hr⟩ := Option.isSome_iff_exists.1 (globSplit_some h hok [] (by simp) (by simp))
  refine ⟨r, hr, ?_⟩
  intro a ha
  rw [bodyMatch_iff (plain_partsRe hr), partsRe_L hr, globSplit_L h [] (by simp) (by simp)]
  constructor
  · rintro (⟨b, rfl, hb⟩ | ⟨b, rfl, _⟩)
    · exact hb
    · exact absurd (by simp) ha
  · intro hb; exact Or.inl ⟨a, rfl, hb⟩

theorem toksL_append {ts ts' : List GTok} {a : Str} : toksL (ts ++ ts') a ↔ ∃ b c, a = b ++ c ∧ toksL ts b ∧ toksL ts' c := by
  induction ts generalizing a with
  | nil =>
    simp only [List.nil_append, toksL]
    constructor
    · intro h; exact ⟨[], a, rfl, rfl, h⟩
    · rintro ⟨b, c, rfl, rfl, h⟩; exact h
  | cons t ts ih =>
    cases t with
    | lit x =>
      simp only [List.cons_append, toksL, ih]
      constructor
      · rintro ⟨b, rfl, c, d, rfl, h1, h2⟩; exact ⟨x :: c, d, rfl, ⟨c, rfl, h1⟩, h2⟩
      · rintro ⟨_, d, rfl, ⟨c, rfl, h1⟩, h2⟩; exact ⟨c ++ d, rfl, c, d, rfl, h1, h2⟩
    | sep w =>
      simp only [List.cons_append, toksL, ih]
      constructor
      · rintro ⟨b, _, rfl, hb, c, d, rfl, h1, h2⟩; exact ⟨b ++ c, d, by simp, ⟨b, c, rfl, hb, h1⟩, h2⟩
      · rintro ⟨_, d, rfl, ⟨b, c, rfl, hb, h1⟩, h2⟩; exact ⟨b, c ++ d, by simp, hb, c, d, rfl, h1, h2⟩

theorem toksOk_append {ts ts' : List GTok} : toksOk (ts ++ ts') ↔ toksOk ts ∧ toksOk ts' := by
  induction ts with
  | nil => simp [toksOk]
  | cons t ts ih => cases t <;> simp [toksOk, ih, and_assoc]

/-! ### Items -/

def itemTok : Item → GTok
  | .lit c => .lit c
  | .any => .sep ['?']
  | .star => .sep ['*']
  | .cls neg l => .sep (Item.text (.cls neg l))
  | .hat l => .sep (Item.text (.hat l))

theorem classText_chars {l : List (Char × Char)} (h : ∀ r ∈ l, classChar r.1 ∧ classChar r.2 ∧ r.1 ≤ r.2) : ∀ c ∈ classText l, c ≠ ']' := by
  induction l with
  | nil => simp [classText]
  | cons r l ih =>
    obtain ⟨a, b⟩ := r
    obtain ⟨ha, hb, _⟩ := h (a, b) (by simp)
    have ha' : a ≠ ']' := by rintro rfl; simp [classChar] at ha
    have hb' : b ≠ ']' := by rintro rfl; simp [classChar] at hb
    intro c hc
    simp only [classText, List.mem_append] at hc
    rcases hc with hc | hc
    · split at hc
      · simp at hc; rw [hc]; exact ha'
      · simp at hc
        rcases hc with rfl | rfl | rfl
        · exact ha'
        · decide
        · exact hb'
    · exact ih (fun r hr => h r (by simp [hr])) c hc

theorem classText_head {l : List (Char × Char)} (hne : l ≠ []) (h : ∀ r ∈ l, classChar r.1 ∧ classChar r.2 ∧ r.1 ≤ r.2) :
    ∃ c cs, classText l = c :: cs ∧ classChar c := by
  cases l with
  | nil => exact absurd rfl hne
  | cons r l =>
    obtain ⟨a, b⟩ := r
    obtain ⟨ha, _, _⟩ := h (a, b) (by simp)
    by_cases hab : a = b
    · exact ⟨a, classText l, by simp [classText, hab], ha⟩
    · exact ⟨a, '-' :: b :: classText l, by simp [classText, hab], ha⟩

/-- Within the rest of a class only the last element may be a hyphen. -/
theorem parseClass_rest {l : List (Char × Char)} (h : ∀ r ∈ l, classChar r.1 ∧ classChar r.2 ∧ r.1 ≤ r.2)
    (hd : ∀ a r b, l = a ++ r :: b → (r.1 = '-' ∨ r.2 = '-') → r = ('-', '-') ∧ (a = [] ∨ b = [])) : parseClass (classText l) = some l := by
  induction l with
  | nil => rfl
  | cons r l ih =>
    obtain ⟨a, b⟩ := r
    obtain ⟨ha, hb, hle⟩ := h (a, b) (by simp)
    have hd' : ∀ a r b, l = a ++ r :: b → (r.1 = '-' ∨ r.2 = '-') → r = ('-', '-') ∧ b = [] := by
      rintro x r y rfl hr
      obtain ⟨h1, h2 | h2⟩ := hd ((a, b) :: x) r y rfl hr
      · cases h2
      · exact ⟨h1, h2⟩
    have ihl := ih (fun r hr => h r (by simp [hr])) (fun x r y e hr => ⟨(hd' x r y e hr).1, .inr (hd' x r y e hr).2⟩)
    simp only [classChar, List.mem_cons, List.not_mem_nil, or_false, not_or] at ha hb
    by_cases hab : a = b
    · subst hab
      have hnd : ∀ x xs, classText l = x :: xs → x ≠ '-' ∨ xs = [] := by
        intro x xs hx
        cases l with
        | nil => simp [classText] at hx
        | cons q l =>
          obtain ⟨c, d⟩ := q
          by_cases hx' : x = '-'
          · right
            have hc : c = '-' := by
              by_cases hcd : c = d
              · subst hcd; simp only [classText, if_true, List.singleton_append, List.cons.injEq] at hx; rw [hx.1, hx']
              · simp only [classText, if_neg hcd, List.cons_append, List.nil_append, List.cons.injEq] at hx; rw [hx.1, hx']
            obtain ⟨h1, h2⟩ := hd' [] (c, d) l rfl (.inl hc)
            simp only [Prod.mk.injEq] at h1
            obtain ⟨rfl, rfl⟩ := h1
            subst h2
            simp [classText] at hx
            exact hx.2
          · exact .inl hx'
      simp only [classText, if_true, List.singleton_append]
      cases hcl : classText l with
      | nil =>
        rw [hcl] at ihl
        simp [parseClass, ha]
        simpa [parseClass] using ihl
      | cons x xs =>
        rw [hcl] at ihl
        have hx := hnd x xs hcl
        rw [parseClass]
        · simp [ha, ihl]
        · intro b' rest' hh
          simp only [List.cons.injEq] at hh
          rcases hx with hx | hx
          · exact hx hh.1
          · rw [hx] at hh; cases hh.2
    · have hlt : ¬ b < a := Char.not_lt.2 hle
      simp only [classText, if_neg hab, List.cons_append, List.nil_append]
      simp [parseClass, ha, hb, ihl, hlt]

theorem parseClass_text {l : List (Char × Char)} (h : Ranges l) : parseClass (classText l) = some l := parseClass_rest h.2.1 h.2.2

theorem partRe_cls {neg : Bool} {l : List (Char × Char)} (h : Item.Ok (.cls neg l)) :
    partRe (Item.text (.cls neg l)) = some (.chr (fun c => if neg then !inClass l c else inClass l c)) := by
  obtain ⟨c, cs, hc, hcc⟩ := classText_head h.1.1 h.1.2.1
  have hp := parseClass_text h.1
  cases neg with
  | true =>
    have e : Item.text (.cls true l) = '[' :: '!' :: (classText l ++ [']']) := by simp [Item.text]
    rw [e]
    have e2 : ((('[' :: '!' :: (classText l ++ [']'])) : Str).drop 2).dropLast = classText l := by simp
    have e1 : startsWith ('[' :: '!' :: (classText l ++ [']'])) ['[', '!'] = true := by simp [startsWith]
    simp only [partRe, e1, e2]
    simp [classRe, hc]
    rw [hc] at hp
    simp [hp]
  | false =>
    have hcc : c ≠ '!' ∧ c ≠ '^' := h.2 rfl c (by rw [hc]; simp)
    have e : Item.text (.cls false l) = '[' :: (classText l ++ [']']) := by simp [Item.text]
    rw [e]
    have e2 : ((('[' :: (classText l ++ [']'])) : Str).drop 1).dropLast = classText l := by simp
    have e1 : startsWith ('[' :: (classText l ++ [']'])) ['['] = true := by simp [startsWith]
    have e3 : startsWith ('[' :: (classText l ++ [']'])) ['[', '!'] = false := by simp [startsWith_cons, hc, Ne.symm hcc.1]
    simp only [partRe, e1, e2, e3]
    simp only [hc] at hp ⊢
    simp only [List.cons.injEq, reduceCtorEq, Bool.false_eq_true, if_false, if_true]
    simp
    unfold classRe
    split
    · rename_i hh; cases hh
    · rename_i hh; simp at hh; exact absurd hh.1 hcc.2
    · rename_i hh; simp at hh; exact absurd hh.1 hcc.2
    · simp [hp]

theorem partRe_hat {l : List (Char × Char)} (h : Ranges l) : partRe (Item.text (.hat l)) = some (.chr (fun c => !inClass l c)) := by
  obtain ⟨c, cs, hc, hcc⟩ := classText_head h.1 h.2.1
  have hp := parseClass_text h
  have e : Item.text (.hat l) = '[' :: '^' :: (classText l ++ [']']) := by simp [Item.text]
  rw [e]
  have e2 : ((('[' :: '^' :: (classText l ++ [']'])) : Str).drop 1).dropLast = '^' :: classText l := by
    show List.dropLast ('^' :: (classText l ++ [']'])) = _
    rw [← List.cons_append, List.dropLast_concat]
  have e1 : startsWith ('[' :: '^' :: (classText l ++ [']'])) ['['] = true := by simp [startsWith]
  have e3 : startsWith ('[' :: '^' :: (classText l ++ [']'])) ['[', '!'] = false := by simp [startsWith_cons]
  simp only [partRe, e1, e2, e3]
  simp [classRe, hc]
  rw [hc] at hp
  simp [hp]

theorem sepLen_class {w : Str} (hw : w ≠ []) (hch : ∀ c ∈ w, c ≠ ']') (s : Str) : sepLen ('[' :: (w ++ ']' :: s)) = w.length + 2 := by
  have tw : ∀ w : Str, (∀ c ∈ w, c ≠ ']') → (w ++ ']' :: s).takeWhile (· ≠ ']') = w ∧ (w ++ ']' :: s).dropWhile (· ≠ ']') = ']' :: s := by
    intro w hw
    induction w with
    | nil => simp
    | cons x xs ih =>
      obtain ⟨i1, i2⟩ := ih (fun c hc => hw c (by simp [hc]))
      have hx := hw x (by simp)
      constructor
      · simp only [List.cons_append, List.takeWhile_cons]; simp only [ne_eq, decide_not] at i1; simp [hx, i1]
      · simp only [List.cons_append, List.dropWhile_cons]; simp only [ne_eq, decide_not] at i2; simp [hx, i2]
  obtain ⟨t1, t2⟩ := tw w hch
  simp only [sepLen, t1, t2]
  simp [hw]

theorem sepLen_cls {neg : Bool} {l : List (Char × Char)} (h : Ranges l) (s : Str) :
    sepLen (Item.text (.cls neg l) ++ s) = (Item.text (.cls neg l)).length := by
  obtain ⟨c, cs, hc, hcc⟩ := classText_head h.1 h.2.1
  have hch := classText_chars h.2.1
  cases neg with
  | true =>
    have := sepLen_class (w := '!' :: classText l) (by simp) (by intro c hc; rcases List.mem_cons.1 hc with rfl | hc' <;> first | decide | exact hch c hc') s
    simpa [Item.text] using this
  | false =>
    have := sepLen_class (w := classText l) (by rw [hc]; simp) hch s
    simpa [Item.text] using this

theorem sepLen_hat {l : List (Char × Char)} (h : Ranges l) (s : Str) : sepLen (Item.text (.hat l) ++ s) = (Item.text (.hat l)).length := by
  have hch := classText_chars h.2.1
  have := sepLen_class (w := '^' :: classText l) (by simp) (by intro c hc; rcases List.mem_cons.1 hc with rfl | hc' <;> first | decide | exact hch c hc') s
  simpa [Item.text] using this

theorem sepLen_plain {c : Char} (h : plainChar c) (s : Str) : sepLen (c :: s) = 0 ∧ c ≠ '[' := by
  simp only [plainChar, List.mem_cons, List.not_mem_nil, or_false, not_or] at h
  refine ⟨?_, h.2.2.1⟩
  unfold sepLen
  split <;> simp_all

/-- `t` does not turn a preceding asterisk into part of a longer separator. -/
def calm (t : Str) : Prop := ∀ x xs, t = x :: xs → x ≠ '*'

theorem sepLen_star {t : Str} (h : calm t) : sepLen ('*' :: t) = 1 := by
  unfold sepLen
  split <;> simp_all [calm]

theorem itemsText_cons (i : Item) (is : List Item) : itemsText (i :: is) = i.text ++ itemsText is := by simp [itemsText]

theorem item_head {i : Item} (h : i.Ok) (hs : i ≠ .star) (t : Str) : calm (i.text ++ t) := by
  intro x xs hx
  cases i with
  | lit c => simp [Item.text] at hx; rw [← hx.1]; simp [Item.Ok, plainChar] at h; exact h.1
  | any => simp [Item.text] at hx; rw [← hx.1]; decide
  | star => exact absurd rfl hs
  | cls neg l => cases neg <;> simp [Item.text] at hx <;> (rw [← hx.1]; decide)
  | hat l => simp [Item.text] at hx; rw [← hx.1]; decide

/-- Scanning a component followed by something that does not begin with an asterisk. -/
theorem tokens_items {is : List Item} (hok : ∀ i ∈ is, i.Ok) (hd : noDouble is) {t : Str} {ts : List GTok} (ht : calm t) (h : Tokens t ts) :
    Tokens (itemsText is ++ t) (is.map itemTok ++ ts) := by
  induction is with
  | nil => simpa [itemsText] using h
  | cons i is ih =>
    have ihh := ih (fun j hj => hok j (by simp [hj])) (by
      cases i <;> cases is <;> first | trivial | (rename_i j _; cases j <;> first | exact hd | trivial))
    rw [itemsText_cons, List.append_assoc]
    have hi := hok i (by simp)
    cases i with
    | lit c =>
      obtain ⟨a, b⟩ := sepLen_plain hi (itemsText is ++ t)
      exact Tokens.lit c a b ihh
    | any => exact Tokens.sep ['?'] (by simp) (by simp [sepLen]) ihh
    | star =>
      have hcalm : calm (itemsText is ++ t) := by
        cases is with
        | nil => simpa [itemsText] using ht
        | cons j js =>
          rw [itemsText_cons, List.append_assoc]
          apply item_head (hok j (by simp))
          rintro rfl
          exact hd
      exact Tokens.sep ['*'] (by simp) (by simpa using sepLen_star hcalm) ihh
    | cls neg l => exact Tokens.sep (Item.text (.cls neg l)) (by cases neg <;> simp [Item.text]) (sepLen_cls hi.1 _) ihh
    | hat l => exact Tokens.sep (Item.text (.hat l)) (by simp [Item.text]) (sepLen_hat hi _) ihh

theorem toksOk_items {is : List Item} (hok : ∀ i ∈ is, i.Ok) : toksOk (is.map itemTok) := by
  induction is with
  | nil => trivial
  | cons i is ih =>
    have ihh := ih (fun j hj => hok j (by simp [hj]))
    have hi := hok i (by simp)
    cases i with
    | lit c => exact ihh
    | any => exact ⟨by decide, ihh⟩
    | star => exact ⟨by decide, ihh⟩
    | cls neg l => exact ⟨by rw [partRe_cls hi]; rfl, ihh⟩
    | hat l => exact ⟨by rw [partRe_hat hi]; rfl, ihh⟩

theorem partL_any {a : Str} : partL ['?'] a ↔ ∃ x, a = [x] ∧ x ≠ '/' := by
  have : partRe ['?'] = some (.chr (· ≠ '/')) := by simp [partRe]
  simp [partL, this, Re.L]

theorem partL_star {a : Str} : partL ['*'] a ↔ ∀ x ∈ a, x ≠ '/' := by
  have : partRe ['*'] = some (.star true (· ≠ '/')) := by simp [partRe]
  simp [partL, this, Re.L]

theorem inClass_iff {l : List (Char × Char)} {c : Char} : inClass l c = true ↔ ∃ r ∈ l, r.1 ≤ c ∧ c ≤ r.2 := by
  simp [inClass]

/-- Items match as specified, unless a class matches a slash. -/
theorem toksL_items {is : List Item} (hok : ∀ i ∈ is, i.Ok) {a : Str} (hns : (∀ i ∈ is, i.noSlash) ∨ '/' ∉ a) : toksL (is.map itemTok) a ↔ Wild is a := by
  induction is generalizing a with
  | nil =>
    simp only [List.map_nil, toksL]
    constructor
    · rintro rfl; exact .nil
    · intro h; cases h; rfl
  | cons i is ih =>
    have ihh : ∀ {b c : Str}, a = b ++ c → (toksL (is.map itemTok) c ↔ Wild is c) := fun {b c} hbc => ih (fun j hj => hok j (by simp [hj])) (by
      rcases hns with h | h
      · exact Or.inl (fun j hj => h j (by simp [hj]))
      · right; intro hc; exact h (by simp [hbc, hc]))
    have hi := hok i (by simp)
    cases i with
    | lit c =>
      simp only [List.map_cons, itemTok, toksL]
      constructor
      · rintro ⟨b, rfl, hb⟩; exact .lit c ((ihh (b := [c]) rfl).1 hb)
      · intro h; cases h; rename_i s hs; exact ⟨s, rfl, (ihh (b := [c]) rfl).2 hs⟩
    | any =>
      simp only [List.map_cons, itemTok, toksL, partL_any]
      constructor
      · rintro ⟨b, c, rfl, ⟨x, rfl, hx⟩, hb⟩; exact .any x hx ((ihh (b := [x]) rfl).1 hb)
      · intro h; cases h; rename_i s c hc hs; exact ⟨[c], s, rfl, ⟨c, rfl, hc⟩, (ihh (b := [c]) rfl).2 hs⟩
    | star =>
      simp only [List.map_cons, itemTok, toksL, partL_star]
      constructor
      · rintro ⟨b, c, rfl, hb, hc⟩
        replace hc := (ihh rfl).1 hc
        clear ihh hns
        induction b with
        | nil => exact .skip hc
        | cons x xs ihx => exact .eat x (hb x (by simp)) (ihx (fun y hy => hb y (by simp [hy])))
      · intro h
        have key : ∃ b c, a = b ++ c ∧ (∀ x ∈ b, x ≠ '/') ∧ Wild is c := by
          clear ihh hns
          generalize hq : Item.star :: is = q at h
          induction h with
          | nil => cases hq
          | lit _ _ => cases hq
          | any _ _ _ => cases hq
          | skip hw => simp only [List.cons.injEq, true_and] at hq; subst hq; exact ⟨[], _, rfl, by simp, hw⟩
          | eat c hc _ ihw =>
            obtain ⟨b, d, hbd, h1, h2⟩ := ihw hq
            refine ⟨c :: b, d, by simp [hbd], ?_, h2⟩
            intro y hy
            rcases List.mem_cons.1 hy with rfl | hy
            · exact hc
            · exact h1 y hy
          | cls _ _ _ _ _ _ => cases hq
          | hat _ _ _ _ _ => cases hq
        obtain ⟨b, c, h1, h2, h3⟩ := key
        exact ⟨b, c, h1, h2, (ihh h1).2 h3⟩
    | cls neg l =>
      simp only [List.map_cons, itemTok, toksL, partL, partRe_cls hi, Option.some.injEq, exists_eq_left', Re.L]
      have hc : ∀ x, (if neg = true then !inClass l x else inClass l x) = true ↔ (neg = true ↔ ¬ ∃ r ∈ l, r.1 ≤ x ∧ x ≤ r.2) := by
        intro x
        rw [← inClass_iff]
        cases neg <;> simp
      constructor
      · rintro ⟨b, c, rfl, ⟨x, rfl, hx⟩, hb⟩
        refine .cls neg l x ?_ ((hc x).1 hx) ((ihh (b := [x]) rfl).1 hb)
        rintro rfl
        rcases hns with h | h
        · have h2 : Item.noSlash (.cls neg l) := h _ (by simp)
          have h1 := (hc '/').1 hx
          simp only [Item.noSlash] at h2
          rw [h2] at h1
          exact (iff_not_self h1).elim
        · simp at h
      · intro h
        cases h with
        | cls _ _ c hslash hx hs => exact ⟨[c], _, rfl, ⟨c, rfl, (hc c).2 hx⟩, (ihh (b := [c]) rfl).2 hs⟩
    | hat l =>
      simp only [List.map_cons, itemTok, toksL, partL, partRe_hat hi, Option.some.injEq, exists_eq_left', Re.L]
      have hc : ∀ x, (!inClass l x) = true ↔ ¬ ∃ r ∈ l, r.1 ≤ x ∧ x ≤ r.2 := by
        intro x
        rw [← inClass_iff]
        simp
      constructor
      · rintro ⟨b, c, rfl, ⟨x, rfl, hx⟩, hb⟩
        refine .hat l x ?_ ((hc x).1 hx) ((ihh (b := [x]) rfl).1 hb)
        rintro rfl
        rcases hns with h | h
        · have h2 : Item.noSlash (.hat l) := h _ (by simp)
          exact (hc '/').1 hx h2
        · simp at h
      · intro h
        cases h with
        | hat _ c hslash hx hs => exact ⟨[c], _, rfl, ⟨c, rfl, (hc c).2 hx⟩, (ihh (b := [c]) rfl).2 hs⟩

theorem wild_noSlash {is : List Item} (hok : ∀ i ∈ is, i.Ok) {a : Str} (h : Wild is a) : '/' ∉ a := by
  induction h with
  | nil => simp
  | lit c _ ih =>
    have := hok (.lit c) (by simp)
    simp only [Item.Ok, plainChar, List.mem_cons, List.not_mem_nil, or_false, not_or] at this
    have := ih (fun i hi => hok i (by simp [hi]))
    simp_all [eq_comm]
  | any c hc _ ih =>
    have := ih (fun i hi => hok i (by simp [hi]))
    simp_all [eq_comm]
  | skip _ ih => exact ih (fun i hi => hok i (by simp [hi]))
  | eat c hc _ ih =>
    have := ih hok
    simp_all [eq_comm]
  | cls neg l c hslash hc _ ih =>
    have := ih (fun i hi => hok i (by simp [hi]))
    simp_all [eq_comm]
  | hat l c hslash hc _ ih =>
    have := ih (fun i hi => hok i (by simp [hi]))
    simp only [List.mem_cons, not_or]
    exact ⟨Ne.symm hslash, this⟩

/-! ### Paths -/

/-- Tokens of a list of components; the flag says that a slash precedes. -/
def ctoks : Bool → List Comp → List GTok
  | _, [] => []
  | false, [.deep] => [.sep ['*'], .sep ['*']]
  | true, [.deep] => [.sep ['/', '*', '*']]
  | false, .deep :: c :: cs => .sep ['*', '*', '/'] :: ctoks false (c :: cs)
  | true, .deep :: c :: cs => .sep ['/', '*', '*', '/'] :: ctoks false (c :: cs)
  | false, .wild is :: cs => is.map itemTok ++ ctoks true cs
  | true, .wild is :: cs => .lit '/' :: (is.map itemTok ++ ctoks true cs)

/-- A path, with a slash in front if there is any component. -/
def slashed : Bool → List Str → Str
  | false, ns => pathOf ns
  | true, [] => []
  | true, n :: ns => '/' :: pathOf (n :: ns)

theorem pathOf_cons (n : Str) (ns : List Str) : pathOf (n :: ns) = n ++ slashed true ns := by
  cases ns with
  | nil => simp [pathOf, slashed]
  | cons m ms => rfl

theorem calm_slashed (ns : List Str) : calm (slashed true ns) := by
  intro x xs h
  cases ns with
  | nil => cases h
  | cons n ns => simp only [slashed, List.cons.injEq] at h; rw [← h.1]; decide

theorem tokens_comps : ∀ {cs : List Comp}, (∀ c ∈ cs, c.Ok) → ∀ b, Tokens (slashed b (cs.map Comp.text)) (ctoks b cs) := by
  intro cs
  induction cs with
  | nil => intro _ b; cases b <;> exact .nil
  | cons c cs ih =>
    intro hok b
    have ihh := ih (fun x hx => hok x (by simp [hx]))
    cases c with
    | deep =>
      cases cs with
      | nil =>
        cases b with
        | false => exact Tokens.sep (s := ['*']) ['*'] (by simp) rfl (Tokens.sep (s := []) ['*'] (by simp) rfl .nil)
        | true => exact Tokens.sep (s := []) ['/', '*', '*'] (by simp) rfl .nil
      | cons d ds =>
        have i1 := ihh false
        cases b with
        | false => exact Tokens.sep (s := pathOf ((d :: ds).map Comp.text)) ['*', '*', '/'] (by simp) rfl i1
        | true => exact Tokens.sep (s := pathOf ((d :: ds).map Comp.text)) ['/', '*', '*', '/'] (by simp) rfl i1
    | wild is =>
      obtain ⟨hne, hi, hd⟩ := hok (.wild is) (by simp)
      have ht := tokens_items hi hd (calm_slashed (cs.map Comp.text)) (ihh true)
      have htxt : pathOf ((Comp.wild is :: cs).map Comp.text) = itemsText is ++ slashed true (cs.map Comp.text) := by
        rw [List.map_cons, pathOf_cons]; rfl
      cases b with
      | false =>
        show Tokens (pathOf _) _
        rw [htxt]; cases cs <;> exact ht
      | true =>
        show Tokens ('/' :: pathOf ((Comp.wild is :: cs).map Comp.text)) _
        rw [htxt]
        have hsl : sepLen ('/' :: (itemsText is ++ slashed true (cs.map Comp.text))) = 0 := by
          cases is with
          | nil => exact absurd rfl hne
          | cons i is =>
            by_cases hi' : i = .star
            · subst hi'
              have hcalm : calm (itemsText is ++ slashed true (cs.map Comp.text)) := by
                cases is with
                | nil => simpa [itemsText] using calm_slashed _
                | cons j js =>
                  rw [itemsText_cons, List.append_assoc]
                  apply item_head (hi j (by simp))
                  rintro rfl
                  exact hd
              rw [itemsText_cons, List.append_assoc]
              generalize itemsText is ++ slashed true (cs.map Comp.text) = t at hcalm
              show sepLen ('/' :: '*' :: t) = 0
              unfold sepLen
              split <;> simp_all [calm]
            · have := item_head (hi i (by simp)) hi' (itemsText is ++ slashed true (cs.map Comp.text))
              rw [itemsText_cons, List.append_assoc]
              generalize i.text ++ (itemsText is ++ slashed true (cs.map Comp.text)) = t at this
              unfold sepLen
              split <;> simp_all [calm]
        have := Tokens.lit '/' hsl (by decide) ht
        cases cs <;> exact this

theorem toksOk_comps : ∀ {cs : List Comp}, (∀ c ∈ cs, c.Ok) → ∀ b, toksOk (ctoks b cs) := by
  intro cs
  induction cs with
  | nil => intro _ b; cases b <;> trivial
  | cons c cs ih =>
    intro hok b
    have ihh := ih (fun x hx => hok x (by simp [hx]))
    cases c with
    | deep =>
      cases cs with
      | nil => cases b <;> simp [ctoks, toksOk, partRe]
      | cons d ds => cases b <;> exact ⟨by simp [partRe], ihh false⟩
    | wild is =>
      have := toksOk_append.2 ⟨toksOk_items (hok (.wild is) (by simp)).2.1, ihh true⟩
      cases b <;> cases cs <;> exact this

/-- What the components match, as a function of the names. -/
def compsM : Bool → List Comp → List Str → Prop
  | _, [], ns => ns = []
  | false, [.deep], ns => ∃ n, ns = [n]
  | true, [.deep], _ => True
  | _, .deep :: c :: cs, ns => ∃ a b, ns = a ++ b ∧ b ≠ [] ∧ compsM false (c :: cs) b
  | _, .wild is :: cs, ns => ∃ n rest, ns = n :: rest ∧ Wild is n ∧ compsM true cs rest

/-- Valid names of a path. -/
def Names (ns : List Str) : Prop := ∀ n ∈ ns, n ≠ [] ∧ '/' ∉ n ∧ '\n' ∉ n

theorem pathOf_append {a b : List Str} (ha : a ≠ []) (hb : b ≠ []) : pathOf (a ++ b) = pathOf a ++ '/' :: pathOf b := by
  induction a with
  | nil => exact absurd rfl ha
  | cons x xs ih =>
    cases xs with
    | nil =>
      cases b with
      | nil => exact absurd rfl hb
      | cons y ys => rfl
    | cons y ys => rw [List.cons_append, pathOf_cons, pathOf_cons, List.cons_append]; simp only [slashed]; rw [← List.cons_append, ih (by simp)]; simp

theorem names_path_ne_nil {ns : List Str} (h : Names ns) (hne : ns ≠ []) : pathOf ns ≠ [] := by
  cases ns with
  | nil => exact absurd rfl hne
  | cons n ns => rw [pathOf_cons]; simp [(h n (by simp)).1]

theorem pathOf_no_newline {ns : List Str} (h : Names ns) : '\n' ∉ pathOf ns := by
  induction ns with
  | nil => simp [pathOf]
  | cons n ns ih =>
    rw [pathOf_cons]
    have := ih (fun x hx => h x (by simp [hx]))
    cases ns with
    | nil => simp [slashed, (h n (by simp)).2.2]
    | cons m ms => simp only [slashed, List.mem_append, List.mem_cons, not_or]; exact ⟨(h n (by simp)).2.2, by decide, this⟩

/-- Splitting a path at a slash splits its names. -/
theorem pathOf_split {ns : List Str} (h : Names ns) {a b : Str} (hab : pathOf ns = a ++ '/' :: b) :
    ∃ n1 n2, ns = n1 ++ n2 ∧ n1 ≠ [] ∧ n2 ≠ [] ∧ a = pathOf n1 ∧ b = pathOf n2 := by
  induction ns generalizing a with
  | nil => simp [pathOf] at hab
  | cons n ns ih =>
    rw [pathOf_cons] at hab
    obtain ⟨hn1, hn2, _⟩ := h n (by simp)
    rcases List.append_eq_append_iff.1 hab with ⟨c, hc1, hc2⟩ | ⟨c, hc1, hc2⟩
    · -- a = n ++ c
      cases ns with
      | nil => simp [slashed] at hc2
      | cons m ms =>
        simp only [slashed] at hc2
        cases c with
        | nil =>
          simp only [List.nil_append, List.cons.injEq, true_and] at hc2
          exact ⟨[n], m :: ms, rfl, by simp, by simp, by simpa [pathOf] using hc1, hc2.symm⟩
        | cons x xs =>
          simp only [List.cons_append, List.cons.injEq] at hc2
          obtain ⟨rfl, hc2⟩ := hc2
          obtain ⟨p, q, hpq, hp, hq, h1, h2⟩ := ih (fun x hx => h x (by simp [hx])) hc2
          refine ⟨n :: p, q, by simp [hpq], by simp, hq, ?_, h2⟩
          rw [hc1, pathOf_cons, h1]
          cases p with
          | nil => exact absurd rfl hp
          | cons _ _ => rfl
    · -- n = a ++ c
      cases c with
      | nil =>
        simp only [List.nil_append] at hc2
        cases ns with
        | nil => simp [slashed] at hc2
        | cons m ms =>
          simp only [slashed, List.cons.injEq, true_and] at hc2
          exact ⟨[n], m :: ms, rfl, by simp, by simp, by simp [pathOf, hc1], hc2⟩
      | cons x xs =>
        simp only [List.cons_append, List.cons.injEq] at hc2
        exact absurd (by rw [hc1, ← hc2.1]; simp) hn2

theorem partL_deepLead {a : Str} : partL ['*', '*', '/'] a ↔ a = [] ∨ ∃ b, a = b ++ ['/'] ∧ b ≠ [] ∧ '\n' ∉ b := by
  have e : partRe ['*', '*', '/'] = some (.opt (.seq (.plus true Re.dot) (.lit '/'))) := by simp [partRe]
  simp only [partL, e, Option.some.injEq, exists_eq_left', Re.opt, Re.L, L_lit, L_plus, Re.dot, decide_eq_true_eq]
  constructor
  · rintro (⟨b, c, rfl, ⟨h1, h2⟩, rfl⟩ | h)
    · exact Or.inr ⟨b, rfl, h1, fun hm => h2 _ hm rfl⟩
    · exact Or.inl h
  · rintro (h | ⟨b, rfl, h1, h2⟩)
    · exact Or.inr h
    · exact Or.inl ⟨b, ['/'], rfl, ⟨h1, fun x hx he => h2 (he ▸ hx)⟩, rfl⟩

theorem partL_deepMid {a : Str} : partL ['/', '*', '*', '/'] a ↔ a = ['/'] ∨ ∃ b, a = '/' :: (b ++ ['/']) ∧ b ≠ [] ∧ '\n' ∉ b := by
  have e : partRe ['/', '*', '*', '/'] = some (.alt (.lit '/') (.seq (.lit '/') (.seq (.plus true Re.dot) (.lit '/')))) := by simp [partRe]
  simp only [partL, e, Option.some.injEq, exists_eq_left', Re.L, L_lit, L_plus, Re.dot, decide_eq_true_eq]
  constructor
  · rintro (h | ⟨_, _, rfl, rfl, b, c, rfl, ⟨h1, h2⟩, rfl⟩)
    · exact Or.inl h
    · exact Or.inr ⟨b, rfl, h1, fun hm => h2 _ hm rfl⟩
  · rintro (h | ⟨b, rfl, h1, h2⟩)
    · exact Or.inl h
    · exact Or.inr ⟨['/'], b ++ ['/'], rfl, rfl, b, ['/'], rfl, ⟨h1, fun x hx he => h2 (he ▸ hx)⟩, rfl⟩

theorem partL_deepTrail {a : Str} : partL ['/', '*', '*'] a ↔ a = [] ∨ ∃ b, a = '/' :: b ∧ b ≠ [] ∧ '\n' ∉ b := by
  have e : partRe ['/', '*', '*'] = some (.opt (.seq (.lit '/') (.plus true Re.dot))) := by simp [partRe]
  simp only [partL, e, Option.some.injEq, exists_eq_left', Re.opt, Re.L, L_lit, L_plus, Re.dot, decide_eq_true_eq]
  constructor
  · rintro (⟨_, b, rfl, rfl, h1, h2⟩ | h)
    · exact Or.inr ⟨b, rfl, h1, fun hm => h2 _ hm rfl⟩
    · exact Or.inl h
  · rintro (h | ⟨b, rfl, h1, h2⟩)
    · exact Or.inr h
    · exact Or.inl ⟨['/'], b, rfl, rfl, h1, fun x hx he => h2 (he ▸ hx)⟩

theorem names_append {a b : List Str} (h : Names (a ++ b)) : Names a ∧ Names b :=
  ⟨fun x hx => h x (by simp [hx]), fun x hx => h x (by simp [hx])⟩

theorem slash_start_of_comps {cs : List Comp} {c : Str} (h : toksL (ctoks true cs) c) : c = [] ∨ ∃ d, c = '/' :: d := by
  cases cs with
  | nil => left; simpa [ctoks, toksL] using h
  | cons x xs =>
    cases x with
    | deep =>
      cases xs with
      | nil =>
        simp only [ctoks, toksL, partL_deepTrail] at h
        obtain ⟨b, _, rfl, h1, rfl⟩ := h
        rcases h1 with rfl | ⟨b', rfl, _⟩
        · left; rfl
        · right; exact ⟨b', by simp⟩
      | cons y ys =>
        simp only [ctoks, toksL, partL_deepMid] at h
        obtain ⟨b, c', rfl, h1, _⟩ := h
        rcases h1 with rfl | ⟨b', rfl, _⟩
        · right; exact ⟨c', rfl⟩
        · right; exact ⟨b' ++ ['/'] ++ c', by simp⟩
    | wild is =>
      have h' : toksL (.lit '/' :: (is.map itemTok ++ ctoks true xs)) c := by cases xs <;> exact h
      obtain ⟨b, rfl, _⟩ := h'
      right; exact ⟨b, rfl⟩

/-- The wildcards of one component followed by further components. -/
theorem wild_step {is : List Item} {cs : List Comp} (hi : ∀ i ∈ is, i.Ok) (hs : ∀ i ∈ is, i.noSlash) {ns : List Str} (hne : ns ≠ [])
    (hn : Names ns) (ih : ∀ rest, Names rest → (toksL (ctoks true cs) (slashed true rest) ↔ compsM true cs rest)) :
    toksL (is.map itemTok ++ ctoks true cs) (pathOf ns) ↔ ∃ n rest, ns = n :: rest ∧ Wild is n ∧ compsM true cs rest := by
  rw [toksL_append]
  constructor
  · rintro ⟨b, c, hbc, h1, h2⟩
    rw [toksL_items hi (Or.inl hs)] at h1
    have hb := wild_noSlash hi h1
    cases ns with
    | nil => exact absurd rfl hne
    | cons n rest =>
      have hc := slash_start_of_comps h2
      rw [pathOf_cons] at hbc
      obtain ⟨hn1, hn2, _⟩ := hn n (by simp)
      have hstart : slashed true rest = [] ∨ ∃ d, slashed true rest = '/' :: d := by
        cases rest with
        | nil => left; rfl
        | cons m ms => right; exact ⟨_, rfl⟩
      have heq : n = b ∧ slashed true rest = c := by
        rcases List.append_eq_append_iff.1 hbc with ⟨x, hx1, hx2⟩ | ⟨x, hx1, hx2⟩
        · cases x with
          | nil => exact ⟨by simpa using hx1.symm, by simpa using hx2⟩
          | cons y ys =>
            exfalso
            rcases hstart with h | ⟨d, h⟩
            · rw [h] at hx2; cases hx2
            · rw [h] at hx2; simp only [List.cons_append, List.cons.injEq] at hx2
              exact hb (by rw [hx1, ← hx2.1]; simp)
        · cases x with
          | nil => exact ⟨by simpa using hx1, by simpa using hx2.symm⟩
          | cons y ys =>
            exfalso
            rcases hc with h | ⟨d, h⟩
            · rw [h] at hx2; cases hx2
            · rw [h] at hx2; simp only [List.cons_append, List.cons.injEq] at hx2
              exact hn2 (by rw [hx1, ← hx2.1]; simp)
      obtain ⟨rfl, rfl⟩ := heq
      exact ⟨n, rest, rfl, h1, (ih rest (fun x hx => hn x (by simp [hx]))).1 h2⟩
  · rintro ⟨n, rest, rfl, h1, h2⟩
    exact ⟨n, slashed true rest, pathOf_cons n rest, (toksL_items hi (Or.inl hs)).2 h1, (ih rest (fun x hx => hn x (by simp [hx]))).2 h2⟩

theorem toksL_comps : ∀ {cs : List Comp}, (∀ c ∈ cs, c.Ok ∧ c.noSlash) → ∀ b ns, Names ns → (b = false → ns ≠ []) →
    (toksL (ctoks b cs) (slashed b ns) ↔ compsM b cs ns) := by
  intro cs
  induction cs with
  | nil =>
    intro _ b ns hn hb
    cases b with
    | false => simp only [ctoks, toksL, slashed, compsM]; constructor
               · intro h; exact absurd h (names_path_ne_nil hn (hb rfl))
               · intro h; exact absurd h (hb rfl)
    | true => cases ns <;> simp [ctoks, toksL, slashed, compsM]
  | cons c cs ih =>
    intro hok b ns hn hb
    have ihh := ih (fun x hx => hok x (by simp [hx]))
    cases c with
    | wild is =>
      obtain ⟨⟨hne, hi, hd⟩, hs⟩ := hok (.wild is) (by simp)
      have step := fun (hns : ns ≠ []) => wild_step (cs := cs) hi hs hns hn (fun rest hr => ihh true rest hr (by simp))
      cases b with
      | false => cases cs <;> exact step (hb rfl)
      | true =>
        cases ns with
        | nil =>
          have : ¬ toksL (ctoks true (.wild is :: cs)) [] := by
            intro h
            have h' : toksL (.lit '/' :: (is.map itemTok ++ ctoks true cs)) [] := by cases cs <;> exact h
            obtain ⟨b, hb, _⟩ := h'; cases hb
          constructor
          · intro h; exact absurd h this
          · intro h
            have h' : ∃ n rest, ([] : List Str) = n :: rest ∧ Wild is n ∧ compsM true cs rest := by cases cs <;> exact h
            obtain ⟨_, _, h, _⟩ := h'; cases h
        | cons m ms =>
          have e1 : toksL (ctoks true (.wild is :: cs)) ('/' :: pathOf (m :: ms)) ↔ toksL (is.map itemTok ++ ctoks true cs) (pathOf (m :: ms)) := by
            have : ctoks true (.wild is :: cs) = .lit '/' :: (is.map itemTok ++ ctoks true cs) := by cases cs <;> rfl
            rw [this]
            constructor
            · rintro ⟨b, hb, h⟩; simp only [List.cons.injEq, true_and] at hb; rw [hb]; exact h
            · intro h; exact ⟨_, rfl, h⟩
          show toksL (ctoks true (.wild is :: cs)) ('/' :: pathOf (m :: ms)) ↔ _
          rw [e1, step (by simp)]
          cases cs <;> rfl
    | deep =>
      cases cs with
      | nil =>
        cases b with
        | false =>
          simp only [ctoks, toksL, slashed, compsM, partL_star]
          constructor
          · rintro ⟨b, _, hbc, hb', c, _, rfl, hc, rfl⟩
            cases ns with
            | nil => exact absurd rfl (hb rfl)
            | cons n ns =>
              cases ns with
              | nil => exact ⟨n, rfl⟩
              | cons m ms =>
                exfalso
                have : '/' ∈ pathOf (n :: m :: ms) := by simp [pathOf]
                rw [hbc] at this
                simp only [List.mem_append, List.not_mem_nil, or_false] at this
                rcases this with h | h
                · exact hb' _ h rfl
                · exact hc _ h rfl
          · rintro ⟨n, rfl⟩
            refine ⟨n, [], by simp [pathOf], ?_, [], [], rfl, by simp, rfl⟩
            intro x hx he; exact (hn n (by simp)).2.1 (he ▸ hx)
        | true =>
          simp only [ctoks, toksL, compsM, partL_deepTrail, iff_true]
          cases ns with
          | nil => exact ⟨[], [], rfl, Or.inl rfl, rfl⟩
          | cons n ns =>
            exact ⟨'/' :: pathOf (n :: ns), [], by simp [slashed], Or.inr ⟨_, rfl, names_path_ne_nil hn (by simp), pathOf_no_newline hn⟩, rfl⟩
      | cons d ds =>
        have hM : compsM b (.deep :: d :: ds) ns ↔ ∃ x y, ns = x ++ y ∧ y ≠ [] ∧ compsM false (d :: ds) y := by cases b <;> rfl
        rw [hM]
        have key : ∀ {ns : List Str}, Names ns → ns ≠ [] →
            ((∃ b c, pathOf ns = b ++ c ∧ (b = [] ∨ ∃ b', b = b' ++ ['/'] ∧ b' ≠ [] ∧ '\n' ∉ b') ∧ toksL (ctoks false (d :: ds)) c) ↔
             ∃ x y, ns = x ++ y ∧ y ≠ [] ∧ compsM false (d :: ds) y) := by
          intro ns hn hne
          constructor
          · rintro ⟨b, c, hbc, h1, h2⟩
            rcases h1 with rfl | ⟨b', rfl, h3, _⟩
            · rw [List.nil_append] at hbc
              rw [← hbc] at h2
              exact ⟨[], ns, rfl, hne, (ihh false ns hn (fun _ => hne)).1 h2⟩
            · obtain ⟨n1, n2, rfl, _, hn2, rfl, rfl⟩ := pathOf_split hn (a := b') (b := c) (by simpa using hbc)
              exact ⟨n1, n2, rfl, hn2, (ihh false n2 (names_append hn).2 (fun _ => hn2)).1 h2⟩
          · rintro ⟨x, y, rfl, hy, h⟩
            have h' := (ihh false y (names_append hn).2 (fun _ => hy)).2 h
            by_cases hx : x = []
            · subst hx; exact ⟨[], pathOf y, rfl, Or.inl rfl, h'⟩
            · exact ⟨pathOf x ++ ['/'], pathOf y, by rw [pathOf_append hx hy]; simp,
                Or.inr ⟨pathOf x, rfl, names_path_ne_nil (names_append hn).1 hx, pathOf_no_newline (names_append hn).1⟩, h'⟩
        cases b with
        | false =>
          rw [← key hn (hb rfl)]
          simp only [ctoks, toksL, slashed, partL_deepLead]
        | true =>
          cases ns with
          | nil =>
            constructor
            · intro h
              simp only [ctoks, toksL, slashed, partL_deepMid] at h
              obtain ⟨b, c, hbc, h1, _⟩ := h
              have := congrArg List.length hbc
              rcases h1 with rfl | ⟨b', rfl, _⟩ <;> simp at this
            · rintro ⟨x, y, hxy, hy, _⟩
              have := congrArg List.length hxy
              simp at this
              exact absurd (List.eq_nil_of_length_eq_zero (by omega)) hy
          | cons n ns =>
            rw [← key hn (by simp)]
            simp only [ctoks, toksL, slashed, partL_deepMid]
            constructor
            · rintro ⟨b, c, hbc, h1, h2⟩
              rcases h1 with rfl | ⟨b', rfl, h3, h4⟩
              · simp only [List.singleton_append, List.cons.injEq, true_and] at hbc
                exact ⟨[], c, hbc, Or.inl rfl, h2⟩
              · simp only [List.cons_append, List.cons.injEq, true_and] at hbc
                exact ⟨b' ++ ['/'], c, hbc, Or.inr ⟨b', rfl, h3, h4⟩, h2⟩
            · rintro ⟨b, c, hbc, h1, h2⟩
              rw [hbc]
              rcases h1 with rfl | ⟨b', rfl, h3, h4⟩
              · exact ⟨['/'], c, rfl, Or.inl rfl, h2⟩
              · exact ⟨'/' :: (b' ++ ['/']), c, by simp, Or.inr ⟨b', rfl, h3, h4⟩, h2⟩

/-! ### Comparison with the specification -/

theorem comps_ne_nil {cs : List Comp} {ns : List Str} (h : Comps cs ns) (hne : cs ≠ []) : ns ≠ [] := by
  induction h with
  | nil => exact absurd rfl hne
  | wild _ _ _ _ => simp
  | deepNone h _ ih => exact ih h
  | deepSome _ _ _ => simp
  | inside => simp

theorem comps_wild {is : List Item} {cs : List Comp} {ns : List Str} :
    Comps (.wild is :: cs) ns ↔ ∃ n rest, ns = n :: rest ∧ Wild is n ∧ Comps cs rest := by
  constructor
  · intro h; cases h; rename_i n rest h1 h2; exact ⟨_, _, rfl, by assumption, by assumption⟩
  · rintro ⟨n, rest, rfl, h1, h2⟩; exact .wild is n h1 h2

theorem comps_deep {cs : List Comp} (hcs : cs ≠ []) {ns : List Str} :
    Comps (.deep :: cs) ns ↔ ∃ a b, ns = a ++ b ∧ b ≠ [] ∧ Comps cs b := by
  constructor
  · intro h
    generalize hq : Comp.deep :: cs = q at h
    induction h with
    | nil => cases hq
    | wild _ _ _ _ => cases hq
    | deepNone _ h2 _ =>
      simp only [List.cons.injEq, true_and] at hq; subst hq
      exact ⟨[], _, rfl, comps_ne_nil h2 hcs, h2⟩
    | deepSome n _ _ ih =>
      obtain ⟨a, b, h1, h2, h3⟩ := ih hq
      exact ⟨n :: a, b, by simp [h1], h2, h3⟩
    | inside => simp only [List.cons.injEq, true_and] at hq; exact absurd hq hcs
  · rintro ⟨a, b, rfl, _, h⟩
    induction a with
    | nil => exact .deepNone hcs h
    | cons x xs ih => exact .deepSome x hcs ih

/-- A pattern that ends in `/**` also matches the directory itself. -/
def Itself (cs : List Comp) (ns : List Str) : Prop := ∃ ps is, cs = ps ++ [.wild is, .deep] ∧ Comps (ps ++ [.wild is]) ns

theorem itself_wild {is : List Item} {cs : List Comp} {ns : List Str} :
    Itself (.wild is :: cs) ns ↔ ∃ n rest, ns = n :: rest ∧ Wild is n ∧ ((cs = [.deep] ∧ rest = []) ∨ Itself cs rest) := by
  constructor
  · rintro ⟨ps, js, h1, h2⟩
    cases ps with
    | nil =>
      simp only [List.nil_append, List.cons.injEq, Comp.wild.injEq] at h1
      obtain ⟨rfl, rfl⟩ := h1
      obtain ⟨n, rest, rfl, h3, h4⟩ := comps_wild.1 h2
      cases h4
      exact ⟨n, [], rfl, h3, Or.inl ⟨rfl, rfl⟩⟩
    | cons p ps =>
      simp only [List.cons_append, List.cons.injEq] at h1
      obtain ⟨rfl, rfl⟩ := h1
      obtain ⟨n, rest, rfl, h3, h4⟩ := comps_wild.1 h2
      exact ⟨n, rest, rfl, h3, Or.inr ⟨ps, js, rfl, h4⟩⟩
  · rintro ⟨n, rest, rfl, h1, ⟨rfl, rfl⟩ | ⟨ps, js, rfl, h2⟩⟩
    · exact ⟨[], is, rfl, .wild is n h1 .nil⟩
    · exact ⟨.wild is :: ps, js, rfl, .wild is n h1 h2⟩

theorem itself_deep {cs : List Comp} {ns : List Str} (hcs : cs ≠ [.deep]) :
    Itself (.deep :: cs) ns ↔ ∃ a b, ns = a ++ b ∧ b ≠ [] ∧ Itself cs b := by
  constructor
  · rintro ⟨ps, js, h1, h2⟩
    cases ps with
    | nil => simp at h1
    | cons p ps =>
      simp only [List.cons_append, List.cons.injEq] at h1
      obtain ⟨rfl, rfl⟩ := h1
      obtain ⟨a, b, rfl, h3, h4⟩ := (comps_deep (by simp)).1 h2
      exact ⟨a, b, rfl, h3, ps, js, rfl, h4⟩
  · rintro ⟨a, b, rfl, h1, ps, js, rfl, h2⟩
    exact ⟨.deep :: ps, js, rfl, (comps_deep (by simp)).2 ⟨a, b, rfl, h1, h2⟩⟩

theorem compsM_iff : ∀ (cs : List Comp), cs ≠ [] →
    (cs ≠ [.deep] → ∀ ns, compsM false cs ns ↔ Comps cs ns ∨ Itself cs ns) ∧
    (∀ ns, compsM true cs ns ↔ Comps cs ns ∨ Itself cs ns ∨ (cs = [.deep] ∧ ns = [])) := by
  intro cs
  induction cs with
  | nil => intro h; exact absurd rfl h
  | cons c cs ih =>
    intro _
    cases c with
    | wild is =>
      have key : ∀ ns, (∃ n rest, ns = n :: rest ∧ Wild is n ∧ compsM true cs rest) ↔ Comps (.wild is :: cs) ns ∨ Itself (.wild is :: cs) ns := by
        intro ns
        rw [comps_wild, itself_wild]
        have ht : ∀ rest, compsM true cs rest ↔ Comps cs rest ∨ (cs = [.deep] ∧ rest = []) ∨ Itself cs rest := by
          intro rest
          by_cases hcs : cs = []
          · subst hcs
            have hc : Comps [] rest ↔ rest = [] := by
              constructor
              · intro h; cases h; rfl
              · rintro rfl; exact .nil
            have hi : ¬ Itself [] rest := by rintro ⟨ps, js, h, _⟩; simp at h
            simp [compsM, hc, hi]
          · rw [(ih hcs).2 rest]
            constructor
            · rintro (h | h | h)
              · exact Or.inl h
              · exact Or.inr (Or.inr h)
              · exact Or.inr (Or.inl h)
            · rintro (h | h | h)
              · exact Or.inl h
              · exact Or.inr (Or.inr h)
              · exact Or.inr (Or.inl h)
        constructor
        · rintro ⟨n, rest, rfl, h1, h2⟩
          rcases (ht rest).1 h2 with h | h
          · exact Or.inl ⟨n, rest, rfl, h1, h⟩
          · exact Or.inr ⟨n, rest, rfl, h1, h⟩
        · rintro (⟨n, rest, rfl, h1, h2⟩ | ⟨n, rest, rfl, h1, h2⟩)
          · exact ⟨n, rest, rfl, h1, (ht rest).2 (Or.inl h2)⟩
          · exact ⟨n, rest, rfl, h1, (ht rest).2 (Or.inr h2)⟩
      refine ⟨fun _ ns => ?_, fun ns => ?_⟩
      · rw [← key ns]; cases cs <;> rfl
      · have e : compsM true (.wild is :: cs) ns ↔ ∃ n rest, ns = n :: rest ∧ Wild is n ∧ compsM true cs rest := by cases cs <;> rfl
        rw [e, key ns]
        simp
    | deep =>
      cases cs with
      | nil =>
        refine ⟨fun h => absurd rfl h, fun ns => ?_⟩
        simp only [compsM, true_iff, true_and]
        cases ns with
        | nil => right; right; rfl
        | cons n ns => left; exact .inside
      | cons d ds =>
        have key : ∀ ns, (∃ a b, ns = a ++ b ∧ b ≠ [] ∧ compsM false (d :: ds) b) ↔ Comps (.deep :: d :: ds) ns ∨ Itself (.deep :: d :: ds) ns := by
          intro ns
          rw [comps_deep (by simp)]
          by_cases hd : d :: ds = [.deep]
          · rw [hd]
            have hi : ¬ Itself [.deep, .deep] ns := by
              rintro ⟨ps, js, h, _⟩
              have := congrArg List.reverse h
              simp at this
            constructor
            · rintro ⟨a, b, rfl, h1, n, rfl⟩; exact Or.inl ⟨a, [n], rfl, h1, .inside⟩
            · rintro (⟨a, b, rfl, h1, h2⟩ | h)
              · refine ⟨a ++ b.dropLast, [b.getLast h1], ?_, by simp, _, rfl⟩
                rw [List.append_assoc, List.dropLast_concat_getLast]
              · exact absurd h hi
          · rw [itself_deep hd]
            have ih' := (ih (by simp)).1 hd
            constructor
            · rintro ⟨a, b, rfl, h1, h2⟩
              rcases (ih' b).1 h2 with h | h
              · exact Or.inl ⟨a, b, rfl, h1, h⟩
              · exact Or.inr ⟨a, b, rfl, h1, h⟩
            · rintro (⟨a, b, rfl, h1, h2⟩ | ⟨a, b, rfl, h1, h2⟩)
              · exact ⟨a, b, rfl, h1, (ih' b).2 (Or.inl h2)⟩
              · exact ⟨a, b, rfl, h1, (ih' b).2 (Or.inr h2)⟩
        refine ⟨fun _ ns => ?_, fun ns => ?_⟩
        · rw [← key ns]; rfl
        · have e : compsM true (.deep :: d :: ds) ns ↔ ∃ a b, ns = a ++ b ∧ b ≠ [] ∧ compsM false (d :: ds) b := by rfl
          rw [e, key ns]
          simp

end FF
