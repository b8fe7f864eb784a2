import Verif.Props.Sort
import Verif.Props.Path
/-! C37: the natural sort order. -/
namespace FF
open Spec

/-! ### Digits -/

theorem digitSplit_text (D : DigitEnv) (w cur r : Str) (h : ∀ c ∈ w, D.dec c = none) :
    digitSplit D false cur (w ++ r) = digitSplit D false (cur ++ w) r := by
  induction w generalizing cur with
  | nil => simp
  | cons c w ih =>
    rw [List.cons_append, digitSplit, h c (by simp)]
    simp only [Option.isSome_none, if_true]
    rw [ih _ (fun x hx => h x (by simp [hx]))]
    simp

theorem digitSplit_digits (D : DigitEnv) (w cur r : Str) (h : ∀ c ∈ w, (D.dec c).isSome = true) :
    digitSplit D true cur (w ++ r) = digitSplit D true (cur ++ w) r := by
  induction w generalizing cur with
  | nil => simp
  | cons c w ih =>
    rw [List.cons_append, digitSplit, h c (by simp)]
    simp only [if_true]
    rw [ih _ (fun x hx => h x (by simp [hx]))]
    simp

theorem digitSplit_end (D : DigitEnv) (cur r : Str) (h : ∀ c, r.head? = some c → D.dec c = none) :
    digitSplit D true cur r = cur :: digitSplit D false [] r := by
  cases r with
  | nil => rfl
  | cons c r =>
    have hc := h c rfl
    rw [digitSplit, digitSplit, hc]
    simp

theorem Spec.NumRun.spec {D : DigitEnv} {w : Str} {n : Nat} (h : NumRun D.dec w n) :
    w ≠ [] ∧ (∀ c ∈ w, (D.dec c).isSome = true) ∧ digitsInt D w = some n := by
  induction h with
  | one h => simp [h, digitsInt]
  | snoc _ hd ih =>
    obtain ⟨h1, h2, h3⟩ := ih
    refine ⟨by simp, ?_, ?_⟩
    · intro c hc
      rcases List.mem_append.1 hc with hc | hc
      · exact h2 c hc
      · rw [List.mem_singleton.1 hc, hd]; rfl
    · unfold digitsInt at *
      rw [List.foldl_append, h3]
      simp [hd, Nat.mul_comm]

theorem numRun_exists {D : DigitEnv} {w : Str} (hne : w ≠ []) (h : ∀ c ∈ w, (D.dec c).isSome = true) : ∃ n, NumRun D.dec w n := by
  have key : ∀ l : Str, l ≠ [] → (∀ c ∈ l.reverse, (D.dec c).isSome = true) → ∃ n, NumRun D.dec l.reverse n := by
    intro l
    induction l with
    | nil => intro h; exact absurd rfl h
    | cons c l ih =>
      intro _ hc
      obtain ⟨d, hd⟩ := Option.isSome_iff_exists.1 (hc c (by simp))
      by_cases hl : l = []
      · subst hl; exact ⟨d, .one hd⟩
      · obtain ⟨n, hn⟩ := ih hl (fun x hx => hc x (by simp at hx ⊢; exact Or.inl hx))
        rw [List.reverse_cons]
        exact ⟨_, .snoc hn hd⟩
  have := key w.reverse (by simpa using hne) (by simpa using h)
  simpa using this

def NatPart.ofTok : Tok → NatPart
  | .text s => .text s
  | .num n => .num n

/-- Characters that are digits for `str.isdigit` but not decimal digits, for example superscripts, do not occur. -/
def PlainDigits (D : DigitEnv) (s : Str) : Prop := ∀ c ∈ s, D.isdigit c = true → (D.dec c).isSome = true

theorem natToken_text {D : DigitEnv} {w : Str} (hp : PlainDigits D w) (h : ∀ c ∈ w, D.dec c = none) : natToken D w = some (.text w) := by
  unfold natToken
  have : strIsDigit D w = false := by
    cases w with
    | nil => rfl
    | cons c w =>
      have hc : D.isdigit c = false := by
        cases hd : D.isdigit c with
        | false => rfl
        | true => have := hp c (by simp) hd; rw [h c (by simp)] at this; exact absurd this (by simp)
      simp [strIsDigit, hc]
  simp [this]

theorem natToken_num {D : DigitEnv} {w : Str} {n : Nat} (h : NumRun D.dec w n) : natToken D w = some (.num n) := by
  obtain ⟨h1, h2, h3⟩ := h.spec
  have : strIsDigit D w = true := by
    simp only [strIsDigit, Bool.and_eq_true, decide_eq_true_eq, List.all_eq_true]
    exact ⟨h1, fun c hc => D.dec_isdigit c (h2 c hc)⟩
  simp [natToken, this, h3]

theorem strIsDigit_text {D : DigitEnv} {w : Str} (hp : PlainDigits D w) (h : ∀ c ∈ w, D.dec c = none) : strIsDigit D w = false := by
  have := natToken_text hp h
  unfold natToken at this
  cases hs : strIsDigit D w with
  | false => rfl
  | true =>
    rw [hs] at this
    cases hd : digitsInt D w with
    | none => simp [hd] at this
    | some n => simp [hd] at this

theorem Spec.Chunked.tokens {D : DigitEnv} {s : Str} {ts : List Tok} (h : Chunked D.dec s ts) (hp : PlainDigits D s) :
    mapOption (natToken D) (digitSplit D false [] s) = some (ts.map NatPart.ofTok) ∧ strIsDigit D ((digitSplit D false [] s).headD []) = false := by
  induction h with
  | last hw =>
    rename_i w
    have := digitSplit_text D w [] [] hw
    rw [List.append_nil] at this
    rw [this]
    simp only [digitSplit, List.nil_append, Bool.false_eq_true, if_false]
    exact ⟨by rw [mapOption, natToken_text hp hw]; rfl, strIsDigit_text hp hw⟩
  | @cons w d n r ts hw hd hr _ ih =>
    obtain ⟨hne, hdig, _⟩ := hd.spec
    have hpw : PlainDigits D w := fun c hc => hp c (by simp [hc])
    have hpr : PlainDigits D r := fun c hc => hp c (by simp [hc])
    have e : digitSplit D false [] (w ++ d ++ r) = w :: d :: digitSplit D false [] r := by
      rw [List.append_assoc, digitSplit_text D w [] (d ++ r) hw]
      cases d with
      | nil => exact absurd rfl hne
      | cons x d =>
        rw [List.cons_append, digitSplit, hdig x (by simp)]
        simp only [Bool.true_eq_false, if_false, Bool.not_false, List.nil_append]
        rw [digitSplit_digits D d [x] r (fun c hc => hdig c (by simp [hc])), digitSplit_end D _ r hr]
        rfl
    rw [e]
    refine ⟨?_, strIsDigit_text hpw hw⟩
    rw [mapOption, natToken_text hpw hw, mapOption, natToken_num hd, (ih hpr).1]
    rfl

theorem span_digits (D : DigitEnv) (s : Str) : ∃ w r, s = w ++ r ∧ (∀ c ∈ w, (D.dec c).isSome = true) ∧ ∀ c, r.head? = some c → D.dec c = none := by
  induction s with
  | nil => exact ⟨[], [], rfl, by simp, by simp⟩
  | cons x s ih =>
    cases hx : D.dec x with
    | none => exact ⟨[], x :: s, rfl, by simp, by simp [hx]⟩
    | some d =>
      obtain ⟨w, r, h1, h2, h3⟩ := ih
      refine ⟨x :: w, r, by simp [h1], ?_, h3⟩
      intro c hc
      rcases List.mem_cons.1 hc with rfl | hc
      · simp [hx]
      · exact h2 c hc

theorem span_text (D : DigitEnv) (s : Str) : ∃ w r, s = w ++ r ∧ (∀ c ∈ w, D.dec c = none) ∧ ∀ c, r.head? = some c → (D.dec c).isSome = true := by
  induction s with
  | nil => exact ⟨[], [], rfl, by simp, by simp⟩
  | cons x s ih =>
    cases hx : D.dec x with
    | some d => exact ⟨[], x :: s, rfl, by simp, by simp [hx]⟩
    | none =>
      obtain ⟨w, r, h1, h2, h3⟩ := ih
      refine ⟨x :: w, r, by simp [h1], ?_, h3⟩
      intro c hc
      rcases List.mem_cons.1 hc with rfl | hc
      · exact hx
      · exact h2 c hc

/-- Every name is a sequence of texts and numbers. -/
theorem chunked_exists (D : DigitEnv) (s : Str) : ∃ ts, Chunked D.dec s ts := by
  have key : ∀ n, ∀ s : Str, s.length ≤ n → ∃ ts, Chunked D.dec s ts := by
    intro n
    induction n with
    | zero => intro s hs; have : s = [] := List.length_eq_zero_iff.1 (by omega); subst this; exact ⟨_, .last (by simp)⟩
    | succ n ih =>
      intro s hs
      obtain ⟨w, r, h1, h2, h3⟩ := span_text D s
      obtain ⟨d, r', h4, h5, h6⟩ := span_digits D r
      by_cases hd : d = []
      · have : r = [] := by
          subst hd
          cases r with
          | nil => rfl
          | cons c r =>
            have a := h3 c rfl
            have b := h6 c (by simp at h4; simp [← h4])
            rw [b] at a; exact absurd a (by simp)
        subst this
        rw [h1, List.append_nil]
        exact ⟨_, .last h2⟩
      · have hlen : r'.length ≤ n := by
          have : 0 < d.length := List.length_pos_iff.2 hd
          rw [h1, h4] at hs; simp at hs; omega
        obtain ⟨ts, hts⟩ := ih r' hlen
        obtain ⟨m, hm⟩ := numRun_exists hd h5
        refine ⟨.text w :: .num m :: ts, ?_⟩
        rw [h1, h4, ← List.append_assoc]
        exact .cons h2 hm h6 hts
  exact key s.length s (Nat.le_refl _)

theorem map_ofTok_inj {a b : List Tok} (h : a.map NatPart.ofTok = b.map NatPart.ofTok) : a = b := by
  induction a generalizing b with
  | nil => cases b with
    | nil => rfl
    | cons => simp at h
  | cons x xs ih => cases b with
    | nil => simp at h
    | cons y ys =>
      simp only [List.map_cons, List.cons.injEq] at h
      have : x = y := by
        cases x <;> cases y <;> simp [NatPart.ofTok] at h <;> simp [h]
      rw [this, ih h.2]

/-! ### Extensions -/

theorem splitext_iff {s a b : Str} : StemExt s a b ↔ splitext s = (a, b) := by
  constructor
  · intro h
    obtain ⟨h1, h2⟩ := C59_splitext_unique h (C59_splitext_spec s)
    rw [h1, h2]
  · intro h
    have := C59_splitext_spec s
    rwa [h] at this

theorem splitext_length (s : Str) : (splitext s).1.length + (splitext s).2.length = s.length := by
  have := C59_splitext_spec s
  generalize (splitext s).1 = a at this ⊢
  generalize (splitext s).2 = b at this ⊢
  cases this with
  | ext => simp only [List.length_append]
  | none => simp

/-- `os.path.splitext` gives no extension or one with a single dot at the beginning. -/
theorem splitext_ext (s : Str) : (splitext s).2 = [] ∨ ∃ e, (splitext s).2 = '.' :: e ∧ '.' ∉ e := by
  have := C59_splitext_spec s
  generalize (splitext s).1 = a at this
  generalize (splitext s).2 = b at this ⊢
  cases this with
  | ext d lead e h1 h2 h3 => exact Or.inr ⟨e, rfl, h3⟩
  | none => exact Or.inl rfl

theorem lstrip_ext {e : Str} (h : '.' ∉ e) : lstripChar '.' ('.' :: e) = e := by
  unfold lstripChar
  rw [List.dropWhile_cons]
  simp only [decide_true, if_true]
  cases e with
  | nil => rfl
  | cons c e => simp at h; simp [List.dropWhile_cons, Ne.symm h.1]

theorem splitext_mem {s : Str} {c : Char} (h : c ∈ (splitext s).1 ∨ c ∈ (splitext s).2) : c ∈ s := by
  have := C59_splitext_spec s
  generalize (splitext s).1 = a at this h
  generalize (splitext s).2 = b at this h
  cases this with
  | ext => exact List.mem_append.2 h
  | none => simpa using h

theorem stripExtensions_spec (D : DigitEnv) : ∀ (fuel : Nat) (s : Str) (acc : List Str), s.length ≤ fuel → PlainDigits D s →
    ∃ st exts, stripExtensions D fuel s acc = (st, exts ++ acc) ∧ Extensions D.dec s st exts ∧ ∀ c ∈ st, c ∈ s := by
  intro fuel
  induction fuel with
  | zero =>
    intro s acc hs _
    have : s = [] := List.length_eq_zero_iff.1 (by omega)
    subst this
    refine ⟨[], [], rfl, .stop ?_, by simp⟩
    intro stem e h
    rw [splitext_iff] at h
    exact absurd h (by simp [splitext, rfind])
  | succ fuel ih =>
    intro s acc hs hp
    rw [stripExtensions]
    by_cases hne : s = []
    · subst hne
      refine ⟨[], [], rfl, .stop ?_, by simp⟩
      intro stem e h
      rw [splitext_iff] at h
      exact absurd h (by simp [splitext, rfind])
    rw [if_neg hne]
    rcases splitext_ext s with he | ⟨e, he, hdot⟩
    · rw [he]
      refine ⟨s, [], rfl, .stop ?_, fun c hc => hc⟩
      intro stem e h
      rw [splitext_iff] at h
      rw [h] at he; exact absurd he (by simp)
    · rw [he, lstrip_ext hdot]
      cases e with
      | nil =>
        refine ⟨s, [], rfl, .stop ?_, fun c hc => hc⟩
        intro stem e h
        rw [splitext_iff] at h
        rw [h] at he
        simp at he
        exact Or.inl he
      | cons x xs =>
        by_cases hx : D.isdigit x = true
        · simp only [hx, if_true]
          refine ⟨s, [], rfl, .stop ?_, fun c hc => hc⟩
          intro stem e h
          rw [splitext_iff] at h
          rw [h] at he
          simp at he
          subst he
          refine Or.inr ⟨x, rfl, ?_⟩
          have := hp x (splitext_mem (Or.inr (by rw [h]; simp))) hx
          intro hn; rw [hn] at this; exact absurd this (by simp)
        · have hlen := splitext_length s
          rw [he] at hlen
          simp only [List.length_cons] at hlen
          obtain ⟨st, exts, h1, h2, h3⟩ := ih (splitext s).1 ((x :: xs) :: acc) (by omega) (fun c hc => hp c (splitext_mem (Or.inl hc)))
          refine ⟨st, exts ++ [x :: xs], ?_, ?_, fun c hc => splitext_mem (Or.inl (h3 c hc))⟩
          · simp only [hx]
            simp [h1]
          · refine .ext (stem := (splitext s).1) ?_ ?_ h2
            · rw [← he]; exact C59_splitext_spec s
            · cases hd : D.dec x with
              | none => rfl
              | some d => exact absurd (D.dec_isdigit x (by simp [hd])) hx

theorem Spec.Extensions.unique {D : DigitEnv} {s st st' : Str} {exts exts' : List Str} (h : Extensions D.dec s st exts) (h' : Extensions D.dec s st' exts') :
    st = st' ∧ exts = exts' := by
  induction h generalizing st' exts' with
  | stop hs =>
    cases h' with
    | stop => exact ⟨rfl, rfl⟩
    | ext h1 h2 _ =>
      rcases hs _ _ h1 with h | ⟨c, hc, hd⟩
      · simp at h
      · simp at hc; subst hc; exact absurd h2 hd
  | ext h1 h2 _ ih =>
    cases h' with
    | stop hs =>
      rcases hs _ _ h1 with h | ⟨c, hc, hd⟩
      · simp at h
      · simp at hc; subst hc; exact absurd h2 hd
    | ext h1' h2' h3' =>
      obtain ⟨e1, e2⟩ := C59_splitext_unique h1 h1'
      subst e1
      simp only [List.cons.injEq, true_and] at e2
      obtain ⟨rfl, rfl⟩ := ih h3'
      rw [e2.1, e2.2]
      exact ⟨rfl, rfl⟩

/-- The part of the sort key for a component with this stem and these extensions. -/
def naturalKey (ts : List Tok) (exts : List Str) : List (List NatPart) :=
  ts.map NatPart.ofTok :: if exts = [] then [] else [exts.map .text]

theorem prepareComponent_spec {D : DigitEnv} {s : Str} (hp : PlainDigits D s) :
    ∃ ts exts, Natural D.dec s ts exts ∧ prepareComponent D s = some (naturalKey ts exts) := by
  obtain ⟨st, exts, h1, h2, h3⟩ := stripExtensions_spec D s.length s [] (Nat.le_refl _) hp
  rw [List.append_nil] at h1
  obtain ⟨ts, hts⟩ := chunked_exists D st
  obtain ⟨h4, h5⟩ := hts.tokens (fun c hc => hp c (h3 c hc))
  refine ⟨ts, exts, ⟨st, h2, hts⟩, ?_⟩
  unfold prepareComponent
  simp only [h1, h5, Bool.false_eq_true, if_false, h4, naturalKey]

theorem Spec.Extensions.mem {D : DigitEnv} {s st : Str} {exts : List Str} (h : Extensions D.dec s st exts) : ∀ c ∈ st, c ∈ s := by
  induction h with
  | stop => exact fun c hc => hc
  | ext h1 _ _ ih =>
    intro c hc
    refine splitext_mem (Or.inl ?_)
    rw [splitext_iff.1 h1]
    exact ih c hc

theorem Spec.Natural.unique {D : DigitEnv} {s : Str} (hp : PlainDigits D s) {ts ts' : List Tok} {exts exts' : List Str} (h : Natural D.dec s ts exts)
    (h' : Natural D.dec s ts' exts') : ts = ts' ∧ exts = exts' := by
  obtain ⟨st, h1, h2⟩ := h
  obtain ⟨st', h1', h2'⟩ := h'
  obtain ⟨rfl, rfl⟩ := h1.unique h1'
  refine ⟨?_, rfl⟩
  have a := (h2.tokens (fun c hc => hp c (h1.mem c hc))).1
  have b := (h2'.tokens (fun c hc => hp c (h1.mem c hc))).1
  rw [a] at b
  exact map_ofTok_inj (Option.some.inj b)

/-! ### Comparing -/

/-- Texts and numbers alternate. -/
def tokKinds (first : Bool) : List Tok → Prop
  | [] => True
  | .text _ :: ts => first = true ∧ tokKinds false ts
  | .num _ :: ts => first = false ∧ tokKinds true ts

theorem Spec.Chunked.kinds {dec : Char → Option Nat} {s : Str} {ts : List Tok} (h : Chunked dec s ts) : tokKinds true ts := by
  induction h with
  | last => exact ⟨rfl, trivial⟩
  | cons _ _ _ _ ih => exact ⟨rfl, rfl, ih⟩

theorem tokens_comparable : ∀ (k : Bool) (a b : List Tok), tokKinds k a → tokKinds k b →
    (lexLt NatPart.lt (a.map NatPart.ofTok) (b.map NatPart.ofTok)).isSome = true := by
  intro k a
  induction a generalizing k with
  | nil => intro b _ _; cases b <;> rfl
  | cons x xs ih =>
    intro b ha hb
    cases b with
    | nil => rfl
    | cons y ys =>
      cases x <;> cases y <;> simp only [tokKinds] at ha hb
      · simp only [List.map_cons, lexLt]
        split
        · exact ih _ _ ha.2 hb.2
        · rfl
      · rw [ha.1] at hb; exact absurd hb.1 (by simp)
      · rw [ha.1] at hb; exact absurd hb.1 (by simp)
      · simp only [List.map_cons, lexLt]
        split
        · exact ih _ _ ha.2 hb.2
        · rfl

theorem texts_comparable (a b : List Str) : (lexLt NatPart.lt (a.map .text) (b.map .text)).isSome = true := by
  induction a generalizing b with
  | nil => cases b <;> rfl
  | cons x xs ih => cases b with
    | nil => rfl
    | cons y ys =>
      simp only [List.map_cons, lexLt]
      split
      · exact ih ys
      · rfl

theorem ltB_ofTok {a b : List Tok} {k : Bool} (ha : tokKinds k a) (hb : tokKinds k b) :
    lexB NatPart.ltB (a.map NatPart.ofTok) (b.map NatPart.ofTok) = true ↔ Lex Tok.Before a b := by
  induction a generalizing b k with
  | nil => cases b with
    | nil => simp [lexB, Lex.nil_right]
    | cons y ys => simp [lexB, Lex.nil_left]
  | cons x xs ih => cases b with
    | nil => simp [lexB, Lex.nil_right]
    | cons y ys =>
      simp only [List.map_cons, lexB]
      rw [Lex.cons_iff]
      cases x <;> cases y <;> simp only [tokKinds] at ha hb
      · rename_i p q
        simp only [NatPart.ofTok, NatPart.ltB, NatPart.text.injEq, Tok.text.injEq]
        have hT : Tok.Before (.text p) (.text q) ↔ StrBefore p q := ⟨fun h => by cases h; assumption, .text⟩
        rw [hT]
        by_cases e : p = q
        · subst e
          have : ¬ StrBefore p p := fun h => by have := (strLt_iff p p).2 h; rw [strLt_strict.irrefl] at this; exact absurd this (by simp)
          simp [this, ih ha.2 hb.2]
        · simp [e, strLt_iff]
      · rw [ha.1] at hb; exact absurd hb.1 (by simp)
      · rw [ha.1] at hb; exact absurd hb.1 (by simp)
      · rename_i p q
        simp only [NatPart.ofTok, NatPart.ltB, NatPart.num.injEq, Tok.num.injEq]
        have hT : Tok.Before (.num p) (.num q) ↔ p < q := ⟨fun h => by cases h; assumption, .num⟩
        rw [hT]
        by_cases e : p = q
        · subst e
          simp [ih ha.2 hb.2]
        · simp [e]

theorem ltB_texts (a b : List Str) : lexB NatPart.ltB (a.map .text) (b.map .text) = true ↔ Lex StrBefore a b := by
  rw [← lexB_iff strLt_strict strLt_iff]
  have : lexB NatPart.ltB (a.map .text) (b.map .text) = lexB strLt a b := by
    induction a generalizing b with
    | nil => cases b <;> rfl
    | cons x xs ih => cases b with
      | nil => rfl
      | cons y ys =>
        simp only [List.map_cons, lexB, NatPart.text.injEq, ih]
        rfl
  rw [this]

theorem naturalKey_comparable {ta tb : List Tok} {ea eb : List Str} (ha : tokKinds true ta) (hb : tokKinds true tb) :
    (lexLt (lexLt NatPart.lt) (naturalKey ta ea) (naturalKey tb eb)).isSome = true := by
  unfold naturalKey
  rw [lexLt]
  split
  · by_cases h1 : eb = []
    · rw [if_pos h1]; cases (if ea = [] then [] else [ea.map NatPart.text]) <;> rfl
    · rw [if_neg h1]
      by_cases h2 : ea = []
      · rw [if_pos h2]; rfl
      · rw [if_neg h2, lexLt]
        split
        · rfl
        · exact texts_comparable _ _
  · exact tokens_comparable true _ _ ha hb

theorem ltB_naturalKey {ta tb : List Tok} {ea eb : List Str} (ha : tokKinds true ta) (hb : tokKinds true tb) :
    lexB (lexB NatPart.ltB) (naturalKey ta ea) (naturalKey tb eb) = true ↔ Lex Tok.Before ta tb ∨ (ta = tb ∧ Lex StrBefore ea eb) := by
  unfold naturalKey
  rw [lexB]
  by_cases e : ta = tb
  · subst e
    have hirr : ¬ Lex Tok.Before ta ta := fun h => by
      have := (ltB_ofTok ha ha).2 h
      rw [NatPart.ltB_strict.lex.irrefl] at this; exact absurd this (by simp)
    simp only [if_true, hirr, false_or, true_and]
    by_cases h1 : eb = []
    · subst h1
      simp only [if_true, Lex.nil_right, iff_false]
      cases (if ea = [] then [] else [ea.map NatPart.text]) <;> simp [lexB]
    · rw [if_neg h1]
      by_cases h2 : ea = []
      · subst h2
        cases eb with
        | nil => exact absurd rfl h1
        | cons y ys => simp [lexB, Lex.nil_left]
      · rw [if_neg h2, lexB]
        by_cases h3 : ea.map NatPart.text = eb.map NatPart.text
        · rw [if_pos h3, ← ltB_texts, h3, NatPart.ltB_strict.lex.irrefl]
          simp [lexB]
        · rw [if_neg h3, ltB_texts]
  · rw [if_neg (fun h => e (map_ofTok_inj h)), ltB_ofTok ha hb]
    simp [e]

/-! ### C37 -/

theorem normpath_name {s : Str} (hne : s ≠ []) (hs : '/' ∉ s) : splitOn '/' (normpath s) = [s] := by
  have h0 : initialSlashes s = 0 := by
    unfold initialSlashes
    cases s with
    | nil => exact absurd rfl hne
    | cons c s =>
      have : c ≠ '/' := fun h => hs (by simp [h])
      simp [startsWith, Ne.symm this]
  have h1 : normpath s = s := by
    unfold normpath
    rw [h0, splitOn_not_mem '/' s hs]
    by_cases hd : s = ['.']
    · subst hd; decide
    · by_cases hdd : s = ['.', '.']
      · subst hdd; decide
      · simp [normLoop, hne, hd, hdd, joinWith]
  rw [h1, splitOn_not_mem '/' s hs]

/-- The string a result is sorted by, if it is an ordinary one. -/
def NaturalName (R : RenderEnv) (D : DigitEnv) (f : Field) (e : EntInfo) (s : Str) : Prop :=
  (∃ v, R.search.attr e f.attr = some v ∧ HasType f.type v) ∧ sortVal R.search.tests.low f.type (R.search.attr e f.attr) = .text s ∧
    s ≠ [] ∧ '/' ∉ s ∧ PlainDigits D s

theorem sortPart_natural {R : RenderEnv} {D : DigitEnv} {f : Field} {e : EntInfo} {s : Str} (hf : f.modifier = some 'v') (h : NaturalName R D f e s) :
    ∃ ts exts, Natural D.dec s ts exts ∧ R.sortPart D e f = some (.nat (naturalKey ts exts)) := by
  obtain ⟨⟨v, ha, hty⟩, hs, hne, hsl, hp⟩ := h
  obtain ⟨ts, exts, hn, hk⟩ := prepareComponent_spec hp
  refine ⟨ts, exts, hn, ?_⟩
  have hkey : f.type.sortKey R.search.tests.low v = .str s := by
    rw [ha] at hs
    revert hs hty
    cases f.type <;> cases v <;> simp [HasType, sortVal, Ty.sortKey, pathSortKey_eq]
  unfold RenderEnv.sortPart
  rw [ha]
  simp only [hkey, hf, if_true]
  have hkk : prepareSortKey D s = some (naturalKey ts exts) := by
    unfold prepareSortKey
    rw [normpath_name hne hsl]
    simp [mapOption, hk]
  rw [hkk]
  rfl

/-- Sorting by a string attribute with the v modifier. If all results have the attribute, and it is a name (no path of several components) without
characters such as superscript digits, sorting does not fail, the output is a permutation of the results, it is in natural order, and results
that are equal in this order keep their order. Missing: paths with several components, missing values and other digits, see `C37_false`; extensions
that begin with a letter are compared as text. -/
theorem C37_names_partial (R : RenderEnv) (D : DigitEnv) (f : Field) (reverse : Bool) (entries : List EntInfo) (name : EntInfo → Str)
    (hf : f.modifier = some 'v') (hn : ∀ e ∈ entries, NaturalName R D f e (name e)) :
    ∃ out, R.finalizeEntries D (some [f]) reverse entries = some out ∧ out.Perm entries ∧
      out.Pairwise (fun a b => if reverse then ¬ NaturalBefore D.dec (name a) (name b) else ¬ NaturalBefore D.dec (name b) (name a)) ∧
      ∀ P : EntInfo → Bool, (∀ a ∈ entries, ∀ b ∈ entries, P a = true → P b = true →
        ∃ ts exts, Natural D.dec (name a) ts exts ∧ Natural D.dec (name b) ts exts) → out.filter P = entries.filter P := by
  have hsel : ∀ e : EntInfo, ∃ p : List Tok × List Str, e ∈ entries →
      Natural D.dec (name e) p.1 p.2 ∧ R.sortPart D e f = some (.nat (naturalKey p.1 p.2)) := by
    intro e
    by_cases he : e ∈ entries
    · obtain ⟨ts, exts, h1, h2⟩ := sortPart_natural hf (hn e he)
      exact ⟨(ts, exts), fun _ => ⟨h1, h2⟩⟩
    · exact ⟨([], []), fun h => absurd h he⟩
  let p : EntInfo → List Tok × List Str := fun e => Classical.choose (hsel e)
  have hp : ∀ e ∈ entries, Natural D.dec (name e) (p e).1 (p e).2 ∧ R.sortPart D e f = some (.nat (naturalKey (p e).1 (p e).2)) :=
    fun e he => Classical.choose_spec (hsel e) he
  have hkinds : ∀ e ∈ entries, tokKinds true (p e).1 := fun e he => (hp e he).1.choose_spec.2.kinds
  have hk : ∀ e ∈ entries, R.sortKey D [f] e = some [.nat (naturalKey (p e).1 (p e).2)] := by
    intro e he
    simp [RenderEnv.sortKey, mapOption, (hp e he).2]
  have hcmp : ∀ a ∈ entries, ∀ b ∈ entries,
      (keyLt [.nat (naturalKey (p a).1 (p a).2)] [.nat (naturalKey (p b).1 (p b).2)]).isSome = true := by
    intro a ha b hb
    simp only [keyLt, lexLt]
    split
    · rfl
    · exact naturalKey_comparable (hkinds a ha) (hkinds b hb)
  have hs := sortEntries_of (reverse := reverse) hk hcmp
  obtain ⟨h1, h2, h3⟩ := pySortKey_spec (fun e => [SKey.nat (naturalKey (p e).1 (p e).2)]) reverse entries
  refine ⟨_, hs, h1, ?_, ?_⟩
  · have key : ∀ a ∈ entries, ∀ b ∈ entries, keyLtB [.nat (naturalKey (p a).1 (p a).2)] [.nat (naturalKey (p b).1 (p b).2)] = false →
        ¬ NaturalBefore D.dec (name a) (name b) := by
      intro a ha b hb h hnb
      obtain ⟨ta, ea, tb, eb, na, nb, hlt⟩ := hnb
      obtain ⟨_, _, _, _, hpa⟩ := hn a ha
      obtain ⟨_, _, _, _, hpb⟩ := hn b hb
      obtain ⟨rfl, rfl⟩ := na.unique hpa (hp a ha).1
      obtain ⟨rfl, rfl⟩ := nb.unique hpb (hp b hb).1
      have h4 := (ltB_naturalKey (hkinds a ha) (hkinds b hb)).2 hlt
      have hne : naturalKey (p a).1 (p a).2 ≠ naturalKey (p b).1 (p b).2 := NatPart.ltB_strict.lex.lex.ne h4
      simp only [keyLtB, lexB, SKey.nat.injEq, hne, if_false, SKey.ltB] at h
      rw [h4] at h; exact absurd h (by simp)
    have hmem : ∀ e ∈ pySortKey (fun a b => !keyLtB b a) (fun e => [SKey.nat (naturalKey (p e).1 (p e).2)]) reverse entries, e ∈ entries :=
      fun e he => h1.mem_iff.1 he
    refine List.Pairwise.imp_of_mem ?_ h2
    intro a b ha hb hab
    cases reverse with
    | false => simp only [Bool.false_eq_true, if_false] at *; exact key b (hmem b hb) a (hmem a ha) hab
    | true => simp only [if_true] at *; exact key a (hmem a ha) b (hmem b hb) hab
  · intro P hP
    by_cases hex : ∃ a ∈ entries, P a = true
    · obtain ⟨a, ha, hPa⟩ := hex
      have h4 := h3 [.nat (naturalKey (p a).1 (p a).2)]
      have hcongr : ∀ l : List EntInfo, (∀ e ∈ l, e ∈ entries) →
          l.filter P = (l.filter (fun e => [SKey.nat (naturalKey (p e).1 (p e).2)] = [.nat (naturalKey (p a).1 (p a).2)])).filter P := by
        intro l hl
        rw [List.filter_filter]
        apply List.filter_congr
        intro b hb
        cases hPb : P b with
        | false => simp
        | true =>
          obtain ⟨ts, exts, n1, n2⟩ := hP a ha b (hl b hb) hPa hPb
          obtain ⟨_, _, _, _, hpa⟩ := hn a ha
          obtain ⟨_, _, _, _, hpb⟩ := hn b (hl b hb)
          obtain ⟨e1, e2⟩ := n1.unique hpa (hp a ha).1
          obtain ⟨e3, e4⟩ := n2.unique hpb (hp b (hl b hb)).1
          rw [← e1, ← e2, ← e3, ← e4]
          simp
      rw [hcongr _ (fun e he => h1.mem_iff.1 he), hcongr entries (fun e he => he), h4]
    · have e1 : entries.filter P = [] := by
        rw [List.filter_eq_nil_iff]; intro e he h; exact hex ⟨e, he, h⟩
      rw [e1, List.filter_eq_nil_iff]
      intro e he h; exact hex ⟨e, h1.mem_iff.1 he, h⟩

/-! ### Paths -/

theorem normLoop_clean {cs : List Str} (h : ∀ c ∈ cs, c ≠ [] ∧ c ≠ ['.'] ∧ c ≠ ['.', '.'] ∧ '/' ∉ c) : ∀ st, normLoop false cs st = st.reverse ++ cs := by
  induction cs with
  | nil => intro st; simp [normLoop]
  | cons c cs ih =>
    intro st
    obtain ⟨h1, h2, h3, _⟩ := h c (by simp)
    rw [normLoop, if_neg (by simp [h1, h2]), if_pos (Or.inl h3), ih (fun x hx => h x (by simp [hx]))]
    simp

theorem normpath_clean {cs : List Str} (hne : cs ≠ []) (h : ∀ c ∈ cs, c ≠ [] ∧ c ≠ ['.'] ∧ c ≠ ['.', '.'] ∧ '/' ∉ c) :
    splitOn '/' (normpath (joinWith '/' cs)) = cs := by
  have hs : splitOn '/' (joinWith '/' cs) = cs := splitOn_joinWith hne (fun x hx => (h x hx).2.2.2)
  have hj : ∀ c w, joinWith '/' cs = c :: w → c ≠ '/' := by
    cases cs with
    | nil => exact absurd rfl hne
    | cons x xs =>
      obtain ⟨h1, _, _, h4⟩ := h x (by simp)
      cases x with
      | nil => exact absurd rfl h1
      | cons y ys =>
        have hy : y ≠ '/' := fun e => h4 (by simp [e])
        intro c w he
        cases xs with
        | nil => simp [joinWith] at he; rw [← he.1]; exact hy
        | cons z zs => simp [joinWith] at he; rw [← he.1]; exact hy
  have hjne : joinWith '/' cs ≠ [] := by
    intro he
    rw [he] at hs
    rw [← hs] at h
    exact (h [] (by simp [splitOn])).1 rfl
  have h0 : initialSlashes (joinWith '/' cs) = 0 := by
    unfold initialSlashes
    cases hw : joinWith '/' cs with
    | nil => exact absurd hw hjne
    | cons c w => simp [startsWith, Ne.symm (hj c w hw)]
  have : normpath (joinWith '/' cs) = joinWith '/' cs := by
    unfold normpath
    rw [h0, hs]
    simp [normLoop_clean h, hjne]
  rw [this, hs]

theorem natural_sort {R : RenderEnv} {D : DigitEnv} {f : Field} {reverse : Bool} {entries : List EntInfo} (K : EntInfo → List (List NatPart))
    (hk : ∀ e ∈ entries, R.sortPart D e f = some (.nat (K e)))
    (hc : ∀ a ∈ entries, ∀ b ∈ entries, (lexLt (lexLt NatPart.lt) (K a) (K b)).isSome = true) :
    ∃ out, R.finalizeEntries D (some [f]) reverse entries = some out ∧ out.Perm entries ∧
      out.Pairwise (fun a b => if reverse then lexB (lexB NatPart.ltB) (K a) (K b) = false else lexB (lexB NatPart.ltB) (K b) (K a) = false) ∧
      ∀ P : EntInfo → Bool, (∀ a ∈ entries, ∀ b ∈ entries, P a = true → P b = true → K a = K b) → out.filter P = entries.filter P := by
  have hk' : ∀ e ∈ entries, R.sortKey D [f] e = some [.nat (K e)] := by
    intro e he
    simp [RenderEnv.sortKey, mapOption, hk e he]
  have hcmp : ∀ a ∈ entries, ∀ b ∈ entries, (keyLt [.nat (K a)] [.nat (K b)]).isSome = true := by
    intro a ha b hb
    simp only [keyLt, lexLt]
    split
    · rfl
    · exact hc a ha b hb
  have hs := sortEntries_of (reverse := reverse) hk' hcmp
  obtain ⟨h1, h2, h3⟩ := pySortKey_spec (fun e => [SKey.nat (K e)]) reverse entries
  have hone : ∀ a b, keyLtB [SKey.nat (K a)] [.nat (K b)] = lexB (lexB NatPart.ltB) (K a) (K b) := by
    intro a b
    simp only [keyLtB, lexB, SKey.nat.injEq, SKey.ltB]
    by_cases e : K a = K b
    · rw [if_pos e, e, NatPart.ltB_strict.lex.lex.irrefl]
    · rw [if_neg e]
  refine ⟨_, hs, h1, ?_, ?_⟩
  · refine h2.imp ?_
    intro a b h
    rw [hone, hone] at h
    exact h
  · intro P hP
    by_cases hex : ∃ a ∈ entries, P a = true
    · obtain ⟨a, ha, hPa⟩ := hex
      have h4 := h3 [.nat (K a)]
      have hcongr : ∀ l : List EntInfo, (∀ e ∈ l, e ∈ entries) → l.filter P = (l.filter (fun e => [SKey.nat (K e)] = [.nat (K a)])).filter P := by
        intro l hl
        rw [List.filter_filter]
        apply List.filter_congr
        intro b hb
        cases hPb : P b with
        | false => simp
        | true => simp [hP a ha b (hl b hb) hPa hPb]
      rw [hcongr _ (fun e he => h1.mem_iff.1 he), hcongr entries (fun e he => he), h4]
    · have e1 : entries.filter P = [] := by
        rw [List.filter_eq_nil_iff]; intro e he h; exact hex ⟨e, he, h⟩
      rw [e1, List.filter_eq_nil_iff]
      intro e he h; exact hex ⟨e, h1.mem_iff.1 he, h⟩

/-- A relative path whose components have no extension that begins with a letter. -/
def NaturalPath (R : RenderEnv) (D : DigitEnv) (f : Field) (e : EntInfo) (cs : List Str) : Prop :=
  (∃ v, R.search.attr e f.attr = some v ∧ HasType f.type v) ∧ sortVal R.search.tests.low f.type (R.search.attr e f.attr) = .text (joinWith '/' cs) ∧
    cs ≠ [] ∧ ∀ c ∈ cs, (c ≠ [] ∧ c ≠ ['.'] ∧ c ≠ ['.', '.'] ∧ '/' ∉ c) ∧ PlainDigits D c ∧ Extensions D.dec c c []

theorem components_tokens {D : DigitEnv} {cs : List Str} (h : ∀ c ∈ cs, PlainDigits D c ∧ Extensions D.dec c c []) :
    ∃ ts : List (List Tok), All2 (Chunked D.dec) cs ts ∧
      mapOption (prepareComponent D) cs = some (ts.map (fun t => [t.map NatPart.ofTok])) := by
  induction cs with
  | nil => exact ⟨[], .nil, rfl⟩
  | cons c cs ih =>
    obtain ⟨ts, h1, h2⟩ := ih (fun x hx => h x (by simp [hx]))
    obtain ⟨hp, he⟩ := h c (by simp)
    obtain ⟨t, exts, ⟨stem, hs, hc⟩, hk⟩ := prepareComponent_spec hp
    obtain ⟨rfl, rfl⟩ := he.unique hs
    exact ⟨t :: ts, .cons hc h1, by rw [mapOption, hk, h2]; rfl⟩

theorem all2_chunked_unique {D : DigitEnv} {cs : List Str} {ts ts' : List (List Tok)} (hp : ∀ c ∈ cs, PlainDigits D c)
    (h : All2 (Chunked D.dec) cs ts) (h' : All2 (Chunked D.dec) cs ts') : ts = ts' := by
  induction h generalizing ts' with
  | nil => cases h'; rfl
  | cons h1 _ ih =>
    cases h' with
    | cons h1' h2' =>
      rw [ih (fun c hc => hp c (by simp [hc])) h2']
      have a := (h1.tokens (hp _ (by simp))).1
      have b := (h1'.tokens (hp _ (by simp))).1
      rw [a] at b
      rw [map_ofTok_inj (Option.some.inj b)]

theorem paths_comparable : ∀ {a b : List (List Tok)}, (∀ t ∈ a, tokKinds true t) → (∀ t ∈ b, tokKinds true t) →
    (lexLt (lexLt NatPart.lt) (a.map (List.map NatPart.ofTok)) (b.map (List.map NatPart.ofTok))).isSome = true := by
  intro a
  induction a with
  | nil => intro b _ _; cases b <;> rfl
  | cons x xs ih =>
    intro b ha hb
    cases b with
    | nil => rfl
    | cons y ys =>
      simp only [List.map_cons, lexLt]
      split
      · exact ih (fun t ht => ha t (by simp [ht])) (fun t ht => hb t (by simp [ht]))
      · exact tokens_comparable true _ _ (ha x (by simp)) (hb y (by simp))

theorem ltB_paths : ∀ {a b : List (List Tok)}, (∀ t ∈ a, tokKinds true t) → (∀ t ∈ b, tokKinds true t) →
    (lexB (lexB NatPart.ltB) (a.map (List.map NatPart.ofTok)) (b.map (List.map NatPart.ofTok)) = true ↔ Lex (Lex Tok.Before) a b) := by
  intro a
  induction a with
  | nil =>
    intro b _ _
    cases b with
    | nil => simp [lexB, Lex.nil_right]
    | cons => simp [lexB, Lex.nil_left]
  | cons x xs ih =>
    intro b ha hb
    cases b with
    | nil => simp [lexB, Lex.nil_right]
    | cons y ys =>
      rw [Lex.cons_iff]
      simp only [List.map_cons, lexB]
      by_cases e : x = y
      · subst e
        have hirr : ¬ Lex Tok.Before x x := fun h => by
          have := (ltB_ofTok (ha x (by simp)) (ha x (by simp))).2 h
          rw [NatPart.ltB_strict.lex.irrefl] at this; exact absurd this (by simp)
        simp only [if_true, hirr, false_or, true_and]
        exact ih (fun t ht => ha t (by simp [ht])) (fun t ht => hb t (by simp [ht]))
      · rw [if_neg (fun h => e (map_ofTok_inj h)), ltB_ofTok (ha x (by simp)) (hb y (by simp))]
        simp [e]

theorem all2_kinds {dec : Char → Option Nat} {cs : List Str} {ts : List (List Tok)} (h : All2 (Chunked dec) cs ts) : ∀ t ∈ ts, tokKinds true t := by
  induction h with
  | nil => simp
  | cons h1 _ ih =>
    intro t ht
    rcases List.mem_cons.1 ht with rfl | ht
    · exact h1.kinds
    · exact ih t ht

/-- Sorting by a path with the v modifier, if no component has an extension that begins with a letter: it does not fail, and the output is a permutation
of the results in natural order, in which equal results keep their order. Missing: paths with such extensions, see `C37_false`. -/
theorem C37_paths_partial (R : RenderEnv) (D : DigitEnv) (f : Field) (reverse : Bool) (entries : List EntInfo) (path : EntInfo → List Str)
    (hf : f.modifier = some 'v') (hn : ∀ e ∈ entries, NaturalPath R D f e (path e)) :
    ∃ out, R.finalizeEntries D (some [f]) reverse entries = some out ∧ out.Perm entries ∧
      out.Pairwise (fun a b => if reverse then ¬ NaturalPathBefore D.dec (path a) (path b) else ¬ NaturalPathBefore D.dec (path b) (path a)) ∧
      ∀ P : EntInfo → Bool, (∀ a ∈ entries, ∀ b ∈ entries, P a = true → P b = true →
        ∃ ts, All2 (Chunked D.dec) (path a) ts ∧ All2 (Chunked D.dec) (path b) ts) → out.filter P = entries.filter P := by
  have hsel : ∀ e : EntInfo, ∃ ts : List (List Tok), e ∈ entries →
      All2 (Chunked D.dec) (path e) ts ∧ R.sortPart D e f = some (.nat (ts.map (List.map NatPart.ofTok))) := by
    intro e
    by_cases he : e ∈ entries
    · obtain ⟨⟨v, ha, hty⟩, hs, hne, hcs⟩ := hn e he
      obtain ⟨ts, h1, h2⟩ := components_tokens (fun c hc => (hcs c hc).2)
      refine ⟨ts, fun _ => ⟨h1, ?_⟩⟩
      have hkey : f.type.sortKey R.search.tests.low v = .str (joinWith '/' (path e)) := by
        rw [ha] at hs
        revert hs hty
        cases f.type <;> cases v <;> simp [HasType, sortVal, Ty.sortKey, pathSortKey_eq]
      have hkk : prepareSortKey D (joinWith '/' (path e)) = some (ts.map (List.map NatPart.ofTok)) := by
        unfold prepareSortKey
        rw [normpath_clean hne (fun c hc => (hcs c hc).1), h2]
        simp only [Option.map_some, Option.some.injEq]
        clear h1 h2
        induction ts with
        | nil => rfl
        | cons t ts ih => simp [ih]
      unfold RenderEnv.sortPart
      rw [ha]
      simp only [hkey, hf, if_true, hkk]
      rfl
    · exact ⟨[], fun h => absurd h he⟩
  let p : EntInfo → List (List Tok) := fun e => Classical.choose (hsel e)
  have hp : ∀ e ∈ entries, All2 (Chunked D.dec) (path e) (p e) ∧ R.sortPart D e f = some (.nat ((p e).map (List.map NatPart.ofTok))) :=
    fun e he => Classical.choose_spec (hsel e) he
  have hkinds : ∀ e ∈ entries, ∀ t ∈ p e, tokKinds true t := fun e he => all2_kinds (hp e he).1
  have huniq : ∀ e ∈ entries, ∀ ts, All2 (Chunked D.dec) (path e) ts → ts = p e := fun e he ts h =>
    all2_chunked_unique (fun c hc => ((hn e he).2.2.2 c hc).2.1) h (hp e he).1
  obtain ⟨out, h1, h2, h3, h4⟩ := natural_sort (reverse := reverse) (fun e => (p e).map (List.map NatPart.ofTok)) (fun e he => (hp e he).2)
    (fun a ha b hb => paths_comparable (hkinds a ha) (hkinds b hb))
  refine ⟨out, h1, h2, List.Pairwise.imp_of_mem ?_ h3, ?_⟩
  · have key : ∀ a ∈ entries, ∀ b ∈ entries,
        lexB (lexB NatPart.ltB) ((p a).map (List.map NatPart.ofTok)) ((p b).map (List.map NatPart.ofTok)) = false →
        ¬ NaturalPathBefore D.dec (path a) (path b) := by
      intro a ha b hb h hnb
      obtain ⟨ta, tb, na, nb, hlt⟩ := hnb
      rw [huniq a ha ta na, huniq b hb tb nb, ← ltB_paths (hkinds a ha) (hkinds b hb), h] at hlt
      exact absurd hlt (by simp)
    intro a b ha hb hab
    have ha' := h2.mem_iff.1 ha
    have hb' := h2.mem_iff.1 hb
    cases reverse with
    | false => simp only [Bool.false_eq_true, if_false] at *; exact key b hb' a ha' hab
    | true => simp only [if_true] at *; exact key a ha' b hb' hab
  · intro P hP
    refine h4 P (fun a ha b hb h5 h6 => ?_)
    obtain ⟨ts, h7, h8⟩ := hP a ha b hb h5 h6
    show (p a).map _ = (p b).map _
    rw [← huniq a ha ts h7, ← huniq b hb ts h8]

theorem stemExt_dot {s a e : Str} (h : StemExt s a ('.' :: e)) : '.' ∈ s := by
  generalize hb : '.' :: e = b at h
  cases h with
  | ext => simp
  | none => simp at hb

/-- What the natural order means for numbers in names without a dot: the first number that differs decides by its value. -/
theorem C37_number {dec : Char → Option Nat} {w d d' r r' : Str} {n n' : Nat} {ts ts' : List Tok} (hw : ∀ c ∈ w, dec c = none)
    (hd : NumRun dec d n) (hd' : NumRun dec d' n') (hr : ∀ c, r.head? = some c → dec c = none) (hr' : ∀ c, r'.head? = some c → dec c = none)
    (hts : Chunked dec r ts) (hts' : Chunked dec r' ts') (hlt : n < n') (h1 : '.' ∉ w ++ d ++ r) (h2 : '.' ∉ w ++ d' ++ r') :
    NaturalBefore dec (w ++ d ++ r) (w ++ d' ++ r') :=
  ⟨_, [], _, [], ⟨_, .stop (fun _ _ h => absurd (stemExt_dot h) h1), .cons hw hd hr hts⟩,
    ⟨_, .stop (fun _ _ h => absurd (stemExt_dot h) h2), .cons hw hd' hr' hts'⟩, Or.inl (.differ [Tok.text w] _ _ (Tok.Before.num hlt))⟩

def nameV : Field := ⟨("file".toList, "name".toList), "name".toList, .path, none, some 'v'⟩
def pathV : Field := ⟨("file".toList, "path".toList), "path".toList, .path, none, some 'v'⟩
def linkV : Field := ⟨("file".toList, "link".toList), "link".toList, .path, none, some 'v'⟩

/-- ASCII digits and `²`, for which `isdigit` holds but not `isdecimal`. -/
def superDigits : DigitEnv := ⟨fun c => isDigit c || c = '²', asciiDigits.dec, fun c h => by
  have := asciiDigits.dec_isdigit c h
  show (isDigit c || _) = true
  rw [show isDigit c = true from this]; rfl, asciiDigits.dec_ascii⟩

/-- Natural sorting fails: `--sort path:v` with the results `x.tar.gz` and `x/tar1`, and `--sort name:v` with a name that begins with `²`. And it does
not compare numbers by value in extensions: `x.v10` comes before `x.v9`. -/
theorem C37_false :
    demoRender.finalizeEntries asciiDigits (some [pathV]) false [demoNamed "x.tar.gz".toList, demoNamed "x/tar1".toList] = none ∧
    demoRender.finalizeEntries superDigits (some [nameV]) false [demoNamed "²".toList] = none ∧
    demoRender.finalizeEntries asciiDigits (some [nameV]) false [demoNamed "x.v9".toList, demoNamed "x.v10".toList] =
      some [demoNamed "x.v10".toList, demoNamed "x.v9".toList] := by decide

/-- A result without the attribute cannot be compared with one that has it. -/
theorem C37_missing_false : ∃ R : RenderEnv, R.finalizeEntries asciiDigits (some [linkV]) false [demoNamed "a".toList, demoNamed "b".toList] = none :=
  ⟨{ demoRender with search := { demoRender.search with stat := fun i _ => if i.relpath = "a".toList then some (.str "target".toList) else none } }, by decide⟩

/-- The hypotheses of `C37_names_partial` hold for these names, and this is the order. -/
example : nameV.modifier = some 'v' ∧
    (∀ e ∈ [demoNamed "a10.txt".toList, demoNamed ".A9.txt".toList, demoNamed "1.10".toList, demoNamed "1.9".toList],
      ∃ s, NaturalName demoRender asciiDigits nameV e s) ∧
    demoRender.finalizeEntries asciiDigits (some [nameV]) false
      [demoNamed "a10.txt".toList, demoNamed ".A9.txt".toList, demoNamed "1.10".toList, demoNamed "1.9".toList] =
      some [demoNamed "1.9".toList, demoNamed "1.10".toList, demoNamed ".A9.txt".toList, demoNamed "a10.txt".toList] := by
  have hd : ∀ s, PlainDigits asciiDigits s := fun s c _ h => by simpa [asciiDigits] using h
  refine ⟨rfl, ?_, by decide⟩
  intro e he
  simp only [List.mem_cons, List.not_mem_nil, or_false] at he
  rcases he with rfl | rfl | rfl | rfl
  · exact ⟨"a10.txt".toList, ⟨_, rfl, trivial⟩, by decide, by decide, by decide, hd _⟩
  · exact ⟨"a9.txt".toList, ⟨_, rfl, trivial⟩, by decide, by decide, by decide, hd _⟩
  · exact ⟨"1.10".toList, ⟨_, rfl, trivial⟩, by decide, by decide, by decide, hd _⟩
  · exact ⟨"1.9".toList, ⟨_, rfl, trivial⟩, by decide, by decide, by decide, hd _⟩

/-- The hypotheses of `C37_paths_partial` hold for these paths. -/
example : (∀ e ∈ [demoNamed "a10/b".toList, demoNamed "a9/b2".toList], ∃ cs, NaturalPath demoRender asciiDigits pathV e cs) ∧
    demoRender.finalizeEntries asciiDigits (some [pathV]) false [demoNamed "a10/b".toList, demoNamed "a9/b2".toList] =
      some [demoNamed "a9/b2".toList, demoNamed "a10/b".toList] := by
  have hd : ∀ s, PlainDigits asciiDigits s := fun s c _ h => by simpa [asciiDigits] using h
  have he : ∀ s : Str, '.' ∉ s → Extensions asciiDigits.dec s s [] := fun s hs => .stop (fun _ _ h => absurd (stemExt_dot h) hs)
  refine ⟨?_, by decide⟩
  intro e hm
  simp only [List.mem_cons, List.not_mem_nil, or_false] at hm
  rcases hm with rfl | rfl
  · refine ⟨["a10".toList, "b".toList], ⟨_, rfl, trivial⟩, by decide, by decide, ?_⟩
    intro c hc
    simp only [List.mem_cons, List.not_mem_nil, or_false] at hc
    rcases hc with rfl | rfl
    · exact ⟨by decide, hd _, he _ (by decide)⟩
    · exact ⟨by decide, hd _, he _ (by decide)⟩
  · refine ⟨["a9".toList, "b2".toList], ⟨_, rfl, trivial⟩, by decide, by decide, ?_⟩
    intro c hc
    simp only [List.mem_cons, List.not_mem_nil, or_false] at hc
    rcases hc with rfl | rfl
    · exact ⟨by decide, hd _, he _ (by decide)⟩
    · exact ⟨by decide, hd _, he _ (by decide)⟩

end FF
