import Verif.Lemmas.Re
import Verif.Model.Expression
import Verif.Spec.Expression
namespace FF
open Spec
variable {β : Type} {cc : CharClass}

theorem word_ne_dot {x : Char} (h : cc.word x = true) : x ≠ '.' := by
  rintro rfl; rw [cc.word_not_punct '.' (by decide)] at h; cases h

/-- The attribute part, read lazily up to the first position where the rest can go on. -/
theorem attrRe_run {a r : Str} {c : Caps} {k : Str → Caps → Option β} {v : β} (ha : AttrName cc a)
    (hr : ∀ x xs, r = x :: xs → cc.word x = false ∧ x ≠ '.')
    (hb : ∀ b c', b ≠ [] → (∀ x ∈ b, cc.word x = true) → k (b ++ r) c' = none)
    (hk : k r c = some v) : (attrRe cc).run (a ++ r) c k = some v := by
  have name : ∀ n : Str, n ≠ [] → (∀ x ∈ n, cc.word x = true) → (Re.plus false cc.word).run (n ++ r) c k = some v := by
    intro n hne hn
    cases n with
    | nil => exact absurd rfl hne
    | cons x xs =>
      simp only [Re.plus, Re.run, List.cons_append, hn x (by simp), if_true]
      apply starL_some (fun y hy => hn y (by simp [hy])) _ hk
      intro a' b' hab hb'
      apply hb _ _ hb'
      intro y hy; exact hn y (by simp [hab, hy])
  rcases ha with ⟨hne, hw⟩ | ⟨p, n, rfl, hp, hn, hpw, hnw⟩
  · have : (Re.seq (.plus true cc.word) (.lit '.')).run (a ++ r) c (fun s' c' => (Re.plus false cc.word).run s' c' k) = none := by
      apply Re.run_none_of
      rintro s' c' ⟨s1, c1, h1, h2⟩
      rw [Re.mat_plus] at h1
      rw [Re.mat_lit] at h2
      obtain ⟨w, hwne, hs, hww, rfl⟩ := h1
      obtain ⟨rfl, rfl⟩ := h2
      exfalso
      rcases List.append_eq_append_iff.1 hs with ⟨a', rfl, h3⟩ | ⟨c', rfl, h3⟩
      · cases a' with
        | nil => exact (hr '.' s' (by simpa using h3)).2 rfl
        | cons y ys =>
          have h4 := hr y (ys ++ '.' :: s') (by simpa using h3)
          have h5 := hww y (by simp)
          simp [h5] at h4
      · cases c' with
        | nil => simp at h3; exact (hr '.' s' h3.symm).2 rfl
        | cons y ys =>
          simp at h3
          have h4 := hw y (by simp)
          rw [← h3.1] at h4
          exact word_ne_dot h4 rfl
    simp only [attrRe, Re.run, Re.opt] at this ⊢
    rw [this]
    exact name a hne hw
  · have : (Re.seq (.plus true cc.word) (.lit '.')).run ((p ++ '.' :: n) ++ r) c (fun s' c' => (Re.plus false cc.word).run s' c' k) = some v := by
      cases p with
      | nil => exact absurd rfl hp
      | cons x xs =>
        simp only [Re.plus, Re.run, List.cons_append, hpw x (by simp), if_true]
        rw [show xs ++ '.' :: n ++ r = xs ++ ('.' :: (n ++ r)) by simp]
        apply starG_some (fun y hy => hpw y (by simp [hy]))
        · intro y ys h; cases h; exact cc.word_not_punct '.' (by decide)
        · simp only [Re.lit, Re.run, decide_true, if_true]
          exact name n hn hnw
    simp only [attrRe, Re.run, Re.opt] at this ⊢
    rw [this]

theorem opRe_none {s : Str} {c : Caps} {k : Str → Caps → Option β}
    (h : ∀ x xs, s = x :: xs → x ∉ ['=', ':', '~', '%', '>', '<', '+', '-']) : opRe.run s c k = none := by
  cases s with
  | nil => simp [opRe, opStrings, Re.alts, Re.run, Re.str, Re.lit]
  | cons x xs =>
    have := h x xs rfl
    simp only [List.mem_cons, List.not_mem_nil, or_false, not_or] at this
    simp [opRe, opStrings, Re.alts, Re.run, Re.str, Re.lit, this]

theorem word_not_op {x : Char} (h : cc.word x = true) : x ∉ ['=', ':', '~', '%', '>', '<', '+', '-'] := by
  intro hm
  have : x ∈ ['.', '=', ':', '~', '%', '>', '<', '+', '-', '{', '}', '\n', ',', '#'] := by
    simp only [List.mem_cons, List.not_mem_nil, or_false] at hm ⊢
    rcases hm with rfl | rfl | rfl | rfl | rfl | rfl | rfl | rfl <;> simp
  rw [cc.word_not_punct x this] at h; cases h

/-- The operator is read as written unless an '=' follows a one-character ordering operator. -/
theorem opRe_run {op r : Str} {c : Caps} {k : Str → Caps → Option β} {v : β} (hop : op ∈ operators.map Prod.fst)
    (hr : Extensible op → ∀ xs, r ≠ '=' :: xs) (hk : k r c = some v) : opRe.run (op ++ r) c k = some v := by
  cases r with
  | nil =>
    simp only [operators, List.map_cons, List.map_nil, List.mem_cons, List.not_mem_nil, or_false] at hop
    rcases hop with rfl | rfl | rfl | rfl | rfl | rfl | rfl | rfl | rfl | rfl | rfl | rfl <;>
      simp [opRe, opStrings, Re.alts, Re.run, Re.str, Re.lit, hk]
  | cons y ys =>
    have hr' : Extensible op → y ≠ '=' := by rintro he rfl; exact hr he ys rfl
    simp only [operators, List.map_cons, List.map_nil, List.mem_cons, List.not_mem_nil, or_false] at hop
    rcases hop with rfl | rfl | rfl | rfl | rfl | rfl | rfl | rfl | rfl | rfl | rfl | rfl
    all_goals first
      | (simp [opRe, opStrings, Re.alts, Re.run, Re.str, Re.lit, hk]; done)
      | (have := hr' (by simp [Extensible]); simp [opRe, opStrings, Re.alts, Re.run, Re.str, Re.lit, hk, this])

theorem attrRe_mat {s s' : Str} {c c' : Caps} :
    (attrRe cc).Mat s c s' c' ↔ ∃ a, AttrName cc a ∧ s = a ++ s' ∧ c' = c := by
  simp only [attrRe, Re.Mat, Re.opt]
  constructor
  · rintro ⟨s1, c1, (⟨s2, c2, h1, h2⟩ | ⟨rfl, rfl⟩), h3⟩
    · rw [Re.mat_plus] at h1 h3
      rw [Re.mat_lit] at h2
      obtain ⟨p, hp, rfl, hpw, rfl⟩ := h1
      obtain ⟨rfl, rfl⟩ := h2
      obtain ⟨n, hn, rfl, hnw, rfl⟩ := h3
      exact ⟨p ++ '.' :: n, .inr ⟨p, n, rfl, hp, hn, hpw, hnw⟩, by simp, rfl⟩
    · rw [Re.mat_plus] at h3
      obtain ⟨n, hn, rfl, hnw, rfl⟩ := h3
      exact ⟨n, .inl ⟨hn, hnw⟩, rfl, rfl⟩
  · rintro ⟨a, (⟨hn, hnw⟩ | ⟨p, n, rfl, hp, hn, hpw, hnw⟩), rfl, rfl⟩
    · exact ⟨_, _, .inr ⟨rfl, rfl⟩, Re.mat_plus.2 ⟨a, hn, rfl, hnw, rfl⟩⟩
    · exact ⟨n ++ s', c', .inl ⟨'.' :: (n ++ s'), c', Re.mat_plus.2 ⟨p, hp, by simp, hpw, rfl⟩, Re.mat_lit.2 ⟨rfl, rfl⟩⟩,
        Re.mat_plus.2 ⟨n, hn, rfl, hnw, rfl⟩⟩

/-- The inside of a reference. -/
def RefBody (cc : CharClass) (r : Str) : Prop := r = [] ∨ AttrName cc r

theorem refRe_mat {s s' : Str} {c c' : Caps} :
    (refRe cc).Mat s c s' c' ↔ ∃ r, RefBody cc r ∧ s = '{' :: (r ++ '}' :: s') ∧ c' = c := by
  simp only [refRe, Re.Mat]
  constructor
  · rintro (⟨s1, c1, h1, s2, c2, h2, h3⟩ | h)
    · rw [Re.mat_lit] at h1 h3
      rw [attrRe_mat] at h2
      obtain ⟨rfl, rfl⟩ := h1
      obtain ⟨a, ha, rfl, rfl⟩ := h2
      obtain ⟨rfl, rfl⟩ := h3
      exact ⟨a, .inr ha, rfl, rfl⟩
    · rw [Re.mat_str] at h
      obtain ⟨rfl, rfl⟩ := h
      exact ⟨[], .inl rfl, rfl, rfl⟩
  · rintro ⟨r, (rfl | ha), rfl, rfl⟩
    · exact .inr (Re.mat_str.2 ⟨rfl, rfl⟩)
    · exact .inl ⟨_, _, Re.mat_lit.2 ⟨rfl, rfl⟩, _, _, attrRe_mat.2 ⟨r, ha, rfl, rfl⟩, Re.mat_lit.2 ⟨rfl, rfl⟩⟩

theorem opRe_mat {s s' : Str} {c c' : Caps} (h : opRe.Mat s c s' c') :
    ∃ op, op ∈ operators.map Prod.fst ∧ s = op ++ s' ∧ c' = c := by
  simp only [opRe, opStrings, List.map_cons, List.map_nil, Re.alts, Re.Mat, Re.mat_str] at h
  rcases h with h | h | h | h | h | h | h | h | h | h | h | h <;> exact ⟨_, by simp [operators], h.1, h.2⟩

/-- The value part of the expression. -/
def valueRe (cc : CharClass) : Re := .seq (.star true cc.space) <| .seq (.cap 4 (.plus true Re.dot)) <| .seq (.star true cc.space) .eol

theorem valueRe_run {sp v : Str} {c : Caps} {k : Str → Caps → Option β} {u : β} (hsp : Blank cc sp) (hv : PlainValue cc v)
    (hk : k [] ((4, v) :: c) = some u) : (valueRe cc).run (sp ++ v) c k = some u := by
  obtain ⟨⟨x, xs, rfl, hx⟩, hnl⟩ := hv
  have hd : ∀ y ∈ x :: xs, Re.dot y = true := by
    intro y hy; simp only [Re.dot, decide_eq_true_eq]; rintro rfl; exact hnl hy
  simp only [valueRe, Re.run]
  apply starG_some hsp
  · intro y ys h; cases h; exact hx
  · simp only [Re.plus, Re.run, hd x (by simp), if_true]
    have := starG_some (p := Re.dot) (k := fun s' => starG cc.space (fun s'' => if s'' = [] ∨ s'' = ['\n'] then
      k s'' ((4, List.take ((x :: xs).length - s'.length) (x :: xs)) :: c) else none) s') (w := xs) (r := []) (v := u)
      (fun y hy => hd y (by simp [hy])) (by simp) (by simp [starG]; simpa using hk)
    simpa using this

theorem valueRe_nil {c : Caps} {k : Str → Caps → Option β} : (valueRe cc).run [] c k = none := by
  simp [valueRe, Re.run, starG, Re.plus]

theorem valueRe_mat {s s' : Str} {c c' : Caps} (h : (valueRe cc).Mat s c s' c') :
    ∃ sp v sp', Blank cc sp ∧ v ≠ [] ∧ '\n' ∉ v ∧ Blank cc sp' ∧ s = sp ++ v ++ sp' ∧ c' = (4, v) :: c := by
  simp only [valueRe, Re.Mat] at h
  obtain ⟨s1, c1, ⟨sp, rfl, hsp, rfl⟩, s2, c2, ⟨c3, h1, rfl⟩, s3, c4, ⟨w, rfl, hw, rfl⟩, h2, rfl, rfl⟩ := h
  rw [Re.mat_plus] at h1
  obtain ⟨v, hv, rfl, hd, rfl⟩ := h1
  refine ⟨sp, v, w ++ s', hsp, hv, ?_, ?_, by simp, by simp⟩
  · intro hn; have := hd _ hn; simp [Re.dot] at this
  · intro x hx
    rcases List.mem_append.1 hx with hx | hx
    · exact hw x hx
    · rcases h2 with rfl | rfl
      · cases hx
      · have : x = '\n' := by simpa using hx
        subst this; exact cc.space_newline

theorem expressionRe_eq : expressionRe cc = .seq (.star true cc.space) (.seq (.cap 1 (attrRe cc)) (.seq (.star true cc.space)
    (.seq (.cap 2 opRe) (.seq (.opt (.cap 3 (refRe cc))) (valueRe cc))))) := rfl

/-- Head of the expression: everything up to and including the operator. -/
theorem head_run {sp1 a sp2 op r : Str} {k : Str → Caps → Option β} {u : β} {c : Caps} {tail : Re} (h1 : Blank cc sp1) (ha : AttrName cc a)
    (h2 : Blank cc sp2) (hop : op ∈ operators.map Prod.fst) (hr : Extensible op → ∀ xs, r ≠ '=' :: xs)
    (hk : tail.run r ((2, op) :: (1, a) :: c) k = some u) :
    (Re.seq (.star true cc.space) (.seq (.cap 1 (attrRe cc)) (.seq (.star true cc.space)
      (.seq (.cap 2 opRe) tail)))).run (sp1 ++ (a ++ (sp2 ++ (op ++ r)))) c k = some u := by
  have hopc : ∃ x xs, op = x :: xs ∧ x ∈ ['=', ':', '~', '%', '>', '<', '+', '-'] := by
    simp only [operators, List.map_cons, List.map_nil, List.mem_cons, List.not_mem_nil, or_false] at hop
    rcases hop with rfl | rfl | rfl | rfl | rfl | rfl | rfl | rfl | rfl | rfl | rfl | rfl <;> exact ⟨_, _, rfl, by decide⟩
  obtain ⟨o, os, rfl, ho⟩ := hopc
  have how : cc.word o = false := by
    apply cc.word_not_punct
    simp only [List.mem_cons, List.not_mem_nil, or_false] at ho ⊢
    rcases ho with rfl | rfl | rfl | rfl | rfl | rfl | rfl | rfl <;> simp
  have hos : cc.space o = false := by
    apply cc.space_not_punct
    simp only [List.mem_cons, List.not_mem_nil, or_false] at ho ⊢
    rcases ho with rfl | rfl | rfl | rfl | rfl | rfl | rfl | rfl <;> simp
  have hod : o ≠ '.' := by rintro rfl; revert ho; decide
  simp only [Re.run]
  apply starG_some h1
  · intro x xs hx
    have : cc.word x = true := by
      rcases ha with ⟨hne, hw⟩ | ⟨p, n, rfl, hp, hn, hpw, hnw⟩
      · cases a with
        | nil => exact absurd rfl hne
        | cons y ys => simp at hx; exact hx.1 ▸ hw y (by simp)
      · cases p with
        | nil => exact absurd rfl hp
        | cons y ys => simp at hx; exact hx.1 ▸ hpw y (by simp)
    exact cc.word_not_space x this
  · apply attrRe_run ha
    · intro x xs hx
      cases sp2 with
      | nil => simp at hx; rw [← hx.1]; exact ⟨how, hod⟩
      | cons y ys =>
        simp at hx
        have hy := h2 y (by simp)
        rw [hx.1] at hy
        constructor
        · cases hw : cc.word x with
          | false => rfl
          | true => rw [cc.word_not_space x hw] at hy; cases hy
        · rintro rfl; rw [cc.space_not_punct '.' (by decide)] at hy; cases hy
    · intro b c' hb hbw
      cases b with
      | nil => exact absurd rfl hb
      | cons y ys =>
        have hy := hbw y (by simp)
        rw [starG_of_not (by intro x xs hx; simp at hx; rw [← hx.1]; exact cc.word_not_space y hy)]
        apply opRe_none
        intro x xs hx
        simp at hx
        rw [← hx.1]
        exact word_not_op hy
    · apply starG_some h2
      · intro x xs hx; simp at hx; rw [← hx.1]; exact hos
      · apply opRe_run hop hr
        rw [take_sub_length, take_sub_length]
        exact hk

theorem run_noRef {s : Str} {k : Str → Caps → Option β} {u : β} {c : Caps}
    (hn : ∀ r rest, RefBody cc r → s = '{' :: (r ++ '}' :: rest) → rest = [])
    (hk : (valueRe cc).run s c k = some u) : (Re.seq (.opt (.cap 3 (refRe cc))) (valueRe cc)).run s c k = some u := by
  have h0 : (Re.cap 3 (refRe cc)).run s c (fun s' c' => (valueRe cc).run s' c' k) = none := by
    apply Re.run_none_of
    rintro s' c' ⟨c1, h1, rfl⟩
    obtain ⟨r, hr, hs, rfl⟩ := refRe_mat.1 h1
    rw [hn r s' hr hs]
    exact valueRe_nil
  show (Re.opt _).run s c _ = _
  rw [Re.run_opt, h0]
  exact hk

theorem refRe_run {r rest : Str} {k : Str → Caps → Option β} {u : β} {c : Caps} (hr : RefBody cc r) (hk : k rest c = some u) :
    (refRe cc).run ('{' :: (r ++ '}' :: rest)) c k = some u := by
  rcases hr with rfl | ha
  · have h0 : (Re.seq (.lit '{') (.seq (attrRe cc) (.lit '}'))).run ('{' :: ([] ++ '}' :: rest)) c k = none := by
      apply Re.run_none_of
      rintro s' c' ⟨s1, c1, h1, s2, c2, h2, h3⟩
      exfalso
      rw [Re.mat_lit] at h1
      rw [attrRe_mat] at h2
      obtain ⟨h1, rfl⟩ := h1
      obtain ⟨a, ha, rfl, rfl⟩ := h2
      have key : ∀ x xs, a = x :: xs → cc.word x = true → False := by
        rintro x xs rfl hx
        simp at h1
        rw [← h1.1, cc.word_not_punct '}' (by decide)] at hx; cases hx
      rcases ha with ⟨hne, hw⟩ | ⟨p, n, rfl, hp, hn, hpw, hnw⟩
      · cases a with
        | nil => exact hne rfl
        | cons y ys => exact key y ys rfl (hw y (by simp))
      · cases p with
        | nil => exact hp rfl
        | cons y ys => exact key y _ rfl (hpw y (by simp))
    show (Re.alt _ _).run _ _ _ = _
    rw [Re.run, h0]
    simp [Re.str, Re.run, Re.lit, hk]
  · have h0 : (Re.seq (.lit '{') (.seq (attrRe cc) (.lit '}'))).run ('{' :: (r ++ '}' :: rest)) c k = some u := by
      simp only [Re.run, Re.lit, decide_true, if_true]
      apply attrRe_run ha
      · intro x xs hx; cases hx; exact ⟨cc.word_not_punct '}' (by decide), by decide⟩
      · intro b c' hb hbw
        cases b with
        | nil => exact absurd rfl hb
        | cons y ys =>
          have hy : y ≠ '}' := by
            rintro rfl
            have := hbw '}' (by simp)
            rw [cc.word_not_punct '}' (by decide)] at this; cases this
          simp [Re.run, hy]
      · simp [Re.run, hk]
    show (Re.alt _ _).run _ _ _ = _
    rw [Re.run, h0]

theorem run_ref {r rest : Str} {k : Str → Caps → Option β} {u : β} {c : Caps} (hr : RefBody cc r)
    (hk : (valueRe cc).run rest ((3, '{' :: (r ++ ['}'])) :: c) k = some u) :
    (Re.seq (.opt (.cap 3 (refRe cc))) (valueRe cc)).run ('{' :: (r ++ '}' :: rest)) c k = some u := by
  have h0 : (Re.cap 3 (refRe cc)).run ('{' :: (r ++ '}' :: rest)) c (fun s' c' => (valueRe cc).run s' c' k) = some u := by
    rw [Re.run]
    apply refRe_run hr
    have : ('{' :: (r ++ '}' :: rest)) = ('{' :: (r ++ ['}'])) ++ rest := by simp
    rw [this, take_sub_length]
    exact hk
  show (Re.opt _).run _ c _ = _
  rw [Re.run_opt, h0]

end FF
