import Verif.Lemmas.Expression
/-! C05: test strings. -/
namespace FF
open Spec
variable {cc : CharClass}

theorem normalizeOp_spec : ∀ x ∈ operators, normalizeOp x.1 = x.2 := by decide

theorem attrName_chars {a : Str} (h : AttrName cc a) : ∀ x ∈ a, x ≠ '{' ∧ x ≠ '}' := by
  have key : ∀ x, cc.word x = true → x ≠ '{' ∧ x ≠ '}' := by
    intro x hx
    constructor
    · rintro rfl; rw [cc.word_not_punct _ (by decide)] at hx; cases hx
    · rintro rfl; rw [cc.word_not_punct _ (by decide)] at hx; cases hx
  rcases h with ⟨_, hw⟩ | ⟨p, n, rfl, _, _, hpw, hnw⟩
  · intro x hx; exact key x (hw x hx)
  · intro x hx
    simp only [List.mem_append, List.mem_cons] at hx
    rcases hx with hx | rfl | hx
    · exact key x (hpw x hx)
    · decide
    · exact key x (hnw x hx)

theorem stripBraces_ref {r : Str} (h : RefBody cc r) : stripBraces ('{' :: (r ++ ['}'])) = r := by
  have hc : ∀ x ∈ r, x ≠ '{' ∧ x ≠ '}' := by
    rcases h with rfl | h
    · simp
    · exact attrName_chars h
  unfold stripBraces
  have d : ∀ l : Str, (∀ x ∈ l, x ≠ '{' ∧ x ≠ '}') → ∀ t, l ≠ [] → (l ++ t).dropWhile (fun c => c = '{' || c = '}') = l ++ t := by
    intro l hl t hne
    cases l with
    | nil => exact absurd rfl hne
    | cons x xs => have := hl x (by simp); simp [this]
  by_cases hr : r = []
  · subst hr; decide
  · have h1 := d r hc ['}'] hr
    have h2 := d r.reverse (fun x hx => hc x (by simpa using hx)) [] (by simpa using hr)
    simp only [List.append_nil] at h2
    simp [h1, h2]

/-- C05: an attribute, an operator and a value written one after the other (possibly with blanks around the operator) are read back
exactly, with `>`/`<` spelled `+`/`-`. `(op, denoted)` ranges over the documented operator table. The value must not begin with white
space or contain a newline, not continue the operator with `=`, and not begin with a reference. -/
theorem C05_roundtrip_partial (sp1 a sp2 op denoted sp3 v : Str) (h1 : Blank cc sp1) (ha : AttrName cc a) (h2 : Blank cc sp2)
    (hop : (op, denoted) ∈ operators) (h3 : Blank cc sp3) (hv : PlainValue cc v)
    (heq : sp3 = [] → Extensible op → v.head? ≠ some '=')
    (href : sp3 = [] → ∀ r rest, (r = [] ∨ AttrName cc r) → rest ≠ [] → v ≠ '{' :: r ++ '}' :: rest) :
    splitTest cc (sp1 ++ a ++ sp2 ++ op ++ sp3 ++ v) = some { attr := a, op := denoted, ref := none, value := v } := by
  have hm : (expressionRe cc).match' (sp1 ++ (a ++ (sp2 ++ (op ++ (sp3 ++ v))))) = some ([(4, v), (2, op), (1, a)], []) := by
    rw [Re.match', expressionRe_eq]
    apply head_run h1 ha h2 (List.mem_map.2 ⟨_, hop, rfl⟩)
    · intro he xs hx
      cases sp3 with
      | nil => exact heq rfl he (by simp at hx; simp [hx])
      | cons y ys =>
        simp at hx
        have := h3 y (by simp)
        rw [hx.1, cc.space_not_punct '=' (by decide)] at this; cases this
    · apply run_noRef
      · intro r rest hr hx
        cases sp3 with
        | nil =>
          by_cases hrest : rest = []
          · exact hrest
          · exact absurd (by simpa using hx) (href rfl r rest hr hrest)
        | cons y ys =>
          simp at hx
          have := h3 y (by simp)
          rw [hx.1, cc.space_not_punct '{' (by decide)] at this; cases this
      · exact valueRe_run h3 hv rfl
  unfold splitTest
  rw [show sp1 ++ a ++ sp2 ++ op ++ sp3 ++ v = sp1 ++ (a ++ (sp2 ++ (op ++ (sp3 ++ v)))) by simp, hm]
  simp [Caps.get, normalizeOp_spec _ hop]

/-- C05: likewise with a reference; `{}` is the reference without an attribute name. -/
theorem C05_reference (sp1 a sp2 op denoted r sp3 v : Str) (h1 : Blank cc sp1) (ha : AttrName cc a) (h2 : Blank cc sp2)
    (hop : (op, denoted) ∈ operators) (hr : r = [] ∨ AttrName cc r) (h3 : Blank cc sp3) (hv : PlainValue cc v) :
    splitTest cc (sp1 ++ a ++ sp2 ++ op ++ ('{' :: r ++ ['}']) ++ sp3 ++ v) =
      some { attr := a, op := denoted, ref := some r, value := v } := by
  have hm : (expressionRe cc).match' (sp1 ++ (a ++ (sp2 ++ (op ++ ('{' :: (r ++ '}' :: (sp3 ++ v))))))) =
      some ([(4, v), (3, '{' :: (r ++ ['}'])), (2, op), (1, a)], []) := by
    rw [Re.match', expressionRe_eq]
    apply head_run h1 ha h2 (List.mem_map.2 ⟨_, hop, rfl⟩)
    · intro he xs hx; simp at hx
    · apply run_ref hr
      exact valueRe_run h3 hv rfl
  unfold splitTest
  rw [show sp1 ++ a ++ sp2 ++ op ++ ('{' :: r ++ ['}']) ++ sp3 ++ v = sp1 ++ (a ++ (sp2 ++ (op ++ ('{' :: (r ++ '}' :: (sp3 ++ v)))))) by simp, hm]
  simp [Caps.get, normalizeOp_spec _ hop, stripBraces_ref hr]

/-- C05: only strings of that shape are accepted, and nothing but blanks is lost. -/
theorem C05_sound (s : Str) (t : TestExpr) (h : splitTest cc s = some t) :
    ∃ sp1 sp2 op ref sp3 sp4, Blank cc sp1 ∧ Blank cc sp2 ∧ Blank cc sp3 ∧ Blank cc sp4 ∧ AttrName cc t.attr ∧ (op, t.op) ∈ operators ∧
      (t.ref = none ∧ ref = [] ∨ ∃ r, t.ref = some r ∧ (r = [] ∨ AttrName cc r) ∧ ref = '{' :: r ++ ['}']) ∧
      t.value ≠ [] ∧ '\n' ∉ t.value ∧ s = sp1 ++ t.attr ++ sp2 ++ op ++ ref ++ sp3 ++ t.value ++ sp4 := by
  unfold splitTest at h
  split at h
  · cases h
  · rename_i c rest hm
    cases h
    rw [Re.match', expressionRe_eq] at hm
    obtain ⟨s', c', hmat, hk⟩ := Re.run_eq_some hm
    obtain ⟨s1, c1, ⟨sp1, rfl, hsp1, rfl⟩, s2, c2, ⟨c3, h2, rfl⟩, s4, c4, ⟨sp2, rfl, hsp2, rfl⟩, s5, c5, ⟨c6, h3, rfl⟩, s6, c7, h4, h5⟩ := hmat
    obtain ⟨a, ha, rfl, rfl⟩ := attrRe_mat.1 h2
    obtain ⟨op, hop, rfl, rfl⟩ := opRe_mat h3
    obtain ⟨sp3, v, sp4, hsp3, hv, hnl, hsp4, rfl, rfl⟩ := valueRe_mat h5
    obtain ⟨⟨o1, o2⟩, ho, rfl⟩ := List.mem_map.1 hop
    have hn := normalizeOp_spec _ ho
    simp only [Option.some.injEq, Prod.mk.injEq] at hk
    obtain ⟨rfl, rfl⟩ := hk
    rcases h4 with ⟨c8, h6, rfl⟩ | ⟨rfl, rfl⟩
    · obtain ⟨r, hr, rfl, rfl⟩ := refRe_mat.1 h6
      have e : ('{' :: (r ++ '}' :: (sp3 ++ v ++ sp4))) = ('{' :: (r ++ ['}'])) ++ (sp3 ++ v ++ sp4) := by simp
      refine ⟨sp1, sp2, o1, '{' :: r ++ ['}'], sp3, sp4, hsp1, hsp2, hsp3, hsp4, ?_, ?_, .inr ⟨r, ?_, hr, rfl⟩, ?_, ?_, ?_⟩
      · simpa [Caps.get] using ha
      · simpa [Caps.get, hn] using ho
      · rw [e, take_sub_length]; simpa [Caps.get] using stripBraces_ref hr
      · simpa [Caps.get] using hv
      · simpa [Caps.get] using hnl
      · simp [Caps.get]
    · refine ⟨sp1, sp2, o1, [], sp3, sp4, hsp1, hsp2, hsp3, hsp4, ?_, ?_, .inl ⟨?_, rfl⟩, ?_, ?_, ?_⟩
      · simpa [Caps.get] using ha
      · simpa [Caps.get, hn] using ho
      · simp [Caps.get]
      · simpa [Caps.get] using hv
      · simpa [Caps.get] using hnl
      · simp [Caps.get]

/-- C05: `>` and `+` (and `<` and `-`, with or without `=`) are interchangeable. -/
theorem C05_spellings (a v op1 op2 d : Str) (ha : AttrName cc a) (h1 : (op1, d) ∈ operators) (h2 : (op2, d) ∈ operators)
    (hv : PlainValue cc v) (heq : v.head? ≠ some '=') (hbrace : v.head? ≠ some '{') :
    splitTest cc (a ++ op1 ++ v) = splitTest cc (a ++ op2 ++ v) := by
  have href : ∀ r rest, (r = [] ∨ AttrName cc r) → rest ≠ [] → v ≠ '{' :: r ++ '}' :: rest := by
    rintro r rest _ _ rfl; simp at hbrace
  have e1 := C05_roundtrip_partial (cc := cc) [] a [] op1 d [] v (by intro x hx; cases hx) ha (by intro x hx; cases hx) h1 (by intro x hx; cases hx) hv (fun _ _ => heq) (fun _ => href)
  have e2 := C05_roundtrip_partial (cc := cc) [] a [] op2 d [] v (by intro x hx; cases hx) ha (by intro x hx; cases hx) h2 (by intro x hx; cases hx) hv (fun _ _ => heq) (fun _ => href)
  simp only [List.nil_append, List.append_nil] at e1 e2
  rw [e1, e2]

/-- C05 fails for values containing a newline, which file names may: `name=a⏎b` is refused. -/
theorem C05_false : splitTest asciiClass "name=a\nb".toList = none := by decide

/-- An '=' right after an ordering operator is not lost when nothing follows it: `size+=` means "greater than '='". -/
theorem C05_quirk : splitTest asciiClass "size+=".toList = some { attr := "size".toList, op := "+".toList, ref := none, value := "=".toList } := by decide

example : splitTest asciiClass "file.size >= 10k".toList = some { attr := "file.size".toList, op := "+=".toList, ref := none, value := "10k".toList } := by decide
example : splitTest asciiClass "time>{file.mtime}a b".toList = some { attr := "time".toList, op := "+".toList, ref := some "file.mtime".toList, value := "a b".toList } := by decide
example : AttrName asciiClass "file.size".toList ∧ PlainValue asciiClass "{x} = *.py ".toList :=
  ⟨.inr ⟨"file".toList, "size".toList, by decide, by decide, by decide, by decide, by decide⟩, ⟨⟨_, _, rfl, by decide⟩, by decide⟩⟩

end FF
