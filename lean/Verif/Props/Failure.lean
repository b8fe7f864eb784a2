import Verif.Model.Failure
import Verif.Spec.Failure
import Verif.Lemmas.ParserFail
import Verif.Props.Whole
import Verif.Props.OutputFile
/-! Property C99: what the exit status tells about a run that ends before the search. -/
namespace FF
open Spec

/-! ### Fields -/

theorem attributeType_provides {reg : List PluginDef} {p a : Str} : (∃ ty, attributeType reg (p, a) = some ty) ↔ Provides reg p a := by
  unfold attributeType
  constructor
  · rintro ⟨ty, h⟩
    cases hf : (attributeTable reg).find? (fun r => decide (r.1 = (p, a))) with
    | none => rw [hf] at h; cases h
    | some x =>
      have h1 := List.find?_some hf
      have h2 := List.mem_of_find?_eq_some hf
      obtain ⟨b, t⟩ := x
      simp only [decide_eq_true_eq] at h1
      subst h1
      obtain ⟨q, hq, e, hm⟩ := mem_attributeTable.1 h2
      exact ⟨q, hq, e, t, hm⟩
  · rintro ⟨q, hq, e, ty, hm⟩
    have : ((p, a), ty) ∈ attributeTable reg := mem_attributeTable.2 ⟨q, hq, e, hm⟩
    cases hf : (attributeTable reg).find? (fun r => decide (r.1 = (p, a))) with
    | none => exact absurd (List.find?_eq_none.1 hf _ this) (by simp)
    | some x => exact ⟨x.2, rfl⟩

theorem dot_split {s : Str} (h : '.' ∈ s) : ∃ p a, s = p ++ '.' :: a ∧ '.' ∉ p := by
  induction s with
  | nil => cases h
  | cons c s ih =>
    by_cases hc : c = '.'
    · exact ⟨[], s, by simp [hc], by simp⟩
    · have : '.' ∈ s := by simpa [Ne.symm hc] using h
      obtain ⟨p, a, e, hp⟩ := ih this
      exact ⟨c :: p, a, by simp [e], by simp [hp, Ne.symm hc]⟩

/-- The names of attributes that are accepted. -/
theorem known_iff {reg : List PluginDef} {n : Str} : (∃ a ty, setupAttribute reg n = some a ∧ attributeType reg a = some ty) ↔ Known reg n := by
  constructor
  · rintro ⟨⟨p, a⟩, ty, h1, h2⟩
    have hp := attributeType_provides.1 ⟨ty, h2⟩
    by_cases hd : '.' ∈ n
    · obtain ⟨p', a', rfl, hp'⟩ := dot_split hd
      obtain ⟨e, _⟩ := (C49_qualified reg hp' _).1 h1
      cases e
      exact .inl ⟨p, a, rfl, hp', hp⟩
    · obtain ⟨rfl, h3, h4⟩ := (C49_unqualified reg hd p a).1 h1
      exact .inr ⟨hd, p, h3, h4⟩
  · rintro (⟨p, a, rfl, hp, h⟩ | ⟨hd, p, h1, h2⟩)
    · obtain ⟨ty, ht⟩ := attributeType_provides.2 h
      obtain ⟨q, hq, e, _⟩ := h
      exact ⟨_, ty, (C49_qualified reg hp _).2 ⟨rfl, q, hq, e⟩, ht⟩
    · obtain ⟨ty, ht⟩ := attributeType_provides.2 h1
      exact ⟨_, ty, (C49_unqualified reg hd p n).2 ⟨rfl, h1, h2⟩, ht⟩

theorem fieldFail_cases (reg : List PluginDef) (w : Str) :
    (fieldFail reg w = some .usage ∧ ∀ n, ¬ FieldNames w n) ∨ (fieldFail reg w = some .attribute ∧ NamesUnknown reg w) ∨
    (fieldFail reg w = none ∧ NamesKnown reg w) := by
  unfold fieldFail
  cases hs : splitField w with
  | none =>
    refine .inl ⟨rfl, ?_⟩
    rintro n ⟨wd, m, h⟩
    rw [← C64_syntax, hs] at h; cases h
  | some x =>
    obtain ⟨n, wd, m⟩ := x
    have hn : FieldNames w n := ⟨wd, m, (C64_syntax ..).1 hs⟩
    right
    by_cases hk : Known reg n
    · obtain ⟨a, ty, h1, h2⟩ := known_iff.2 hk
      exact .inr ⟨by simp [h1, h2], n, hn, hk⟩
    · refine .inl ⟨?_, n, hn, hk⟩
      cases h1 : setupAttribute reg n with
      | none => simp [h1]
      | some a =>
        cases h2 : attributeType reg a with
        | none => simp [h1, h2]
        | some ty => exact absurd (known_iff.1 ⟨a, ty, h1, h2⟩) hk

/-- A word is a field of at most one attribute. -/
theorem fieldNames_unique {w n n' : Str} (h : FieldNames w n) (h' : FieldNames w n') : n = n' := by
  obtain ⟨a, b, h⟩ := h
  obtain ⟨c, d, h'⟩ := h'
  rw [← C64_syntax] at h h'
  rw [h] at h'; cases h'; rfl

/-- C99: a word given as a field is an error of usage if it is not written like a field, an error of the attribute if there is no such attribute,
and no error otherwise. -/
theorem C99_field (reg : List PluginDef) (w : Str) :
    (fieldFail reg w = some .usage ↔ ∀ n, ¬ FieldNames w n) ∧ (fieldFail reg w = some .attribute ↔ NamesUnknown reg w) ∧
    (fieldFail reg w = none ↔ NamesKnown reg w) ∧ fieldFail reg w ≠ some .expression ∧ fieldFail reg w ≠ some .crash := by
  have hun : NamesUnknown reg w → NamesKnown reg w → False := by
    rintro ⟨n, h1, h2⟩ ⟨n', h3, h4⟩
    exact h2 (fieldNames_unique h1 h3 ▸ h4)
  rcases fieldFail_cases reg w with ⟨h, h'⟩ | ⟨h, h'⟩ | ⟨h, h'⟩ <;> rw [h] <;> simp
  · exact ⟨h', fun ⟨n, hn, _⟩ => h' n hn, fun ⟨n, hn, _⟩ => h' n hn⟩
  · exact ⟨⟨h'.choose, h'.choose_spec.1⟩, h', fun hk => hun h' hk⟩
  · exact ⟨⟨h'.choose, h'.choose_spec.1⟩, fun hu => hun hu h', h'⟩

theorem makeField_fail {reg : List PluginDef} {w : Str} : fieldFail reg w = none ↔ (makeField reg w).isSome = true := by
  unfold fieldFail makeField
  cases splitField w with
  | none => simp
  | some x =>
    obtain ⟨n, wd, m⟩ := x
    simp only
    cases setupAttribute reg n with
    | none => simp
    | some a => cases h : attributeType reg a <;> simp [h]

theorem findSome_none_mapOption {α β γ : Type} {f : α → Option β} {g : α → Option γ} (h : ∀ x, f x = none ↔ (g x).isSome = true) (l : List α) :
    l.findSome? f = none ↔ (mapOption g l).isSome = true := by
  induction l with
  | nil => simp [mapOption]
  | cons x xs ih =>
    simp only [List.findSome?_cons, mapOption]
    cases hf : f x with
    | some b =>
      have : g x = none := by
        cases hg : g x with
        | none => rfl
        | some c => exact absurd ((h x).2 (by simp [hg])) (by simp [hf])
      simp [this]
    | none =>
      obtain ⟨c, hc⟩ := Option.isSome_iff_exists.1 ((h x).1 hf)
      simp only [hc, ih]
      cases mapOption g xs <;> simp

theorem outputFail_none {reg : List PluginDef} {ws : List Str} : outputFail reg ws = none ↔ (outputFields reg ws).isSome = true :=
  findSome_none_mapOption (fun _ => makeField_fail) ws

theorem countFail_none {reg : List PluginDef} {ws : List Str} : countFail reg ws = none ↔ (countFields reg ws).isSome = true := by
  unfold countFail
  cases h : outputFail reg ws with
  | some f =>
    have : outputFields reg ws = none := by
      cases ho : outputFields reg ws with
      | none => rfl
      | some x => exact absurd ((outputFail_none (reg := reg) (ws := ws)).2 (by simp [ho])) (by simp [h])
    simp [countFields, this]
  | none => simp only; cases countFields reg ws <;> simp

theorem partFail_none {reg : List PluginDef} {p : Str} : partFail reg p = none ↔ (replacePart reg p).isSome = true := by
  unfold partFail replacePart
  repeat' (split; · simp [makeField_fail])
  simp

theorem wordFail_none {reg : List PluginDef} {w : Str} : wordFail reg w = none ↔ (templateWord reg w).isSome = true :=
  findSome_none_mapOption (fun _ => partFail_none) _

theorem execFail_none {reg : List PluginDef} {ws : List Str} : execFail reg ws = none ↔ (execFields reg ws).isSome = true := by
  have hw := findSome_none_mapOption (f := wordFail reg) (g := templateWord reg) (fun _ => wordFail_none) ws
  unfold execFail
  cases h : ws.findSome? (wordFail reg) with
  | some f =>
    have : mapOption (templateWord reg) ws = none := by
      cases ho : mapOption (templateWord reg) ws with
      | none => rfl
      | some x => exact absurd (hw.2 (by simp [ho])) (by simp [h])
    simp [execFields, this]
  | none =>
    obtain ⟨fs, hfs⟩ := Option.isSome_iff_exists.1 (hw.1 h)
    simp only
    cases he : execFields reg ws with
    | some x => simp
    | none =>
      simp only [Option.isNone_none, if_true, Option.isSome_none, Bool.false_eq_true, iff_false]
      unfold execFields at he
      rw [hfs] at he
      simp only at he
      split at he
      · cases he
      · rw [makeField_fail]
        cases hm : makeField reg "file.path".toList with
        | none => simp
        | some f => rw [hm] at he; cases he

theorem execBatchFail_none {reg : List PluginDef} {ws : List Str} : execBatchFail reg ws = none ↔ (execBatchFields reg ws).isSome = true := by
  unfold execBatchFail
  cases h : execFail reg ws with
  | some f =>
    have : execFields reg ws = none := by
      cases ho : execFields reg ws with
      | none => rfl
      | some x => exact absurd ((execFail_none (reg := reg) (ws := ws)).2 (by simp [ho])) (by simp [h])
    simp [execBatchFields, this]
  | none => simp only; cases execBatchFields reg ws <;> simp

theorem optFail_none {α : Type} {f : List Str → Option Fail} {g : List Str → Option α} (h : ∀ ws, f ws = none ↔ (g ws).isSome = true) (o : Option (List Str)) :
    o.bind f = none ↔ (optFields g o).isSome = true := by
  cases o with
  | none => simp [optFields]
  | some ws => simp [optFields, h]

theorem planFail_none {reg : List PluginDef} {s : Settings} : s.planFail reg = none ↔ (s.plan reg).isSome = true := by
  have h1 := outputFail_none (reg := reg) (ws := expandFile reg s.output)
  have h2 := optFail_none (fun ws => outputFail_none (reg := reg) (ws := ws)) s.sort
  have h3 := optFail_none (fun ws => countFail_none (reg := reg) (ws := ws)) s.fargs.count
  have h4 := optFail_none (fun ws => execFail_none (reg := reg) (ws := ws)) s.exec
  have h5 := optFail_none (fun ws => execBatchFail_none (reg := reg) (ws := ws)) s.execBatch
  unfold Settings.planFail Settings.plan
  generalize outputFail reg (expandFile reg s.output) = a1 at *
  generalize outputFields reg (expandFile reg s.output) = b1 at *
  generalize s.sort.bind (outputFail reg) = a2 at *
  generalize optFields (outputFields reg) s.sort = b2 at *
  generalize s.fargs.count.bind (countFail reg) = a3 at *
  generalize optFields (countFields reg) s.fargs.count = b3 at *
  generalize s.exec.bind (execFail reg) = a4 at *
  generalize optFields (execFields reg) s.exec = b4 at *
  generalize s.execBatch.bind (execBatchFail reg) = a5 at *
  generalize optFields (execBatchFields reg) s.execBatch = b5 at *
  cases a1 <;> cases b1 <;> simp at h1 ⊢
  cases a2 <;> cases b2 <;> simp at h2 ⊢
  cases a3 <;> cases b3 <;> simp at h3 ⊢
  cases a4 <;> cases b4 <;> simp at h4 ⊢
  cases a5 <;> cases b5 <;> simp at h5 ⊢

/-! ### Tests -/

/-- A test of an attribute of this type. -/
structure OfType (S : SearchEnv) (word : Str) (t : TestExpr) (a : Attr) (ty : Ty) : Prop where
  text : splitTest S.cc word = some t
  attr : setupAttribute S.reg t.attr = some a
  type : attributeType S.reg a = some ty

/-- The value that a test compares with: what is written there, or the attribute of the file that is referred to. -/
def SearchEnv.compared (S : SearchEnv) (t : TestExpr) (a : Attr) (ty : Ty) : Option Val :=
  match t.ref with
  | none => ty.input S.tests t.value
  | some r => S.referenceValue ty a r t.value

theorem testInput_compared (S : SearchEnv) (t : TestExpr) (a : Attr) (ty : Ty) :
    testInput S.tests ty (t.ref.map (fun r => S.referenceValue ty a r t.value)) t.value = S.compared t a ty := by
  unfold testInput SearchEnv.compared
  cases t.ref <;> rfl

/-- The value is none of the file types, or not a regular expression. -/
def WrongValue (S : SearchEnv) (t : TestExpr) (ty : Ty) (v : Val) : Prop :=
  (ty = .fileType ∧ ∀ s ∈ fileTypeChoices, v ≠ .str s) ∨
  (ty.stringType = true ∧ t.op = ['~'] ∧ ∃ s, v = .str s ∧ S.tests.compile (if ignoresCase S.tests.low S.case s then S.tests.low s else s) = none)

theorem createTest_kinds (S : SearchEnv) (t : TestExpr) (a : Attr) (ty : Ty) (r : Except TestErr Test)
    (hr : createTest S.tests S.case ty t.op (t.ref.map (fun r => S.referenceValue ty a r t.value)) t.value = r) :
    (t.op ∉ ty.operators ∧ r = .error .operator) ∨ (t.op ∈ ty.operators ∧ S.compared t a ty = none ∧ r = .error .value) ∨
    (t.op ∈ ty.operators ∧ ∃ v, S.compared t a ty = some v ∧ WrongValue S t ty v ∧ (r = .error .choice ∨ r = .error .regex)) ∨
    (t.op ∈ ty.operators ∧ ∃ v, S.compared t a ty = some v ∧ ¬ WrongValue S t ty v ∧ ty.stringType = true ∧ (∀ s, v ≠ .str s) ∧ r = .error .crash) ∨
    (t.op ∈ ty.operators ∧ ∃ v, S.compared t a ty = some v ∧ ¬ WrongValue S t ty v ∧ (ty.stringType = true → ∃ s, v = .str s) ∧ ∃ x, r = .ok x) := by
  unfold createTest at hr
  rw [testInput_compared] at hr
  by_cases hop : t.op ∉ ty.operators
  · rw [if_pos hop] at hr; exact .inl ⟨hop, hr.symm⟩
  rw [if_neg hop] at hr
  replace hop : t.op ∈ ty.operators := by simpa using hop
  cases hv : S.compared t a ty with
  | none => rw [hv] at hr; exact .inr (.inl ⟨hop, rfl, hr.symm⟩)
  | some v =>
    rw [hv] at hr
    simp only at hr
    by_cases hc : ty = .fileType ∧ ∀ s ∈ fileTypeChoices, v ≠ .str s
    · rw [if_pos hc] at hr
      exact .inr (.inr (.inl ⟨hop, v, rfl, .inl hc, .inl hr.symm⟩))
    · rw [if_neg hc] at hr
      by_cases hs : ty.stringType = true
      · rw [if_pos hs] at hr
        cases v with
        | str s =>
          simp only at hr
          by_cases ho : t.op = ['~']
          · rw [if_pos ho] at hr
            cases hm : S.tests.compile (if ignoresCase S.tests.low S.case s then S.tests.low s else s) with
            | none =>
              rw [hm] at hr
              exact .inr (.inr (.inl ⟨hop, _, rfl, .inr ⟨hs, ho, s, rfl, hm⟩, .inr hr.symm⟩))
            | some f =>
              rw [hm] at hr
              refine .inr (.inr (.inr (.inr ⟨hop, _, rfl, ?_, fun _ => ⟨s, rfl⟩, _, hr.symm⟩)))
              rintro (h | ⟨_, _, s', e, h⟩)
              · exact hc h
              · cases e; rw [hm] at h; cases h
          · rw [if_neg ho] at hr
            refine .inr (.inr (.inr (.inr ⟨hop, _, rfl, ?_, fun _ => ⟨s, rfl⟩, ?_⟩)))
            · rintro (h | ⟨_, h, _⟩)
              · exact hc h
              · exact ho h
            · split at hr <;> exact ⟨_, hr.symm⟩
        | _ =>
          refine .inr (.inr (.inr (.inl ⟨hop, _, rfl, ?_, hs, by simp, hr.symm⟩)))
          rintro (h | ⟨_, _, s', e, h⟩)
          · exact hc h
          · cases e
      · rw [if_neg hs] at hr
        refine .inr (.inr (.inr (.inr ⟨hop, _, rfl, ?_, fun h => absurd h hs, _, hr.symm⟩)))
        rintro (h | ⟨h, _⟩)
        · exact hc h
        · exact hs h

/-- All that can become of a word that is parsed as a test. -/
theorem parseTest_kinds (S : SearchEnv) (word : Str) :
    (splitTest S.cc word = none ∧ S.parseTest word = .error (.badTest .expression)) ∨
    (∃ t, splitTest S.cc word = some t ∧ ¬ Known S.reg t.attr ∧ S.parseTest word = .error (.badTest .attribute)) ∨
    ∃ t a ty, OfType S word t a ty ∧ Known S.reg t.attr ∧
      ((t.op ∉ ty.operators ∧ S.parseTest word = .error (.badTest .expression)) ∨
       (t.op ∈ ty.operators ∧ S.compared t a ty = none ∧ S.parseTest word = .error (.badTest .usage)) ∨
       (t.op ∈ ty.operators ∧ ∃ v, S.compared t a ty = some v ∧ WrongValue S t ty v ∧ S.parseTest word = .error (.badTest .expression)) ∨
       (t.op ∈ ty.operators ∧ ∃ v, S.compared t a ty = some v ∧ ¬ WrongValue S t ty v ∧ ty.stringType = true ∧ (∀ s, v ≠ .str s) ∧
          S.parseTest word = .error (.badTest .crash)) ∨
       (t.op ∈ ty.operators ∧ ∃ v, S.compared t a ty = some v ∧ ¬ WrongValue S t ty v ∧ (ty.stringType = true → ∃ s, v = .str s) ∧
          ∃ x, S.parseTest word = .ok (a, x))) := by
  unfold SearchEnv.parseTest
  cases hs : splitTest S.cc word with
  | none => exact .inl ⟨rfl, rfl⟩
  | some t =>
    right
    simp only
    by_cases hk : Known S.reg t.attr
    · obtain ⟨a, ty, h1, h2⟩ := known_iff.2 hk
      refine .inr ⟨t, a, ty, ⟨hs, h1, h2⟩, hk, ?_⟩
      simp only [h1, h2]
      rcases createTest_kinds S t a ty _ rfl with ⟨e1, e2⟩ | ⟨e1, e2, e3⟩ | ⟨e1, v, e2, e3, e4⟩ | ⟨e1, v, e2, e3, e4, e5, e6⟩ | ⟨e1, v, e2, e3, e4, x, e5⟩
      · exact .inl ⟨e1, by rw [e2]; rfl⟩
      · exact .inr (.inl ⟨e1, e2, by rw [e3]; rfl⟩)
      · refine .inr (.inr (.inl ⟨e1, v, e2, e3, ?_⟩))
        rcases e4 with e4 | e4 <;> rw [e4] <;> rfl
      · exact .inr (.inr (.inr (.inl ⟨e1, v, e2, e3, e4, e5, by rw [e6]; rfl⟩)))
      · exact .inr (.inr (.inr (.inr ⟨e1, v, e2, e3, e4, x, by rw [e5]⟩)))
    · refine .inl ⟨t, rfl, hk, ?_⟩
      cases h1 : setupAttribute S.reg t.attr with
      | none => rfl
      | some a =>
        cases h2 : attributeType S.reg a with
        | none => simp [h2]
        | some ty => exact absurd (known_iff.1 ⟨a, ty, h1, h2⟩) hk

theorem OfType.unique {S : SearchEnv} {word : Str} {t t' : TestExpr} {a a' : Attr} {ty ty' : Ty} (h : OfType S word t a ty) (h' : OfType S word t' a' ty') :
    t = t' ∧ a = a' ∧ ty = ty' := by
  have e1 : t = t' := by have := h.text; rw [h'.text] at this; cases this; rfl
  subst e1
  have e2 : a = a' := by have := h.attr; rw [h'.attr] at this; cases this; rfl
  subst e2
  have e3 : ty = ty' := by have := h.type; rw [h'.type] at this; cases this; rfl
  exact ⟨rfl, rfl, e3⟩

/-- C99: a word that is parsed as a test is an error of the attribute exactly if it is a test of an attribute that does not exist. -/
theorem C99_test_attribute (S : SearchEnv) (word : Str) :
    S.parseTest word = .error (.badTest .attribute) ↔ ∃ t, splitTest S.cc word = some t ∧ ¬ Known S.reg t.attr := by
  rcases parseTest_kinds S word with ⟨h, e⟩ | ⟨t, h, hk, e⟩ | ⟨t, a, ty, ho, hk, h⟩
  · simp [e, h]
  · simp only [e, true_iff]; exact ⟨t, h, hk⟩
  · have hn : ¬ ∃ t, splitTest S.cc word = some t ∧ ¬ Known S.reg t.attr := by
      rintro ⟨t', h1, h2⟩
      rw [ho.text] at h1; cases h1; exact h2 hk
    simp only [hn, iff_false]
    rcases h with ⟨_, e⟩ | ⟨_, _, e⟩ | ⟨_, v, _, _, e⟩ | ⟨_, v, _, _, _, _, e⟩ | ⟨_, v, _, _, _, x, e⟩ <;> rw [e] <;> simp

/-- C99: it is an error of the test exactly if it is not written like a test, or the type of the attribute does not have the operator, or it does not
have the value, or the value is not a regular expression. -/
theorem C99_test_expression (S : SearchEnv) (word : Str) :
    S.parseTest word = .error (.badTest .expression) ↔ splitTest S.cc word = none ∨
      ∃ t a ty, OfType S word t a ty ∧ (t.op ∉ ty.operators ∨ ∃ v, S.compared t a ty = some v ∧ WrongValue S t ty v) := by
  rcases parseTest_kinds S word with ⟨h, e⟩ | ⟨t, h, hk, e⟩ | ⟨t, a, ty, ho, hk, h⟩
  · simp [e, h]
  · have hn : ¬ ∃ t a ty, OfType S word t a ty ∧ (t.op ∉ ty.operators ∨ ∃ v, S.compared t a ty = some v ∧ WrongValue S t ty v) := by
      rintro ⟨t', a, ty, h1, _⟩
      have := h1.text; rw [h] at this; cases this
      exact hk (known_iff.1 ⟨a, ty, h1.attr, h1.type⟩)
    simp only [e, h, hn]; simp
  · have hu : (∃ t a ty, OfType S word t a ty ∧ (t.op ∉ ty.operators ∨ ∃ v, S.compared t a ty = some v ∧ WrongValue S t ty v)) ↔
        (t.op ∉ ty.operators ∨ ∃ v, S.compared t a ty = some v ∧ WrongValue S t ty v) := by
      constructor
      · rintro ⟨t', a', ty', h1, h2⟩
        obtain ⟨rfl, rfl, rfl⟩ := ho.unique h1
        exact h2
      · exact fun h => ⟨t, a, ty, ho, h⟩
    rw [hu, ho.text]
    rcases h with ⟨h1, e⟩ | ⟨h1, h2, e⟩ | ⟨h1, v, h2, h3, e⟩ | ⟨h1, v, h2, h3, _, _, e⟩ | ⟨h1, v, h2, h3, _, x, e⟩ <;> rw [e] <;> simp [*]

/-- C99: it is an error of usage exactly if the value cannot be read, or cannot be obtained from the file that is referred to. -/
theorem C99_test_usage (S : SearchEnv) (word : Str) :
    S.parseTest word = .error (.badTest .usage) ↔ ∃ t a ty, OfType S word t a ty ∧ t.op ∈ ty.operators ∧ S.compared t a ty = none := by
  rcases parseTest_kinds S word with ⟨h, e⟩ | ⟨t, h, hk, e⟩ | ⟨t, a, ty, ho, hk, h⟩
  · have hn : ¬ ∃ t a ty, OfType S word t a ty ∧ t.op ∈ ty.operators ∧ S.compared t a ty = none := by
      rintro ⟨t, a, ty, h1, _⟩
      have := h1.text; rw [h] at this; cases this
    simp only [e, hn]; simp
  · have hn : ¬ ∃ t a ty, OfType S word t a ty ∧ t.op ∈ ty.operators ∧ S.compared t a ty = none := by
      rintro ⟨t', a, ty, h1, _⟩
      have := h1.text; rw [h] at this; cases this
      exact hk (known_iff.1 ⟨a, ty, h1.attr, h1.type⟩)
    simp only [e, hn]; simp
  · have hu : (∃ t a ty, OfType S word t a ty ∧ t.op ∈ ty.operators ∧ S.compared t a ty = none) ↔ (t.op ∈ ty.operators ∧ S.compared t a ty = none) := by
      constructor
      · rintro ⟨t', a', ty', h1, h2⟩
        obtain ⟨rfl, rfl, rfl⟩ := ho.unique h1
        exact h2
      · exact fun h => ⟨t, a, ty, ho, h⟩
    rw [hu]
    rcases h with ⟨h1, e⟩ | ⟨h1, h2, e⟩ | ⟨h1, v, h2, h3, e⟩ | ⟨h1, v, h2, h3, _, _, e⟩ | ⟨h1, v, h2, h3, _, x, e⟩ <;> rw [e] <;> simp [*]

theorem parseTest_error {S : SearchEnv} {word : Str} {e : PErr} (h : S.parseTest word = .error e) : ∃ f, e = .badTest f := by
  rcases parseTest_kinds S word with ⟨_, e'⟩ | ⟨t, _, _, e'⟩ | ⟨t, a, ty, _, _, h'⟩
  · rw [e'] at h; cases h; exact ⟨_, rfl⟩
  · rw [e'] at h; cases h; exact ⟨_, rfl⟩
  · rcases h' with ⟨_, e'⟩ | ⟨_, _, e'⟩ | ⟨_, v, _, _, e'⟩ | ⟨_, v, _, _, _, _, e'⟩ | ⟨_, v, _, _, _, x, e'⟩ <;> rw [e'] at h <;> cases h <;> exact ⟨_, rfl⟩

/-- C99: an expression gives the error of its first test that is not accepted. -/
theorem C99_first (S : SearchEnv) (other : Fail) {ts : List Str} {f : Formula} (h : Derives .disj ts f) {as bs : List Str} {t : Str} {k : Fail}
    (h1 : f.atoms = as ++ t :: bs) (h2 : ∀ a ∈ as, ∃ x, S.parseTest a = .ok x) (h3 : S.parseTest t = .error (.badTest k)) :
    parserFail S other ts = some k := by
  unfold parserFail
  rw [parse_fail S.parseTest h h1 h2 h3]
  rfl

theorem parserFail_bad {S : SearchEnv} {other k : Fail} {ts : List Str} (hk : k ≠ other) (h : parserFail S other ts = some k) :
    ∃ t ∈ ts, Word t ∧ S.parseTest t = .error (.badTest k) := by
  unfold parserFail at h
  cases hp : parse S.parseTest ts with
  | ok x => rw [hp] at h; cases h
  | error e =>
    rw [hp] at h
    simp only [Option.some.injEq] at h
    cases e with
    | badTest f => simp only [PErr.fail] at h; subst h; exact parse_bad_test _ hp
    | _ => exact absurd h.symm hk

/-! ### Commands -/

theorem placeholderSplit_in : ∀ (fuel : Nat) (s cur p : Str), p ∈ placeholderSplit cur fuel s → ∃ a b, cur ++ s = a ++ p ++ b := by
  intro fuel
  induction fuel with
  | zero =>
    intro s cur p h
    simp only [placeholderSplit, List.mem_singleton] at h
    exact ⟨[], s, by simp [h]⟩
  | succ fuel ih =>
    intro s cur p h
    cases s with
    | nil =>
      simp only [placeholderSplit, List.mem_singleton] at h
      exact ⟨[], [], by simp [h]⟩
    | cons x xs =>
      rw [placeholderSplit] at h
      split at h
      · obtain ⟨a, b, e⟩ := ih _ _ _ h
        exact ⟨a, b, by simpa using e⟩
      · simp only [List.mem_cons] at h
        rcases h with rfl | rfl | h
        · exact ⟨[], x :: xs, by simp⟩
        · exact ⟨cur, (x :: xs).drop (placeholderLen (x :: xs)), by rw [List.append_assoc, List.take_append_drop]⟩
        · obtain ⟨a, b, e⟩ := ih _ _ _ h
          refine ⟨cur ++ (x :: xs).take (placeholderLen (x :: xs)) ++ a, b, ?_⟩
          simp only [List.nil_append] at e
          conv => lhs; rw [← List.take_append_drop (placeholderLen (x :: xs)) (x :: xs), e]
          simp

theorem findSome_some {α β : Type} {f : α → Option β} {l : List α} {b : β} (h : l.findSome? f = some b) : ∃ x ∈ l, f x = some b := by
  induction l with
  | nil => cases h
  | cons x xs ih =>
    rw [List.findSome?_cons] at h
    cases hf : f x with
    | some c => rw [hf] at h; simp only [Option.some.injEq] at h; subst h; exact ⟨x, by simp, hf⟩
    | none => rw [hf] at h; obtain ⟨y, hy, e⟩ := ih h; exact ⟨y, by simp [hy], e⟩

set_option maxRecDepth 20000 in
theorem file_known {reg : List PluginDef} (hf : filePlugin ∈ reg) {w : Str}
    (h : w ∈ ["file.path".toList, "file.name".toList, "file.dir".toList, "file.pathx".toList, "file.namex".toList, "file.ext".toList]) : fieldFail reg w = none := by
  have key : ∀ a, (∃ ty, (a, ty) ∈ filePlugin.attrs) → ∀ w, splitField w = some ("file".toList ++ '.' :: a, none, none) → fieldFail reg w = none := by
    rintro a ⟨ty, ha⟩ w hw
    obtain ⟨b, t, h1, h2⟩ := known_iff.2 (.inl ⟨"file".toList, a, rfl, by decide, filePlugin, hf, rfl, ty, ha⟩ : Known reg ("file".toList ++ '.' :: a))
    unfold fieldFail
    rw [hw]
    simp only [h1, h2]
  simp only [List.mem_cons, List.not_mem_nil, or_false] at h
  rcases h with rfl | rfl | rfl | rfl | rfl | rfl
  · exact key "path".toList ⟨.path, by decide⟩ _ (by decide)
  · exact key "name".toList ⟨.string, by decide⟩ _ (by decide)
  · exact key "dir".toList ⟨.path, by decide⟩ _ (by decide)
  · exact key "pathx".toList ⟨.path, by decide⟩ _ (by decide)
  · exact key "namex".toList ⟨.path, by decide⟩ _ (by decide)
  · exact key "ext".toList ⟨.string, by decide⟩ _ (by decide)

theorem partFail_some {reg : List PluginDef} (hf : filePlugin ∈ reg) {p : Str} {k : Fail} (h : partFail reg p = some k) :
    ∃ w, p = '{' :: w ++ ['}'] ∧ fieldFail reg w = some k := by
  have hn : ∀ w, w ∈ ["file.path".toList, "file.name".toList, "file.dir".toList, "file.pathx".toList, "file.namex".toList, "file.ext".toList] →
      fieldFail reg w ≠ some k := by
    intro w hw; rw [file_known hf hw]; simp
  unfold partFail at h
  split at h; · cases h
  split at h; · cases h
  split at h; · exact absurd h (hn _ (by simp))
  split at h; · exact absurd h (hn _ (by simp))
  split at h; · exact absurd h (hn _ (by simp))
  split at h; · exact absurd h (hn _ (by simp))
  split at h; · exact absurd h (hn _ (by simp))
  split at h; · exact absurd h (hn _ (by simp))
  split at h
  · rename_i hb
    refine ⟨_, ?_, h⟩
    cases p with
    | nil => simp at hb
    | cons c q =>
      have h1 : c = '{' := by simpa using hb.1
      subst h1
      rcases List.eq_nil_or_concat q with rfl | ⟨q', d, rfl⟩
      · simp at hb
      · have h2 := hb.2
        rw [List.concat_eq_append] at h2 ⊢
        rw [← List.cons_append, List.getLast?_concat] at h2
        have : d = '}' := by simpa using h2
        subst this
        simp
  · cases h

theorem execFail_some {reg : List PluginDef} (hf : filePlugin ∈ reg) {ws : List Str} {k : Fail} (h : execFail reg ws = some k) :
    ∃ w, InBraces ws w ∧ fieldFail reg w = some k := by
  unfold execFail at h
  cases hw : ws.findSome? (wordFail reg) with
  | some f =>
    rw [hw] at h
    simp only [Option.some.injEq] at h
    subst h
    obtain ⟨w, hm, h1⟩ := findSome_some hw
    obtain ⟨p, hp, h2⟩ := findSome_some h1
    obtain ⟨x, rfl, h3⟩ := partFail_some hf h2
    obtain ⟨a, b, e⟩ := placeholderSplit_in _ _ _ _ (List.mem_filter.1 hp).1
    exact ⟨x, ⟨w, hm, a, b, by simpa using e⟩, h3⟩
  | none =>
    rw [hw] at h
    simp only at h
    split at h
    · rw [file_known hf (by simp)] at h; cases h
    · cases h

/-! ### The fields of a run -/

/-- The word is given as a field: in `--output`, `--sort` or `--count`, or in braces in a command. -/
def GivenField (s : Settings) (w : Str) : Prop :=
  w ∈ s.output ∨ w ∈ s.sort.getD [] ∨ w ∈ s.fargs.count.getD [] ∨ InBraces (s.exec.getD []) w ∨ InBraces (s.execBatch.getD []) w

theorem expandFile_fail {reg : List PluginDef} (hf : filePlugin ∈ reg) (hr : Regular reg) {ws : List Str} {w : Str} (h : w ∈ expandFile reg ws)
    (hw : fieldFail reg w ≠ none) : w ∈ ws := by
  induction ws with
  | nil => cases h
  | cons v ws ih =>
    unfold expandFile at h
    split at h
    · rcases List.mem_append.1 h with h | h
      · obtain ⟨a, ha, rfl⟩ := List.mem_map.1 h
        obtain ⟨f, h1, _⟩ := makeField_file hf ((fileAttributes_perm hf hr.names).subset ha)
        exact absurd (makeField_fail.2 (by rw [h1]; rfl)) hw
      · exact List.mem_cons_of_mem _ h
    · rcases List.mem_cons.1 h with rfl | h
      · exact List.mem_cons_self ..
      · exact List.mem_cons_of_mem _ (ih h)

theorem planFail_some {reg : List PluginDef} (hf : filePlugin ∈ reg) (hr : Regular reg) {s : Settings} {k : Fail} (hk : k ≠ .usage)
    (h : s.planFail reg = some k) : ∃ w, GivenField s w ∧ fieldFail reg w = some k := by
  unfold Settings.planFail at h
  split at h
  · rename_i f hf'
    cases h
    obtain ⟨w, h1, h2⟩ := findSome_some hf'
    exact ⟨w, .inl (expandFile_fail hf hr h1 (by simp [h2])), h2⟩
  split at h
  · rename_i f hf'
    cases h
    cases hs : s.sort with
    | none => rw [hs] at hf'; cases hf'
    | some ws =>
      rw [hs] at hf'
      obtain ⟨w, h1, h2⟩ := findSome_some hf'
      exact ⟨w, .inr (.inl (by simpa [hs] using h1)), h2⟩
  split at h
  · rename_i f hf'
    cases h
    cases hs : s.fargs.count with
    | none => rw [hs] at hf'; cases hf'
    | some ws =>
      rw [hs] at hf'
      simp only [Option.bind_some, countFail] at hf'
      split at hf'
      · rename_i f hf''
        cases hf'
        obtain ⟨w, h1, h2⟩ := findSome_some hf''
        exact ⟨w, .inr (.inr (.inl (by simpa [hs] using h1))), h2⟩
      · split at hf'
        · cases hf'; exact absurd rfl hk
        · cases hf'
  split at h
  · rename_i f hf'
    cases h
    cases hs : s.exec with
    | none => rw [hs] at hf'; cases hf'
    | some ws =>
      rw [hs] at hf'
      obtain ⟨w, h1, h2⟩ := execFail_some hf hf'
      exact ⟨w, .inr (.inr (.inr (.inl (by simpa [hs] using h1)))), h2⟩
  · cases hs : s.execBatch with
    | none => rw [hs] at h; cases h
    | some ws =>
      rw [hs] at h
      simp only [Option.bind_some, execBatchFail] at h
      split at h
      · rename_i f hf'
        cases h
        obtain ⟨w, h1, h2⟩ := execFail_some hf hf'
        exact ⟨w, .inr (.inr (.inr (.inr (by simpa [hs] using h1)))), h2⟩
      · split at h
        · cases h; exact absurd rfl hk
        · cases h

/-! ### The exit status -/

/-- The arguments are accepted, and these are the settings. -/
structure Accepted (W : World) (env : Option Str) (argv : List Str) (ns : NS) (s : Settings) : Prop where
  parsed : ∃ args, collectArguments env argv = some args ∧ parseArgs (ffOptions W.main.arg) W.main.arg.maxCpu args = .ok ns
  help : ns "help".toList ≠ .str "all".toList
  settings : ∃ w, (settingsOf ns).process W.main.isdir W.main.cwd = some (s, w)

theorem startStatus_accepted {W : World} {env : Option Str} {argv : List Str} {ns : NS} {s : Settings} (h : Accepted W env argv ns s) (there : Str → Bool) :
    W.startStatus there env argv = W.setupStatus there ns s := by
  obtain ⟨args, h1, h2⟩ := h.parsed
  obtain ⟨w, h3⟩ := h.settings
  unfold World.startStatus
  simp only [h1, h2, if_neg h.help, h3]

theorem startStatus_cases (W : World) (there : Str → Bool) (env : Option Str) (argv : List Str) :
    W.startStatus there env argv = some 0 ∨ W.startStatus there env argv = some 1 ∨ W.startStatus there env argv = some 2 ∨
    ∃ ns s, Accepted W env argv ns s := by
  unfold World.startStatus
  split
  · exact .inr (.inl rfl)
  rename_i args h1
  split
  · exact .inr (.inr (.inl rfl))
  · exact .inr (.inl rfl)
  rename_i ns h2
  split
  · exact .inl rfl
  rename_i h3
  split
  · exact .inr (.inr (.inl rfl))
  rename_i s w h4
  exact .inr (.inr (.inr ⟨ns, s, ⟨args, h1, h2⟩, h3, w, h4⟩))

theorem status_inj {f g : Fail} (h : f.status = g.status) : f = g := by cases f <;> cases g <;> simp [Fail.status] at h ⊢

theorem shownStatus_some {reg : List PluginDef} {ns : NS} {n : Nat} (h : shownStatus reg ns = some n) : n = 0 ∨ n = 2 := by
  unfold shownStatus at h
  split at h
  · cases h; exact .inl rfl
  split at h
  · cases h
  · split at h <;> cases h
    · exact .inl rfl
    · exact .inr rfl
  · cases h; exact .inr rfl

theorem shownStatus_none {reg : List PluginDef} {ns : NS} : shownStatus reg ns = none ↔ ns "action".toList = .unset ∧ ns "help".toList = .unset := by
  unfold shownStatus
  generalize ns "action".toList = x
  generalize ns "help".toList = y
  by_cases h1 : x = .unset
  · rw [if_neg (by simpa using h1)]
    cases y with
    | unset => simp [h1]
    | str n => simp only; split <;> simp
    | _ => simp
  · rw [if_pos h1]; simp [h1]

theorem setupStatus_kind {W : World} (hf : filePlugin ∈ W.main.reg) (hr : Regular W.main.reg) {there : Str → Bool} {ns : NS} {s : Settings} {k : Fail}
    (hk : k = .attribute ∨ k = .expression) (h : W.setupStatus there ns s = some k.status) :
    (∃ w, GivenField s w ∧ fieldFail W.main.reg w = some k) ∨ ∃ t ∈ s.fargs.tests ++ s.fargs.exclude, Word t ∧ (W.env ns).parseTest t = .error (.badTest k) := by
  have hu : k ≠ .usage := by rcases hk with rfl | rfl <;> simp
  have hc : k ≠ .crash := by rcases hk with rfl | rfl <;> simp
  unfold World.setupStatus at h
  split at h
  · rename_i f hf'
    simp only [Option.some.injEq] at h
    have := status_inj h; subst this
    exact .inl (planFail_some hf hr hu hf')
  split at h
  · rename_i n hn
    simp only [Option.some.injEq] at h
    subst h
    rcases hk with rfl | rfl <;> rcases shownStatus_some hn with h | h <;> simp [Fail.status] at h
  · right
    obtain ⟨f, h1, h2⟩ := Option.map_eq_some_iff.1 h
    have := status_inj h2; subst this
    unfold World.searchFail at h1
    split at h1
    · rename_i f hf'
      cases h1
      obtain ⟨t, ht, h3⟩ := parserFail_bad hu hf'
      exact ⟨t, by simp [ht], h3⟩
    split at h1
    · rename_i f hf'
      cases h1
      obtain ⟨t, ht, h3⟩ := parserFail_bad hc hf'
      exact ⟨t, by simp [ht], h3⟩
    split at h1
    · cases h1
    · cases h1; exact absurd rfl hc

/-- C99: if the status is 11, an attribute is named that does not exist, by a field or by a test. -/
theorem C99_attribute {W : World} (hf : filePlugin ∈ W.main.reg) (hr : Regular W.main.reg) {there : Str → Bool} {env : Option Str} {argv : List Str}
    (h : W.startStatus there env argv = some 11) :
    ∃ ns s, Accepted W env argv ns s ∧ ((∃ w, GivenField s w ∧ NamesUnknown W.main.reg w) ∨
      ∃ word ∈ s.fargs.tests ++ s.fargs.exclude, Word word ∧ ∃ t, splitTest (W.env ns).cc word = some t ∧ ¬ Known W.main.reg t.attr) := by
  rcases startStatus_cases W there env argv with h' | h' | h' | ⟨ns, s, ha⟩
  · rw [h] at h'; simp at h'
  · rw [h] at h'; simp at h'
  · rw [h] at h'; simp at h'
  · refine ⟨ns, s, ha, ?_⟩
    rw [startStatus_accepted ha] at h
    rcases setupStatus_kind hf hr (k := .attribute) (.inl rfl) h with ⟨w, h1, h2⟩ | ⟨t, h1, h2, h3⟩
    · exact .inl ⟨w, h1, (C99_field _ w).2.1.1 h2⟩
    · obtain ⟨x, h4, h5⟩ := (C99_test_attribute _ t).1 h3
      exact .inr ⟨t, h1, h2, x, h4, h5⟩

/-- C99: if the status is 12, a word given as a test is not a test, or the test cannot be made with its attribute. -/
theorem C99_expression {W : World} (hf : filePlugin ∈ W.main.reg) (hr : Regular W.main.reg) {there : Str → Bool} {env : Option Str} {argv : List Str}
    (h : W.startStatus there env argv = some 12) :
    ∃ ns s, Accepted W env argv ns s ∧ ∃ word ∈ s.fargs.tests ++ s.fargs.exclude, Word word ∧ (splitTest (W.env ns).cc word = none ∨
      ∃ t a ty, OfType (W.env ns) word t a ty ∧ (t.op ∉ ty.operators ∨ ∃ v, (W.env ns).compared t a ty = some v ∧ WrongValue (W.env ns) t ty v)) := by
  rcases startStatus_cases W there env argv with h' | h' | h' | ⟨ns, s, ha⟩
  · rw [h] at h'; simp at h'
  · rw [h] at h'; simp at h'
  · rw [h] at h'; simp at h'
  · refine ⟨ns, s, ha, ?_⟩
    rw [startStatus_accepted ha] at h
    rcases setupStatus_kind hf hr (k := .expression) (.inr rfl) h with ⟨w, h1, h2⟩ | ⟨t, h1, h2, h3⟩
    · exact absurd h2 (C99_field _ w).2.2.2.1
    · exact ⟨t, h1, h2, (C99_test_expression _ t).1 h3⟩

theorem findSome_first {α β : Type} {f : α → Option β} {as bs : List α} {x : α} {b : β} (h1 : ∀ a ∈ as, f a = none) (h2 : f x = some b) :
    (as ++ x :: bs).findSome? f = some b := by
  induction as with
  | nil => simp [h2]
  | cons a as ih => simp [h1 a (by simp), ih (fun c hc => h1 c (by simp [hc]))]

theorem outputFail_first {reg : List PluginDef} {as bs : List Str} {w : Str} {k : Fail} (h1 : ∀ a ∈ as, NamesKnown reg a) (h2 : fieldFail reg w = some k) :
    outputFail reg (as ++ w :: bs) = some k :=
  findSome_first (fun a ha => (C99_field reg a).2.2.1.2 (h1 a ha)) h2

theorem outputFail_known {reg : List PluginDef} {as : List Str} (h : ∀ a ∈ as, NamesKnown reg a) : outputFail reg as = none :=
  List.findSome?_eq_none_iff.2 (fun a ha => (C99_field reg a).2.2.1.2 (h a ha))

/-- C99: the first word that cannot be used as a field, in `--output`, `--sort` and `--count`, gives the status: 11 if it names an attribute that does not exist,
2 if it is not written like a field. -/
theorem C99_fields {W : World} {there : Str → Bool} {env : Option Str} {argv : List Str} {ns : NS} {s : Settings} (ha : Accepted W env argv ns s)
    (hfile : "file".toList ∉ s.output) {before after : List Str} {bad : Str}
    (hw : s.output ++ s.sort.getD [] ++ s.fargs.count.getD [] = before ++ bad :: after) (hb : ∀ w ∈ before, NamesKnown W.main.reg w) :
    (NamesUnknown W.main.reg bad → W.startStatus there env argv = some 11) ∧ ((∀ n, ¬ FieldNames bad n) → W.startStatus there env argv = some 2) := by
  have key : ∀ k, fieldFail W.main.reg bad = some k → W.startStatus there env argv = some k.status := by
    intro k hk
    rw [startStatus_accepted ha]
    have hp : s.planFail W.main.reg = some k := by
      unfold Settings.planFail
      rw [expandFile_none _ hfile]
      rw [List.append_assoc] at hw
      have hso : s.sort.bind (outputFail W.main.reg) = outputFail W.main.reg (s.sort.getD []) := by cases s.sort <;> rfl
      rcases List.append_eq_append_iff.1 hw with ⟨u, h1, h2⟩ | ⟨u, h1, h2⟩
      · -- the output fields are fine
        rw [outputFail_known (fun a ha => hb a (by rw [h1]; simp [ha]))]
        simp only [hso]
        have hb2 : ∀ w ∈ u, NamesKnown W.main.reg w := fun w hw => hb w (by rw [h1]; simp [hw])
        rcases List.append_eq_append_iff.1 h2 with ⟨v, h3, h4⟩ | ⟨v, h3, h4⟩
        · rw [outputFail_known (fun a ha => hb2 a (by rw [h3]; simp [ha]))]
          simp only
          cases hc : s.fargs.count with
          | none => rw [hc] at h4; simp at h4
          | some ws =>
            rw [hc] at h4
            simp only [Option.getD_some] at h4
            simp only [Option.bind_some, countFail, h4]
            rw [outputFail_first (fun a ha => hb2 a (by rw [h3]; simp [ha])) hk]
        · cases v with
          | nil =>
            simp only [List.nil_append, List.append_nil] at h3 h4
            rw [outputFail_known (fun a ha => hb2 a (by rw [← h3]; exact ha))]
            simp only
            cases hc : s.fargs.count with
            | none => rw [hc] at h4; simp at h4
            | some ws =>
              rw [hc] at h4
              simp only [Option.getD_some] at h4
              simp only [Option.bind_some, countFail, ← h4]
              rw [show bad :: after = [] ++ bad :: after from rfl, outputFail_first (by simp) hk]
          | cons x v =>
            simp only [List.cons_append, List.cons.injEq] at h4
            rw [h3, ← h4.1, outputFail_first hb2 hk]
      · cases u with
        | nil =>
          simp only [List.nil_append, List.append_nil] at h1 h2
          rw [outputFail_known (fun a ha => hb a (by rw [← h1]; exact ha))]
          simp only [hso]
          cases hsl : s.sort.getD [] with
          | cons x v =>
            rw [hsl] at h2
            simp only [List.cons_append, List.cons.injEq] at h2
            rw [← h2.1, show bad :: v = [] ++ bad :: v from rfl, outputFail_first (by simp) hk]
          | nil =>
            rw [hsl] at h2
            rw [outputFail_known (by simp)]
            simp only
            cases hc : s.fargs.count with
            | none => rw [hc] at h2; simp at h2
            | some ws =>
              rw [hc] at h2
              simp only [Option.getD_some, List.nil_append] at h2
              simp only [Option.bind_some, countFail, ← h2]
              rw [show bad :: after = [] ++ bad :: after from rfl, outputFail_first (by simp) hk]
        | cons x u =>
          simp only [List.cons_append, List.cons.injEq] at h2
          rw [h1, ← h2.1, outputFail_first hb hk]
    unfold World.setupStatus
    rw [hp]
  exact ⟨fun h => key _ ((C99_field _ _).2.1.2 h), fun h => key _ ((C99_field _ _).1.2 h)⟩

/-- C99: if all fields can be used, the first test that is not accepted gives the status. -/
theorem C99_tests {W : World} {there : Str → Bool} {env : Option Str} {argv : List Str} {ns : NS} {s : Settings} (ha : Accepted W env argv ns s)
    (hp : (s.plan W.main.reg).isSome = true) (hs1 : ns "action".toList = .unset) (hs2 : ns "help".toList = .unset)
    {f : Formula} (hd : Derives .disj s.fargs.tests f) {before after : List Str} {word : Str} (hat : f.atoms = before ++ word :: after)
    (hb : ∀ w ∈ before, ∃ x, (W.env ns).parseTest w = .ok x) :
    ((∃ t, splitTest (W.env ns).cc word = some t ∧ ¬ Known W.main.reg t.attr) → W.startStatus there env argv = some 11) ∧
    ((splitTest (W.env ns).cc word = none ∨ ∃ t a ty, OfType (W.env ns) word t a ty ∧
        (t.op ∉ ty.operators ∨ ∃ v, (W.env ns).compared t a ty = some v ∧ WrongValue (W.env ns) t ty v)) → W.startStatus there env argv = some 12) ∧
    ((∃ t a ty, OfType (W.env ns) word t a ty ∧ t.op ∈ ty.operators ∧ (W.env ns).compared t a ty = none) → W.startStatus there env argv = some 2) := by
  have key : ∀ k, (W.env ns).parseTest word = .error (.badTest k) → W.startStatus there env argv = some k.status := by
    intro k hk
    rw [startStatus_accepted ha]
    unfold World.setupStatus
    rw [planFail_none.2 hp]
    rw [shownStatus_none.2 ⟨hs1, hs2⟩]
    simp only [World.searchFail, C99_first (W.env ns) .usage hd hat hb hk, Option.map_some]
  exact ⟨fun h => key _ ((C99_test_attribute _ _).2 h), fun h => key _ ((C99_test_expression _ _).2 h), fun h => key _ ((C99_test_usage _ _).2 h)⟩

/-- C99: there is no exit status yet, and the search begins, exactly if the arguments are accepted, nothing is to be shown, all fields, tests and exclude tests
are accepted and the directories exist. -/
theorem C99_begins (W : World) (there : Str → Bool) (env : Option Str) (argv : List Str) :
    W.startStatus there env argv = none ↔ ∃ ns s, Accepted W env argv ns s ∧ (s.plan W.main.reg).isSome = true ∧ ns "action".toList = .unset ∧ ns "help".toList = .unset ∧
      (∃ x, parse (W.env ns).parseTest s.fargs.tests = .ok x) ∧ (∃ x, parse (W.env ns).parseTest s.fargs.exclude = .ok x) ∧
      ∀ d ∈ s.dirs, there (startRoot s.fargs.absolutePath W.main.cwd d) = true := by
  have hpf : ∀ ns other ts, parserFail (W.env ns) other ts = none ↔ ∃ x, parse (W.env ns).parseTest ts = .ok x := by
    intro ns other ts
    unfold parserFail
    cases parse (W.env ns).parseTest ts <;> simp
  have hset : ∀ ns s, W.setupStatus there ns s = none ↔ (s.plan W.main.reg).isSome = true ∧ ns "action".toList = .unset ∧ ns "help".toList = .unset ∧
      (∃ x, parse (W.env ns).parseTest s.fargs.tests = .ok x) ∧ (∃ x, parse (W.env ns).parseTest s.fargs.exclude = .ok x) ∧
      ∀ d ∈ s.dirs, there (startRoot s.fargs.absolutePath W.main.cwd d) = true := by
    intro ns s
    rw [← planFail_none, ← hpf ns .usage, ← hpf ns .crash]
    have hsh := shownStatus_none (reg := W.main.reg) (ns := ns)
    unfold World.setupStatus World.searchFail
    cases s.planFail W.main.reg with
    | some f => simp
    | none =>
      cases hq : shownStatus W.main.reg ns with
      | some n =>
        have : ¬ (ns "action".toList = .unset ∧ ns "help".toList = .unset) := by rw [← hsh, hq]; simp
        simp only [reduceCtorEq, false_iff, true_and]
        exact fun h => this ⟨h.1, h.2.1⟩
      | none =>
        obtain ⟨h1, h2⟩ := hsh.1 hq
        simp only [h1, h2, true_and]
        cases parserFail (W.env ns) .usage s.fargs.tests with
        | some f => simp
        | none =>
          cases parserFail (W.env ns) .crash s.fargs.exclude with
          | some f => simp
          | none => simp
  constructor
  · intro h
    rcases startStatus_cases W there env argv with h' | h' | h' | ⟨ns, s, ha⟩
    · rw [h] at h'; cases h'
    · rw [h] at h'; cases h'
    · rw [h] at h'; cases h'
    · rw [startStatus_accepted ha] at h
      exact ⟨ns, s, ha, (hset ns s).1 h⟩
  · rintro ⟨ns, s, ha, h⟩
    rw [startStatus_accepted ha]
    exact (hset ns s).2 h

/-- C99: the status is 0 only if help, the version or something else is shown instead of searching. -/
theorem C99_shown {W : World} {there : Str → Bool} {env : Option Str} {argv : List Str} (h : W.startStatus there env argv = some 0) :
    ∃ args ns, collectArguments env argv = some args ∧ parseArgs (ffOptions W.main.arg) W.main.arg.maxCpu args = .ok ns ∧
      (ns "action".toList ≠ .unset ∨ ns "help".toList = .str "all".toList ∨ ∃ p ∈ W.main.reg, ns "help".toList = .str p.name) := by
  unfold World.startStatus at h
  split at h
  · simp at h
  rename_i args h1
  split at h
  · simp at h
  · simp at h
  rename_i ns h2
  refine ⟨args, ns, h1, h2, ?_⟩
  split at h
  · rename_i h3; exact .inr (.inl h3)
  split at h
  · simp at h
  rename_i s w h4
  have hst : ∀ f : Fail, f.status ≠ 0 := by intro f; cases f <;> simp [Fail.status]
  unfold World.setupStatus at h
  split at h
  · rename_i f _
    exact absurd (Option.some.inj h) (hst f)
  split at h
  · rename_i n hn
    cases h
    unfold shownStatus at hn
    split at hn
    · rename_i h5; exact .inl h5
    · split at hn
      · cases hn
      · rename_i name hname
        split at hn
        · rename_i h6
          obtain ⟨p, hp, e⟩ := List.any_eq_true.1 h6
          simp only [decide_eq_true_eq] at e
          exact .inr (.inr ⟨p, hp, by rw [e]; exact hname⟩)
        · simp at hn
      · simp at hn
  · obtain ⟨f, _, h6⟩ := Option.map_eq_some_iff.1 h
    exact absurd h6 (hst f)

/-- The exit statuses of some runs in a directory that exists. -/
def demoStatus (argv : List String) : Option Nat := demoWorld.startStatus (fun _ => true) none (argv.map String.toList)

set_option maxRecDepth 50000 in
set_option maxHeartbeats 8000000 in
/-- The search begins; fields and tests that are not accepted. -/
example : demoStatus ["depth=1", "-H"] = none ∧ demoStatus ["-H", "-o", "nope"] = some 11 ∧ demoStatus ["-H", "-o", "?"] = some 2 ∧ demoStatus ["-H", "-x", "ls", "{nope}"] = some 11 ∧
    demoStatus ["-H", "nope=1"] = some 11 ∧ demoStatus ["-H", "depth~1"] = some 12 ∧ demoStatus ["-H", "depth=1", "or", "nope"] = some 12 ∧ demoStatus ["-H", "depth=x"] = some 2 ∧
    demoStatus ["-H", "(", "depth=1"] = some 2 ∧ demoStatus ["-h"] = some 0 := by
  refine ⟨rfl, rfl, rfl, rfl, rfl, rfl, rfl, rfl, rfl, rfl⟩

set_option maxRecDepth 50000 in
set_option maxHeartbeats 8000000 in
/-- C99 fails: status 1 means that nothing was found and `--fail` was given, but it is also the status after an exclude test with an unbalanced bracket, and
if the directory does not exist, without `--fail`. -/
theorem C99_one_false : demoStatus ["-H", "-e", "("] = some 1 ∧ demoWorld.startStatus (fun _ => false) none (["-H", "-D", "x"].map String.toList) = some 1 := ⟨rfl, rfl⟩

set_option maxRecDepth 50000 in
set_option maxHeartbeats 8000000 in
/-- C99 fails: an attribute that does not exist gives status 2 instead of 11 inside of a reference. -/
theorem C99_reference_false : demoStatus ["-H", "depth={nope}r"] = some 2 ∧ ¬ Known demoWorld.main.reg "nope".toList := by
  refine ⟨rfl, ?_⟩
  rw [← known_iff]
  rintro ⟨a, ty, h, _⟩
  have : setupAttribute demoWorld.main.reg "nope".toList = none := by decide
  rw [this] at h
  cases h

set_option maxRecDepth 50000 in
set_option maxHeartbeats 8000000 in
/-- The hypotheses of C99 are met by `ff -H -o path,nope` and by `ff -H depth=1 or nope=1`. -/
example : (∃ ns s, Accepted demoWorld none (["-H", "-o", "path,nope"].map String.toList) ns s ∧ "file".toList ∉ s.output ∧
      s.output ++ s.sort.getD [] ++ s.fargs.count.getD [] = ["path".toList] ++ "nope".toList :: [] ∧ (∀ w ∈ ["path".toList], NamesKnown demoWorld.main.reg w) ∧
      NamesUnknown demoWorld.main.reg "nope".toList) ∧
    ∃ ns s, Accepted demoWorld none (["-H", "depth=1", "or", "nope=1"].map String.toList) ns s ∧ (s.plan demoWorld.main.reg).isSome = true ∧
      ns "action".toList = .unset ∧ ns "help".toList = .unset ∧ s.fargs.tests = ["depth=1".toList, "or".toList, "nope=1".toList] ∧
      (∃ x, (demoWorld.env ns).parseTest "depth=1".toList = .ok x) ∧
      ∃ t, splitTest (demoWorld.env ns).cc "nope=1".toList = some t ∧ ¬ Known demoWorld.main.reg t.attr := by
  have hn : ¬ Known demoWorld.main.reg "nope".toList := C99_reference_false.2
  refine ⟨⟨_, _, ⟨⟨_, rfl, rfl⟩, by show NVal.unset ≠ NVal.str _; simp, _, rfl⟩, ?_, rfl, ?_, ?_⟩, ⟨_, _, ⟨⟨_, rfl, rfl⟩, by show NVal.unset ≠ NVal.str _; simp, _, rfl⟩, rfl, rfl, rfl, rfl, ⟨_, rfl⟩, _, rfl, hn⟩⟩
  · decide
  · intro w hw
    simp only [List.mem_singleton] at hw
    subst hw
    exact (C99_field _ _).2.2.1.1 (by decide)
  · exact (C99_field _ _).2.1.1 (by decide)

end FF
