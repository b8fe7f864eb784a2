import Verif.Model.Console
import Verif.Spec.Console
import Verif.Props.Template
/-! Output on the console: C29-C33. -/
namespace FF
open Spec

/-! ### C33: padding -/

/-- C33: a field with a width is padded with spaces to that width and never truncated. -/
theorem C33_pad (C : ConsoleEnv) (P : Palette) (i : EntInfo) (f : Field) (s : Str) (w : Str) (n : Int) (hw : f.width = some w) (hn : pyInt w = some n)
    (h : C.renderField P i f = some (.plain s)) : ∃ out, C.formatField P i f = some out ∧ Padded n s out ∧ out.length = max n.natAbs s.length := by
  unfold ConsoleEnv.formatField
  rw [h, hw]
  simp only [hn, Option.getD_some]
  refine ⟨_, rfl, ⟨_, rfl, rfl⟩, ?_⟩
  unfold padString RStr.plain
  simp only
  split <;> simp <;> omega

/-- The width of a field is the number that is written. -/
theorem C33_width (w : Str) (h : WidthText w) : ∃ ds, ds ≠ [] ∧ (∀ x ∈ ds, Digit x) ∧
    ((w = ds ∧ pyInt w = some (natOfDigits ds : Int)) ∨ (w = '-' :: ds ∧ pyInt w = some (-(natOfDigits ds : Int)))) := by
  obtain ⟨ds, hne, hd, h⟩ := h
  have hdig : ∀ c ∈ ds, isDigit c = true := fun c hc => (digit_iff c).2 (hd c hc)
  refine ⟨ds, hne, hd, ?_⟩
  rcases h with rfl | rfl
  · exact .inl ⟨rfl, pyInt_digits hdig hne⟩
  · refine .inr ⟨rfl, ?_⟩
    have hs : strip ('-' :: ds) = '-' :: ds := strip_of_not_space (by
      intro c hc
      rcases List.mem_cons.1 hc with rfl | hc
      · decide
      · exact digit_not_space (hdig c hc))
    unfold pyInt
    rw [hs]
    simp only
    rw [intDigits_digits hdig false 0 (.inl hne)]
    rfl

/-! ### C31: what is printed -/

/-- The field has a value or may do without. -/
def Provided (C : ConsoleEnv) (i : EntInfo) (f : Field) : Prop :=
  C.render.all = true ∨ f.modifier = some 'n' ∨ (C.render.search.attr i f.attr).isSome = true

theorem plain_renderName (C : ConsoleEnv) (i : EntInfo) : C.renderName plainPalette i = some (.plain i.entry.name) := by
  unfold ConsoleEnv.renderName plainPalette
  split
  · split <;> rfl
  · split <;> rfl

/-- The text of a path field. -/
def pathText (C : ConsoleEnv) (i : EntInfo) (withLink : Bool) : Str :=
  if i.isDir then i.entry.path else
    (if i.entry.dir ≠ [] then i.entry.dir ++ ['/'] else []) ++ i.entry.name ++ if C.isSymlink i && withLink then " -> ".toList ++ C.link i else []

theorem plain_renderPath (C : ConsoleEnv) (i : EntInfo) (b : Bool) : C.renderPath plainPalette i b = some (.plain (pathText C i b)) := by
  unfold ConsoleEnv.renderPath pathText
  rw [plain_renderName]
  by_cases h1 : i.isDir = true
  · rw [if_pos h1, if_pos h1]; rfl
  · rw [if_neg h1, if_neg h1]
    by_cases h2 : i.entry.dir ≠ []
    · by_cases h3 : (C.isSymlink i && b) = true
      · simp [h2, h3, plainPalette, RStr.plain]
        omega
      · simp [h2, h3, plainPalette, RStr.plain]
        omega
    · by_cases h3 : (C.isSymlink i && b) = true
      · simp [h2, h3, RStr.plain]
        omega
      · simp [h2, h3, RStr.plain]

/-- The text of a field without padding. -/
def fieldText (C : ConsoleEnv) (i : EntInfo) (f : Field) : Option Str :=
  if f.attr = ("file".toList, "path".toList) then some (pathText C i (f.modifier = some 'h')) else
    if f.attr = ("file".toList, "dir".toList) then some i.entry.dir else
    if f.attr = ("file".toList, "name".toList) then some i.entry.name else
    (C.render.search.attr i f.attr).map (f.type.output C.render.out f.modifier)

theorem plain_renderField (C : ConsoleEnv) (i : EntInfo) (f : Field) : C.renderField plainPalette i f = (fieldText C i f).map .plain := by
  unfold ConsoleEnv.renderField fieldText
  by_cases h1 : f.attr = ("file".toList, "dir".toList)
  · have : ¬ f.attr = ("file".toList, "path".toList) := by rw [h1]; decide
    rw [if_pos h1, if_neg this, if_pos h1]; rfl
  · rw [if_neg h1, if_neg h1]
    by_cases h2 : f.attr = ("file".toList, "name".toList)
    · have : ¬ f.attr = ("file".toList, "path".toList) := by rw [h2]; decide
      rw [if_pos h2, if_neg this, if_pos h2, plain_renderName]; rfl
    · rw [if_neg h2, if_neg h2]
      by_cases h3 : f.attr = ("file".toList, "path".toList)
      · rw [if_pos h3, if_pos h3, plain_renderPath]; rfl
      · rw [if_neg h3, if_neg h3]
        cases C.render.search.attr i f.attr <;> rfl

theorem attr_path (S : SearchEnv) (i : EntInfo) : S.attr i ("file".toList, "path".toList) = some (.str i.entry.path) := rfl
theorem attr_dir (S : SearchEnv) (i : EntInfo) : S.attr i ("file".toList, "dir".toList) = some (.str i.entry.dir) := rfl
theorem attr_name (S : SearchEnv) (i : EntInfo) : S.attr i ("file".toList, "name".toList) = some (.str i.entry.name) := rfl

theorem fieldText_isSome (C : ConsoleEnv) (i : EntInfo) (f : Field) : (fieldText C i f).isSome = (C.render.search.attr i f.attr).isSome := by
  unfold fieldText
  by_cases h3 : f.attr = ("file".toList, "path".toList)
  · rw [if_pos h3, h3, attr_path]; rfl
  · rw [if_neg h3]
    by_cases h1 : f.attr = ("file".toList, "dir".toList)
    · rw [if_pos h1, h1, attr_dir]; rfl
    · rw [if_neg h1]
      by_cases h2 : f.attr = ("file".toList, "name".toList)
      · rw [if_pos h2, h2, attr_name]; rfl
      · rw [if_neg h2]; simp

/-- The column of a field: its text padded, or nothing. -/
def columnText (C : ConsoleEnv) (i : EntInfo) (f : Field) : Str :=
  match fieldText C i f with
  | none => []
  | some s => match f.width with
    | none => s
    | some w => padString (.plain s) ((pyInt w).getD 0)

theorem plain_formatField (C : ConsoleEnv) (i : EntInfo) (f : Field) :
    C.formatField plainPalette i f = if (C.render.search.attr i f.attr).isSome then some (columnText C i f) else none := by
  unfold ConsoleEnv.formatField columnText
  rw [plain_renderField, ← fieldText_isSome]
  cases fieldText C i f with
  | none => rfl
  | some s => cases f.width <;> rfl

theorem plain_column (C : ConsoleEnv) (i : EntInfo) (f : Field) :
    (Provided C i f → C.column plainPalette i f = some (columnText C i f)) ∧ (¬ Provided C i f → C.column plainPalette i f = none) := by
  unfold ConsoleEnv.column
  rw [plain_formatField]
  by_cases ha : (C.render.search.attr i f.attr).isSome = true
  · rw [if_pos ha]
    exact ⟨fun _ => rfl, fun h => absurd (.inr (.inr ha)) h⟩
  · rw [if_neg ha]
    have hc : columnText C i f = [] := by
      unfold columnText
      have := fieldText_isSome C i f
      cases hf : fieldText C i f with
      | none => rfl
      | some s => rw [hf] at this; exact absurd this.symm ha
    by_cases hb : C.render.all = true ∨ f.modifier = some 'n'
    · exact ⟨fun _ => by simp [hb, hc], fun h => absurd (hb.elim .inl (fun h => .inr (.inl h))) h⟩
    · refine ⟨?_, fun _ => by simp [hb]⟩
      rintro (h | h | h)
      · exact absurd (.inl h) hb
      · exact absurd (.inr h) hb
      · exact absurd h ha

theorem plain_columns (C : ConsoleEnv) (i : EntInfo) (fields : List Field) :
    ((∀ f ∈ fields, Provided C i f) → mapOption (C.column plainPalette i) fields = some (fields.map (columnText C i))) ∧
    ((¬ ∀ f ∈ fields, Provided C i f) → mapOption (C.column plainPalette i) fields = none) := by
  induction fields with
  | nil => exact ⟨fun _ => rfl, fun h => absurd (by simp) h⟩
  | cons f fs ih =>
    rw [mapOption]
    simp only [List.forall_mem_cons, List.map_cons]
    by_cases h1 : Provided C i f
    · rw [(plain_column C i f).1 h1]
      refine ⟨fun h => by rw [ih.1 h.2], fun h => ?_⟩
      rw [ih.2 (fun h' => h ⟨h1, h'⟩)]
    · rw [(plain_column C i f).2 h1]
      exact ⟨fun h => absurd h.1 h1, fun _ => rfl⟩

/-- C31: without `--all` a line is printed for an entry iff all fields without the n modifier have a value, with `--all` for every entry. The line consists of the
values, padded if a width is given, and of nothing for missing values. -/
theorem C31_line (C : ConsoleEnv) (i : EntInfo) (fields : List Field) :
    ((C.line plainPalette fields i).isSome = true ↔ C.render.all = true ∨ ∀ f ∈ fields, f.modifier = some 'n' ∨ (C.render.search.attr i f.attr).isSome = true) ∧
    ∀ l, C.line plainPalette fields i = some l → l = joinStr C.separator (fields.map (columnText C i)) := by
  have hp : (∀ f ∈ fields, Provided C i f) ↔ C.render.all = true ∨ ∀ f ∈ fields, f.modifier = some 'n' ∨ (C.render.search.attr i f.attr).isSome = true := by
    constructor
    · intro h
      by_cases ha : C.render.all = true
      · exact .inl ha
      · refine .inr (fun f hf => ?_)
        rcases h f hf with h | h
        · exact absurd h ha
        · exact h
    · rintro (h | h) f hf
      · exact .inl h
      · exact .inr (h f hf)
  obtain ⟨h1, h2⟩ := plain_columns C i fields
  unfold ConsoleEnv.line
  rw [← hp]
  by_cases h : ∀ f ∈ fields, Provided C i f
  · rw [h1 h]
    exact ⟨⟨fun _ => h, fun _ => rfl⟩, by rintro l hl; cases hl; rfl⟩
  · rw [h2 h]
    exact ⟨⟨fun h' => by simp at h', fun h' => absurd h' h⟩, by rintro l hl; cases hl⟩

theorem dictGet_dictSet {κ ν : Type} [DecidableEq κ] (d : List (κ × ν)) (k k' : κ) (v : ν) :
    dictGet (dictSet d k v) k' = if k' = k then some v else dictGet d k' := by
  induction d with
  | nil => by_cases h : k = k' <;> simp [dictSet, dictGet, h, eq_comm]
  | cons p rest ih =>
    obtain ⟨a, b⟩ := p
    unfold dictSet
    by_cases h : a = k
    · rw [if_pos h]
      subst h
      by_cases h2 : a = k'
      · subst h2; simp [dictGet]
      · have : ¬ k' = a := fun e => h2 e.symm
        simp [dictGet, h2, this]
    · rw [if_neg h]
      by_cases h2 : a = k'
      · subst h2; simp [dictGet, h]
      · have e1 : dictGet ((a, b) :: dictSet rest k v) k' = dictGet (dictSet rest k v) k' := by simp [dictGet, h2]
        have e2 : dictGet ((a, b) :: rest) k' = dictGet rest k' := by simp [dictGet, h2]
        rw [e1, e2, ih]

theorem toDict_get (R : RenderEnv) (i : EntInfo) (fields : List Field) (hd : fields.Pairwise (fun a b => a.label ≠ b.label)) :
    ∀ f ∈ fields, dictGet (R.toDict fields i) f.label = some (R.recordValue i f) := by
    unfold RenderEnv.toDict
    have gen : ∀ (fields : List Field) (d : List (Str × Option Val)), fields.Pairwise (fun a b => a.label ≠ b.label) →
        (∀ f ∈ fields, dictGet (fields.foldl (fun d f => dictSet d f.label (R.recordValue i f)) d) f.label = some (R.recordValue i f)) ∧
        (∀ k, (∀ f ∈ fields, f.label ≠ k) → dictGet (fields.foldl (fun d f => dictSet d f.label (R.recordValue i f)) d) k = dictGet d k) := by
      intro fields
      induction fields with
      | nil => intro d _; exact ⟨by simp, by simp⟩
      | cons g gs ih =>
        intro d hp
        obtain ⟨hg, hgs⟩ := List.pairwise_cons.1 hp
        obtain ⟨i1, i2⟩ := ih (dictSet d g.label (R.recordValue i g)) hgs
        rw [List.foldl_cons]
        refine ⟨?_, ?_⟩
        · intro f hf
          rcases List.mem_cons.1 hf with rfl | hf
          · rw [i2 f.label (fun h hh => (hg h hh).symm), dictGet_dictSet, if_pos rfl]
          · exact i1 f hf
        · intro k hk
          rw [i2 k (fun f hf => hk f (by simp [hf])), dictGet_dictSet, if_neg (fun e => hk g (by simp) e.symm)]
    exact (gen fields [] hd).1

/-- C31 for JSON: every field has a value in the record of an entry: the value of the attribute, or `null` if it is missing. With the modifier h it is the text
that the type has for the value. -/
theorem C31_json (R : RenderEnv) (i : EntInfo) (fields : List Field) (hd : fields.Pairwise (fun a b => a.label ≠ b.label)) :
    ∀ f ∈ fields, (f.modifier ≠ some 'h' → dictGet (R.toDict fields i) f.label = some (R.search.attr i f.attr)) ∧
      (f.modifier = some 'h' → dictGet (R.toDict fields i) f.label = some ((R.search.attr i f.attr).map (fun v => .str (f.type.output R.out (some 'h') v)))) := by
  intro f hf
  rw [toDict_get R i fields hd f hf]
  unfold RenderEnv.recordValue
  cases R.search.attr i f.attr with
  | none => exact ⟨fun _ => rfl, fun _ => rfl⟩
  | some v => exact ⟨fun h => by simp [h], fun h => by simp [h]⟩

end FF
