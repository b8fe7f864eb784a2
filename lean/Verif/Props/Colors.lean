import Verif.Props.Print
import Verif.Props.Natural
import Verif.Spec.Colors
/-! C90: the colours are those of LS_COLORS. -/
namespace FF
open Spec

theorem escape_eq (v : Str) : escSeq v = escape v := by
  unfold escSeq escape
  split <;> simp

theorem splitEq_cons {k v : Str} (h : '=' ∉ k) : splitEq (k ++ '=' :: v) = some (k, v) := by
  induction k with
  | nil => simp [splitEq]
  | cons x xs ih =>
    simp only [List.mem_cons, not_or] at h
    rw [List.cons_append, splitEq, if_neg (fun e => h.1 e.symm), ih h.2]
    rfl

theorem colorLetter_isAlpha {c : Char} (h : Letter c) : c.isAlpha = true := by
  unfold Letter at h
  unfold Char.isAlpha Char.isUpper Char.isLower
  rcases h with ⟨h1, h2⟩ | ⟨h1, h2⟩
  · simp only [Bool.or_eq_true, decide_eq_true_eq, Bool.and_eq_true]
    exact .inr ⟨h1, h2⟩
  · simp only [Bool.or_eq_true, decide_eq_true_eq, Bool.and_eq_true]
    exact .inl ⟨h1, h2⟩

theorem colorLetter_ne {c : Char} (h : Letter c) : c ≠ '=' ∧ c ≠ ':' := by
  have := colorLetter_isAlpha h
  exact ⟨by rintro rfl; revert this; decide, by rintro rfl; revert this; decide⟩

theorem splitext_star {e : Str} (h : ∀ c ∈ e, c ≠ '.' ∧ c ≠ ':' ∧ c ≠ '=' ∧ c ≠ '/') : splitext ('*' :: '.' :: e) = (['*'], '.' :: e) :=
  splitext_iff.1 (.ext [] ['*'] e (by decide) (fun h' => (h _ h').2.2.2 rfl) (fun h' => (h _ h').1 rfl) (.inl rfl) ⟨'*', by decide, by decide⟩)

/-- What console.py:279-290 does with an item. -/
def colorStep (st : List (Str × Str) × List (Str × Str)) : ColorItem → List (Str × Str) × List (Str × Str)
  | .kind k v => (dictSet st.1 k v, st.2)
  | .ext e v => (st.1, dictSet st.2 e (escSeq v))

theorem lsColors_items {colors : Str} {items : List ColorItem} (h : IsColors colors items) : lsColors colors = items.foldl colorStep ([], []) := by
  obtain ⟨hne, hok, rfl⟩ := h
  unfold lsColors
  rw [splitOn_joinWith (by simpa using hne)]
  · rw [List.foldl_map]
    generalize ([], []) = st
    clear hne
    induction items generalizing st with
    | nil => rfl
    | cons i items ih =>
      rw [List.foldl_cons, List.foldl_cons]
      have hi := hok i (by simp)
      have hs : ∀ st' st'', st' = st'' → List.foldl (fun st part => match splitEq part.text with
          | none => st
          | some (key, value) =>
            if key.length = 2 ∧ key.all Char.isAlpha then (dictSet st.1 key value, st.2)
            else
              let ext := (splitext key).2.drop 1
              if ext ≠ [] then (st.1, dictSet st.2 ext (escSeq value)) else st) st' items = items.foldl colorStep st'' :=
        fun st' st'' e => by rw [e]; exact ih (fun j hj => hok j (by simp [hj])) st''
      apply hs
      cases i with
      | kind k v =>
        obtain ⟨⟨a, b, rfl, ha, hb⟩, _⟩ := hi
        have h1 : '=' ∉ [a, b] := by
          intro h; simp only [List.mem_cons, List.not_mem_nil, or_false] at h
          rcases h with h | h
          · exact (colorLetter_ne ha).1 h.symm
          · exact (colorLetter_ne hb).1 h.symm
        simp only [ColorItem.text]
        rw [splitEq_cons h1]
        simp [colorLetter_isAlpha ha, colorLetter_isAlpha hb, colorStep]
      | ext e v =>
        obtain ⟨hne, he, _⟩ := hi
        have h1 : '=' ∉ ('*' :: '.' :: e) := by
          intro h; simp only [List.mem_cons] at h
          rcases h with h | h | h
          · exact absurd h (by decide)
          · exact absurd h (by decide)
          · exact (he _ h).2.2.1 rfl
        have := splitEq_cons (v := v) h1
        simp only [List.cons_append] at this
        simp only [ColorItem.text, this, splitext_star he]
        have h2 : ¬ (('*' :: '.' :: e).length = 2 ∧ ('*' :: '.' :: e).all Char.isAlpha = true) := by
          rintro ⟨_, h⟩
          simp at h
        rw [if_neg h2]
        simp [hne, colorStep]
  · intro x hx
    obtain ⟨i, hi, rfl⟩ := List.mem_map.1 hx
    have hi := hok i hi
    cases i with
    | kind k v =>
      obtain ⟨⟨a, b, rfl, ha, hb⟩, hv⟩ := hi
      simp only [ColorItem.text, List.cons_append, List.nil_append, List.mem_cons, not_or]
      exact ⟨fun h => (colorLetter_ne ha).2 h.symm, fun h => (colorLetter_ne hb).2 h.symm, by decide, hv⟩
    | ext e v =>
      obtain ⟨hne, he, hv⟩ := hi
      simp only [ColorItem.text, List.mem_append, List.mem_cons, not_or]
      exact ⟨by decide, by decide, fun h => (he _ h).2.1 rfl, by decide, hv⟩

theorem colorStep_kind (items : List ColorItem) (st : List (Str × Str) × List (Str × Str)) (k : Str) :
    dictGet (items.foldl colorStep st).1 k = (kindColor k items).or (dictGet st.1 k) := by
  induction items generalizing st with
  | nil => rfl
  | cons i items ih =>
    rw [List.foldl_cons, ih]
    cases i with
    | kind k' v =>
      simp only [colorStep, kindColor, dictGet_dictSet]
      by_cases h : k' = k
      · subst h; cases kindColor k' items <;> simp
      · have : ¬ k = k' := fun e => h e.symm
        cases kindColor k items <;> simp [h, this]
    | ext e v => simp [colorStep, kindColor]

theorem colorStep_ext (items : List ColorItem) (st : List (Str × Str) × List (Str × Str)) (e : Str) :
    dictGet (items.foldl colorStep st).2 e = ((extColor e items).map escSeq).or (dictGet st.2 e) := by
  induction items generalizing st with
  | nil => rfl
  | cons i items ih =>
    rw [List.foldl_cons, ih]
    cases i with
    | kind k v => simp [colorStep, extColor]
    | ext e' v =>
      simp only [colorStep, extColor, dictGet_dictSet]
      by_cases h : e' = e
      · subst h; cases extColor e' items <;> simp
      · have : ¬ e = e' := fun e => h e.symm
        cases extColor e items <;> simp [h, this]

theorem colors_kind {colors : Str} {items : List ColorItem} (h : IsColors colors items) (k : Str) : dictGet (lsColors colors).1 k = kindColor k items := by
  rw [lsColors_items h, colorStep_kind]
  cases kindColor k items <;> rfl

theorem colors_ext {colors : Str} {items : List ColorItem} (h : IsColors colors items) (e : Str) :
    dictGet (lsColors colors).2 e = (extColor e items).map escape := by
  rw [lsColors_items h, colorStep_ext]
  have : escSeq = escape := funext escape_eq
  rw [this]
  cases extColor e items <;> rfl

theorem isColors_ne {colors : Str} {items : List ColorItem} (h : IsColors colors items) : colors ≠ [] := by
  obtain ⟨hne, _, rfl⟩ := h
  cases items with
  | nil => exact absurd rfl hne
  | cons i items =>
    have : i.text ≠ [] := by cases i <;> simp [ColorItem.text]
    cases items with
    | nil => simpa [joinWith] using this
    | cons j items => simp [joinWith]

/-- The coloured text and its visible length. -/
def tinted (items : List ColorItem) (color : Option Str) (text : Str) : RStr := ⟨inColor items color text, text.length⟩

theorem colorize_tinted {colors : Str} {items : List ColorItem} (h : IsColors colors items) (rule text : Str) :
    colorize (lsColors colors).1 (escSeq ((dictGet (lsColors colors).1 "rs".toList).getD ['0'])) rule text = some (tinted items (kindColor rule items) text) := by
  unfold colorize
  rw [colors_kind h, colors_kind h]
  cases hk : kindColor rule items with
  | none => rfl
  | some v => simp [tinted, inColor, escape_eq]

theorem palette_directory {colors : Str} {items : List ColorItem} (h : IsColors colors items) (text : Str) :
    (colorPalette colors).directory text = some (tinted items (kindColor "di".toList items) text) := by
  unfold colorPalette
  rw [if_neg (isColors_ne h)]
  exact colorize_tinted h _ _

theorem palette_file {colors : Str} {items : List ColorItem} (h : IsColors colors items) (e text : Str) :
    (colorPalette colors).file e text = some (tinted items (extColor e items) text) := by
  unfold colorPalette
  rw [if_neg (isColors_ne h)]
  simp only
  rw [colors_ext h, colors_kind h]
  cases extColor e items with
  | none => rfl
  | some v => simp [tinted, inColor, escape_eq]

/-- What the console knows about an entry. -/
def looksOf (C : ConsoleEnv) (i : EntInfo) : Looks := ⟨C.isSymlink i, C.followSymlinks, C.broken i, C.isExecutable i⟩

/-- The extension of an entry is the extension of its name. -/
theorem ext_of_name {i : EntInfo} {r e : Str} (h : StemExt i.entry.name r e) (hs : '/' ∉ i.entry.name) (hp : ∃ d, i.entry.path = d ++ i.entry.name ∧ (d = [] ∨ ∃ d', d = d' ++ ['/'])) :
    i.entry.ext = e.drop 1 := by
  obtain ⟨d, hp, hd⟩ := hp
  have key : StemExt i.entry.path (d ++ r) e := by
    rw [hp]
    generalize i.entry.name = n at h hs
    cases h with
    | ext d0 lead e h1 h2 h3 h4 h5 =>
      have : d0 = [] := by
        rcases h4 with h4 | ⟨d', h4⟩
        · exact h4
        · rw [h4] at hs; simp at hs
      subst this
      have := StemExt.ext d lead e h1 h2 h3 hd h5
      simpa using this
    | none d0 k w h1 h2 h4 =>
      have : d0 = [] := by
        rcases h4 with h4 | ⟨d', h4⟩
        · exact h4
        · rw [h4] at hs; simp at hs
      subst this
      have := StemExt.none d k w h1 h2 hd
      simpa using this
  unfold Entry.ext
  rw [splitext_iff.1 key]

theorem entry_name_spec (i : EntInfo) : '/' ∉ i.entry.name ∧ ∃ d, i.entry.path = d ++ i.entry.name ∧ (d = [] ∨ ∃ d', d = d' ++ ['/']) := by
  have : i.entry.name = (pathSplit i.entry.path).2 := rfl
  rw [this]
  generalize i.entry.path = p
  unfold pathSplit
  rcases exists_last_split p '/' with h | ⟨a, b, rfl, hb⟩
  · simp [rfind_not_mem h, h]
  · simp only [rfind_split a hb]
    rw [if_neg (by omega)]
    by_cases ha : a = []
    · subst ha; simp [hb]; exact ⟨['/'], rfl, .inr ⟨[], rfl⟩⟩
    · have : a.length ≠ 0 := by simpa using ha
      rw [if_neg (by omega)]
      have e : sliceFrom (a ++ '/' :: b) ((a.length : Int) + 1) = b := by
        unfold sliceFrom
        simp
      rw [e]
      exact ⟨hb, a ++ ['/'], by simp, .inr ⟨a, rfl⟩⟩

theorem renderName_tinted {colors : Str} {items : List ColorItem} (h : IsColors colors items) (C : ConsoleEnv) (i : EntInfo) {r e : Str}
    (he : StemExt i.entry.name r e) : C.renderName (colorPalette colors) i = some (tinted items (nameColor items (looksOf C i) e) i.entry.name) := by
  have hn := entry_name_spec i
  have hext := ext_of_name he hn.1 hn.2
  have hp : (colorPalette colors).orphan i.entry.name = some (tinted items (kindColor "or".toList items) i.entry.name) ∧
      (colorPalette colors).symlink i.entry.name = some (tinted items (kindColor "ln".toList items) i.entry.name) ∧
      (colorPalette colors).executable i.entry.name = some (tinted items (kindColor "ex".toList items) i.entry.name) := by
    unfold colorPalette
    rw [if_neg (isColors_ne h)]
    exact ⟨colorize_tinted h _ _, colorize_tinted h _ _, colorize_tinted h _ _⟩
  unfold ConsoleEnv.renderName nameColor looksOf
  rw [hp.1, hp.2.1, hp.2.2, palette_file h, hext]
  cases C.isSymlink i <;> cases C.followSymlinks <;> cases C.broken i <;> cases C.isExecutable i <;> rfl

/-- The text of a path with its colours: a directory as a whole, or the directory part and the name of anything else; `:h` adds where a link points to. -/
def Spec.pathInColor (items : List ColorItem) (isDir : Bool) (path dir name : Str) (color : Option Str) (link : Option Str) : Str :=
  if isDir then inColor items (kindColor "di".toList items) path else
    (if dir = [] then [] else inColor items (kindColor "di".toList items) (dir ++ ['/'])) ++ inColor items color name ++
    match link with
    | none => []
    | some l => " -> ".toList ++ l

theorem renderPath_tinted {colors : Str} {items : List ColorItem} (h : IsColors colors items) (C : ConsoleEnv) (i : EntInfo) (b : Bool) {r e : Str}
    (he : StemExt i.entry.name r e) : C.renderPath (colorPalette colors) i b =
      some ⟨Spec.pathInColor items i.isDir i.entry.path i.entry.dir i.entry.name (nameColor items (looksOf C i) e)
        (if C.isSymlink i && b then some (C.link i) else none), (pathText C i b).length⟩ := by
  unfold ConsoleEnv.renderPath Spec.pathInColor pathText
  rw [renderName_tinted h C i he]
  simp only [palette_directory h]
  by_cases h1 : i.isDir = true
  · rw [if_pos h1, if_pos h1, if_pos h1]; rfl
  · rw [if_neg h1, if_neg h1, if_neg h1]
    by_cases h2 : i.entry.dir = []
    · by_cases h3 : (C.isSymlink i && b) = true
      · simp only [h2, h3, ne_eq, not_true_eq_false, if_false, if_true, tinted]
        simp
        omega
      · simp [h2, h3, tinted]
    · by_cases h3 : (C.isSymlink i && b) = true
      · simp [h2, h3, tinted]
        omega
      · simp [h2, h3, tinted]
        omega

/-- A field without a width, or with one: the colours do not count. -/
def Spec.ColumnAs (width : Option Str) (plain colored : Str) (out : Str) : Prop :=
  match width with
  | none => out = colored
  | some w => PaddedAs ((pyInt w).getD 0) plain colored out

theorem format_tinted {C : ConsoleEnv} {P : Palette} {i : EntInfo} {f : Field} {plain colored : Str}
    (h : C.renderField P i f = some ⟨colored, plain.length⟩) : ∃ out, C.formatField P i f = some out ∧ Spec.ColumnAs f.width plain colored out := by
  unfold ConsoleEnv.formatField Spec.ColumnAs
  rw [h]
  cases f.width with
  | none => exact ⟨_, rfl, rfl⟩
  | some w => exact ⟨_, rfl, _, rfl, rfl⟩

/-- C90: the field `name` is printed in the colour LS_COLORS gives for the entry. -/
theorem C90_name_partial {colors : Str} {items : List ColorItem} (h : IsColors colors items) (C : ConsoleEnv) (i : EntInfo) (f : Field)
    (hf : f.attr = ("file".toList, "name".toList)) {r e : Str} (he : StemExt i.entry.name r e) :
    ∃ out, C.column (colorPalette colors) i f = some out ∧
      Spec.ColumnAs f.width i.entry.name (inColor items (nameColor items (looksOf C i) e) i.entry.name) out := by
  have hr : C.renderField (colorPalette colors) i f = some (tinted items (nameColor items (looksOf C i) e) i.entry.name) := by
    unfold ConsoleEnv.renderField
    rw [if_neg (by rw [hf]; decide), if_pos hf, renderName_tinted h C i he]
  obtain ⟨out, h1, h2⟩ := format_tinted hr
  exact ⟨out, by unfold ConsoleEnv.column; rw [h1], h2⟩

/-- C90: the field `dir` is printed in the colour of directories. -/
theorem C90_dir_partial {colors : Str} {items : List ColorItem} (h : IsColors colors items) (C : ConsoleEnv) (i : EntInfo) (f : Field)
    (hf : f.attr = ("file".toList, "dir".toList)) :
    ∃ out, C.column (colorPalette colors) i f = some out ∧
      Spec.ColumnAs f.width i.entry.dir (inColor items (kindColor "di".toList items) i.entry.dir) out := by
  have hr : C.renderField (colorPalette colors) i f = some (tinted items (kindColor "di".toList items) i.entry.dir) := by
    unfold ConsoleEnv.renderField
    rw [if_pos hf, palette_directory h]
  obtain ⟨out, h1, h2⟩ := format_tinted hr
  exact ⟨out, by unfold ConsoleEnv.column; rw [h1], h2⟩

/-- C90: the field `path` is printed in the colours LS_COLORS gives for directories and for the entry. -/
theorem C90_path_partial {colors : Str} {items : List ColorItem} (h : IsColors colors items) (C : ConsoleEnv) (i : EntInfo) (f : Field)
    (hf : f.attr = ("file".toList, "path".toList)) {r e : Str} (he : StemExt i.entry.name r e) :
    ∃ plain out, C.renderField plainPalette i f = some (.plain plain) ∧ C.column (colorPalette colors) i f = some out ∧
      Spec.ColumnAs f.width plain (Spec.pathInColor items i.isDir i.entry.path i.entry.dir i.entry.name (nameColor items (looksOf C i) e)
        (if C.isSymlink i = true ∧ f.modifier = some 'h' then some (C.link i) else none)) out := by
  have hr : C.renderField (colorPalette colors) i f = some ⟨Spec.pathInColor items i.isDir i.entry.path i.entry.dir i.entry.name (nameColor items (looksOf C i) e)
        (if C.isSymlink i = true ∧ f.modifier = some 'h' then some (C.link i) else none), (pathText C i (f.modifier = some 'h')).length⟩ := by
    unfold ConsoleEnv.renderField
    rw [if_neg (by rw [hf]; decide), if_neg (by rw [hf]; decide), if_pos hf, renderPath_tinted h C i _ he]
    simp only [Bool.and_eq_true, decide_eq_true_eq]
  obtain ⟨out, h1, h2⟩ := format_tinted hr
  refine ⟨_, out, ?_, by unfold ConsoleEnv.column; rw [h1], h2⟩
  unfold ConsoleEnv.renderField
  rw [if_neg (by rw [hf]; decide), if_neg (by rw [hf]; decide), if_pos hf, plain_renderPath]

/-- C90: other fields are printed without colours. -/
theorem C90_other_partial {colors : Str} (C : ConsoleEnv) (i : EntInfo) (f : Field)
    (h1 : f.attr ≠ ("file".toList, "name".toList)) (h2 : f.attr ≠ ("file".toList, "dir".toList)) (h3 : f.attr ≠ ("file".toList, "path".toList)) :
    C.column (colorPalette colors) i f = C.column plainPalette i f := by
  unfold ConsoleEnv.column ConsoleEnv.formatField ConsoleEnv.renderField
  rw [if_neg h2, if_neg h1, if_neg h3, if_neg h2, if_neg h1, if_neg h3]

/-! ### Instances -/

/-- `di=01;34:ln=36:or=31:ex=32:*.gz=35:*.gz=33`. -/
def demoItems : List ColorItem := [.kind "di".toList "01;34".toList, .kind "ln".toList "36".toList, .kind "or".toList "31".toList,
  .kind "ex".toList "32".toList, .ext "gz".toList "35".toList, .ext "gz".toList "33".toList]

def demoColors : Str := "di=01;34:ln=36:or=31:ex=32:*.gz=35:*.gz=33".toList

theorem demoColors_items : IsColors demoColors demoItems := by
  refine ⟨by decide, ?_, by decide⟩
  have hl : ∀ c ∈ "dilnorex".toList, Letter c := by unfold Letter; decide
  intro i hi
  simp only [demoItems, List.mem_cons, List.not_mem_nil, or_false] at hi
  rcases hi with rfl | rfl | rfl | rfl | rfl | rfl
  · exact ⟨⟨_, _, rfl, hl _ (by decide), hl _ (by decide)⟩, by decide⟩
  · exact ⟨⟨_, _, rfl, hl _ (by decide), hl _ (by decide)⟩, by decide⟩
  · exact ⟨⟨_, _, rfl, hl _ (by decide), hl _ (by decide)⟩, by decide⟩
  · exact ⟨⟨_, _, rfl, hl _ (by decide), hl _ (by decide)⟩, by decide⟩
  · exact ⟨by decide, by decide, by decide⟩
  · exact ⟨by decide, by decide, by decide⟩

def demoTarball : EntInfo := ⟨⟨".".toList, "/home".toList⟩, "a/x.tar.gz".toList, false, []⟩

/-- A file in its colours; the last item for `gz` counts. -/
example : IsColors demoColors demoItems ∧ StemExt demoTarball.entry.name "x.tar".toList ".gz".toList ∧
    (demoConsole ['\n']).column (colorPalette demoColors) demoTarball pathField = some "\x1b[01;34ma/\x1b[0m\x1b[33mx.tar.gz\x1b[0m".toList ∧
    (demoConsole ['\n']).column (colorPalette demoColors) demoTarball nameField = some "\x1b[33mx.tar.gz\x1b[0m".toList :=
  ⟨demoColors_items, splitext_iff.2 (by decide), by decide, by decide⟩

/-- Links, with and without a target. -/
example : ({ demoConsole ['\n'] with isSymlink := fun _ => true, link := fun _ => "y".toList }).column (colorPalette demoColors) demoTarball
      { pathField with modifier := some 'h' } = some "\x1b[01;34ma/\x1b[0m\x1b[36mx.tar.gz\x1b[0m -> y".toList ∧
    ({ demoConsole ['\n'] with isSymlink := fun _ => true, broken := fun _ => true }).column (colorPalette demoColors) demoTarball
      { nameField with width := some "10".toList } = some "  \x1b[31mx.tar.gz\x1b[0m".toList ∧
    ({ demoConsole ['\n'] with isExecutable := fun _ => true }).column (colorPalette demoColors) demoTarball nameField = some "\x1b[32mx.tar.gz\x1b[0m".toList := by
  decide

/-! ### What is not as dir_colors(5) has it -/

/-- C90 fails for suffixes that are no single extension: with `*.tar.gz=31` alone every file `*.gz` is coloured. -/
theorem C90_suffix_false : ∃ i : EntInfo, i.entry.name = "x.gz".toList ∧
    (demoConsole ['\n']).column (colorPalette "*.tar.gz=31".toList) i { nameField with width := none } = some "\x1b[31mx.gz\x1b[0m".toList :=
  ⟨⟨⟨".".toList, "/home".toList⟩, "x.gz".toList, false, []⟩, by decide, by decide⟩

/-- C90 fails for `ln=target`, which is no colour but tells to use the colour of the target: "target" ends up in an escape sequence. -/
theorem C90_target_false : ∃ i : EntInfo, ({ demoConsole ['\n'] with isSymlink := fun _ => true }).column (colorPalette "ln=target:*.gz=31".toList) i
    { nameField with width := none } = some "\x1b[targetmx.gz\x1b[0m".toList :=
  ⟨⟨⟨".".toList, "/home".toList⟩, "x.gz".toList, false, []⟩, by decide⟩

/-- C90 fails for the names of directories: they are printed in the colour of their extension and not in that of directories. -/
theorem C90_dirname_false : ∃ i : EntInfo, i.isDir = true ∧
    (demoConsole ['\n']).column (colorPalette demoColors) i { nameField with width := none } = some "\x1b[33md.gz\x1b[0m".toList :=
  ⟨⟨⟨".".toList, "/home".toList⟩, "d.gz".toList, true, []⟩, rfl, by decide⟩

end FF
