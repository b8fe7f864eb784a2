import Verif.Props.Color
import Verif.Props.Entry
import Verif.Props.Search
/-! C29: output separated by NUL characters; instances for C31-C33. -/
namespace FF
open Spec

/-- The field `path`. -/
def IsPathField (f : Field) : Prop := f.attr = ("file".toList, "path".toList) ∧ f.width = none ∧ f.modifier = none

theorem entry_dir_name {i : EntInfo} (hd : i.entry.dir ≠ ['/']) : (if i.entry.dir ≠ [] then i.entry.dir ++ ['/'] else []) ++ i.entry.name = i.entry.path := by
  have h1 : i.entry.dir = (pathSplit i.entry.path).1 := rfl
  have h2 : i.entry.name = (pathSplit i.entry.path).2 := rfl
  rw [h1] at hd
  rw [h1, h2]
  generalize i.entry.path = p at hd
  rcases exists_last_split p '/' with hp | ⟨a, b, rfl, hb⟩
  · rw [pathSplit_no_sep hp]; rfl
  · by_cases ha : a = []
    · subst ha
      rw [List.nil_append, pathSplit_root hb] at hd
      exact absurd rfl hd
    · rw [pathSplit_mid ha hb]
      simp [ha]

/-- The text of an entry on the console is its path, unless it is a file directly in "/". -/
theorem pathText_path (C : ConsoleEnv) {i : EntInfo} (hd : i.isDir = true ∨ i.entry.dir ≠ ['/']) : pathText C i false = i.entry.path := by
  unfold pathText
  by_cases h : i.isDir = true
  · rw [if_pos h]
  · rw [if_neg h]
    simpa using entry_dir_name (hd.resolve_left h)

/-- C29, for entries none of which is a file directly in "/": the paths are recovered by splitting the output at NUL characters. Paths with characters that cannot
be encoded are the subject of `C29_encode_partial`; see `C29_root_false` and `C29_false` for what is missing. -/
theorem C29_partial (C : ConsoleEnv) (hn : C.newline = ['\x00']) {f : Field} (hf : IsPathField f) (entries : List EntInfo)
    (h : ∀ i ∈ entries, '\x00' ∉ i.entry.path ∧ (i.isDir = true ∨ i.entry.dir ≠ ['/'])) :
    splitOn '\x00' (C.output plainPalette [f] entries) = entries.map (fun i => i.entry.path) ++ [[]] := by
  obtain ⟨h1, h2, h3⟩ := hf
  have line : ∀ i ∈ entries, C.line plainPalette [f] i = some i.entry.path := by
    intro i hi
    have hp : Provided C i f := .inr (.inr (by rw [h1, attr_path]; rfl))
    unfold ConsoleEnv.line
    rw [(plain_columns C i [f]).1 (by simpa using hp)]
    simp [joinStr, columnText, fieldText, h1, h2, h3, pathText_path C (h i hi).2]
  unfold ConsoleEnv.output
  induction entries with
  | nil => rfl
  | cons i es ih =>
    rw [List.filterMap_cons_some (line i (by simp)), List.flatMap_cons, hn, List.append_assoc, List.singleton_append,
      splitOn_append_sep _ _ _ (h i (by simp)).1]
    rw [hn] at ih
    rw [ih (fun i hi => h i (by simp [hi])) (fun i hi => line i (by simp [hi]))]
    rfl

/-- C29, encoding: lines without surrogates can be told apart from what is written. -/
theorem C29_encode_partial (ls ms : List UStr) (hl : ∀ l ∈ ls, 0 ∉ l ∧ l.any isSurrogate = false) (hm : ∀ l ∈ ms, 0 ∉ l ∧ l.any isSurrogate = false)
    (h : ls.flatMap (writeLine [0]) = ms.flatMap (writeLine [0])) : ls = ms := by
  have w : ∀ l : UStr, l.any isSurrogate = false → writeLine [0] l = l ++ [0] := by
    intro l hl; unfold writeLine; rw [hl]; rfl
  have inj : ∀ (a b : UStr) (r s : UStr), 0 ∉ a → 0 ∉ b → a ++ 0 :: r = b ++ 0 :: s → a = b ∧ r = s := by
    intro a
    induction a with
    | nil =>
      intro b r s _ hb e
      cases b with
      | nil => simpa using e
      | cons y ys => simp at e; exact absurd (by simp [e.1]) hb
    | cons x xs ih =>
      intro b r s ha hb e
      cases b with
      | nil => simp at e; exact absurd (by simp [e.1]) ha
      | cons y ys =>
        simp only [List.cons_append, List.cons.injEq] at e
        simp only [List.mem_cons, not_or] at ha hb
        obtain ⟨h1, h2⟩ := ih ys r s ha.2 hb.2 e.2
        exact ⟨by rw [e.1, h1], h2⟩
  induction ls generalizing ms with
  | nil => cases ms with
    | nil => rfl
    | cons m ms => rw [List.flatMap_cons, w m (hm m (by simp)).2] at h; simp at h
  | cons l ls ih => cases ms with
    | nil => rw [List.flatMap_cons, w l (hl l (by simp)).2] at h; simp at h
    | cons m ms =>
      simp only [List.flatMap_cons, w l (hl l (by simp)).2, w m (hm m (by simp)).2, List.append_assoc, List.singleton_append] at h
      obtain ⟨h1, h2⟩ := inj l m _ _ (hl l (by simp)).1 (hm m (by simp)).1 h
      rw [h1, ih ms (fun l hx => hl l (by simp [hx])) (fun l hx => hm l (by simp [hx])) h2]

/-- C29 fails: a file name that is the byte 0xFF (which Python represents as U+DCFF) and one that consists of the six characters `\udcff` are printed alike. -/
theorem C29_false : ¬ ∀ ls ms : List UStr, (∀ l ∈ ls, 0 ∉ l) → (∀ l ∈ ms, 0 ∉ l) → ls.flatMap (writeLine [0]) = ms.flatMap (writeLine [0]) → ls = ms := by
  intro h
  have := h [[0xDCFF]] [[92, 117, 100, 99, 102, 102]] (by decide) (by decide) (by decide)
  exact absurd this (by decide)

/-! ### Instances -/

def demoConsole (newline : Str) : ConsoleEnv :=
  { render := { search := demoSearch, out := ⟨false, fun _ => 0⟩, all := false }, isSymlink := fun _ => false, broken := fun _ => false,
    isExecutable := fun _ => false, link := fun _ => [], followSymlinks := false, separator := [' '], newline := newline }

def pathField : Field := ⟨("file".toList, "path".toList), "path".toList, .path, none, none⟩
def sizeField : Field := ⟨("file".toList, "size".toList), "size".toList, .size, some "5".toList, none⟩
def nameField : Field := ⟨("file".toList, "name".toList), "name".toList, .string, some "-5".toList, none⟩

example : IsPathField pathField ∧ (demoConsole ['\x00']).newline = ['\x00'] ∧
    ∀ i ∈ [demoA, demoB], '\x00' ∉ i.entry.path ∧ (i.isDir = true ∨ i.entry.dir ≠ ['/']) :=
  ⟨⟨rfl, rfl, rfl⟩, rfl, by decide⟩

example : ∀ l ∈ [[97, 0xE9], [0x1F600]], 0 ∉ l ∧ l.any isSurrogate = false := by decide

/-- C29 fails for files directly in "/": the path printed is not the path of the entry. -/
theorem C29_root_false : ∃ i : EntInfo, i.entry.path = "/x".toList ∧ (demoConsole ['\x00']).output plainPalette [pathField] [i] = "//x\x00".toList :=
  ⟨⟨⟨"/".toList, "/".toList⟩, "x".toList, false, []⟩, by decide, by decide⟩

/-- C31: a line for a path, none for a size that is missing; a size with the n modifier is left empty. -/
example : (demoConsole ['\n']).line plainPalette [pathField, nameField] demoB = some "a/b b    ".toList ∧
    (demoConsole ['\n']).line plainPalette [pathField, sizeField] demoB = none ∧
    (demoConsole ['\n']).line plainPalette [{ sizeField with modifier := some 'n' }, pathField] demoB = some " a/b".toList := by decide

example : ([pathField, nameField, sizeField] : List Field).Pairwise (fun a b => a.label ≠ b.label) := by decide

/-- C33: a field with a width. -/
example : nameField.width = some "-5".toList ∧ pyInt "-5".toList = some (-5) ∧ (demoConsole ['\n']).renderField plainPalette demoB nameField = some (.plain "b".toList) ∧
    WidthText "-5".toList := ⟨rfl, by decide, by decide, ⟨"5".toList, by decide, by unfold Digit; decide, .inr rfl⟩⟩

/-- C32: with colours. -/
example : (demoConsole ['\n']).line (colorPalette "di=01;34:rs=0".toList) [pathField] demoB = some "\x1b[01;34ma/\x1b[0mb".toList := by decide

/-- C32 fails: with colours but LS_COLORS unset nothing is printed for a file in a directory. -/
theorem C32_false : ¬ ∀ (C : ConsoleEnv) (colors : Str) (fields : List Field) (i : EntInfo),
    C.line plainPalette fields i = none ↔ C.line (colorPalette colors) fields i = none := by
  intro h
  have := (h (demoConsole ['\n']) [] [pathField] demoB).2 (by decide)
  exact absurd this (by decide)

end FF
