import Verif.Props.Console
/-! C32: colours. -/
namespace FF
open Spec

theorem Spec.Inserted.refl (E : Str → Prop) (a : Str) : Inserted E a a := by
  induction a with
  | nil => exact .nil
  | cons x xs ih => exact .char x ih

theorem Spec.Inserted.append {E : Str → Prop} {a b a' b' : Str} (h : Inserted E a b) (h' : Inserted E a' b') : Inserted E (a ++ a') (b ++ b') := by
  induction h with
  | nil => exact h'
  | char c _ ih => exact .char c ih
  | esc he _ ih => rw [List.append_assoc]; exact .esc he ih

theorem splitOn_items (c : Char) (s : Str) : ∃ w ws, splitOn c s = w :: ws ∧ (c ∉ w ∧ ∃ b, s = w ++ b ∧ (b = [] ∨ ∃ b', b = c :: b')) ∧
    ∀ p ∈ ws, c ∉ p ∧ ∃ a b, s = a ++ (p ++ b) ∧ (b = [] ∨ ∃ b', b = c :: b') := by
  induction s with
  | nil => exact ⟨[], [], rfl, ⟨by simp, [], rfl, .inl rfl⟩, by simp⟩
  | cons x xs ih =>
    obtain ⟨w, ws, he, ⟨hw, b, hb, hb'⟩, hws⟩ := ih
    unfold splitOn
    by_cases hx : x = c
    · rw [if_pos hx, he]
      refine ⟨[], w :: ws, rfl, ⟨by simp, x :: xs, rfl, .inr ⟨xs, by rw [hx]⟩⟩, ?_⟩
      intro p hp
      rcases List.mem_cons.1 hp with rfl | hp
      · exact ⟨hw, [x], b, by rw [hb]; rfl, hb'⟩
      · obtain ⟨h1, a, b2, h2, h3⟩ := hws p hp
        exact ⟨h1, x :: a, b2, by rw [h2]; rfl, h3⟩
    · rw [if_neg hx, he]
      refine ⟨x :: w, ws, rfl, ⟨?_, b, by rw [hb]; rfl, hb'⟩, ?_⟩
      · simp only [List.mem_cons, not_or]; exact ⟨fun e => hx e.symm, hw⟩
      · intro p hp
        obtain ⟨h1, a, b2, h2, h3⟩ := hws p hp
        exact ⟨h1, x :: a, b2, by rw [h2]; rfl, h3⟩

theorem splitOn_item {c : Char} {s p : Str} (h : p ∈ splitOn c s) : c ∉ p ∧ ∃ a b, s = a ++ (p ++ b) ∧ (b = [] ∨ ∃ b', b = c :: b') := by
  obtain ⟨w, ws, he, ⟨hw, b, hb, hb'⟩, hws⟩ := splitOn_items c s
  rw [he] at h
  rcases List.mem_cons.1 h with rfl | h
  · exact ⟨hw, [], b, hb, hb'⟩
  · exact hws p h

theorem splitEq_some {s k v : Str} (h : splitEq s = some (k, v)) : s = k ++ '=' :: v := by
  induction s generalizing k with
  | nil => cases h
  | cons x xs ih =>
    unfold splitEq at h
    split at h
    · rename_i hx; cases h; rw [hx]; rfl
    · cases hs : splitEq xs with
      | none => rw [hs] at h; cases h
      | some p =>
        rw [hs] at h
        obtain ⟨k', v'⟩ := p
        cases h
        rw [ih hs]; rfl

theorem dictSet_mem {κ ν : Type} [DecidableEq κ] {d : List (κ × ν)} {k : κ} {v : ν} {p : κ × ν} (h : p ∈ dictSet d k v) : p = (k, v) ∨ p ∈ d := by
  induction d with
  | nil => simpa [dictSet] using h
  | cons q rest ih =>
    obtain ⟨a, b⟩ := q
    unfold dictSet at h
    split at h
    · rename_i hk
      rcases List.mem_cons.1 h with h | h
      · exact .inl (by rw [h, hk])
      · exact .inr (by simp [h])
    · rcases List.mem_cons.1 h with h | h
      · exact .inr (by simp [h])
      · exact (ih h).imp id (fun h => by simp [h])

theorem dictGet_mem {κ ν : Type} [DecidableEq κ] {d : List (κ × ν)} {k : κ} {v : ν} (h : dictGet d k = some v) : (k, v) ∈ d := by
  unfold dictGet at h
  cases hf : d.find? (fun r => decide (r.1 = k)) with
  | none => rw [hf] at h; cases h
  | some p =>
    rw [hf] at h
    obtain ⟨a, b⟩ := p
    cases h
    have h1 := List.mem_of_find?_eq_some hf
    have h2 := List.find?_some hf
    simp at h2
    rw [← h2]; exact h1

theorem lsColors_values (colors : Str) : (∀ p ∈ (lsColors colors).1, ColorValue colors p.2) ∧
    ∀ p ∈ (lsColors colors).2, ∃ v, ColorValue colors v ∧ p.2 = escSeq v := by
  unfold lsColors
  have gen : ∀ (parts : List Str) (st : List (Str × Str) × List (Str × Str)), (∀ p ∈ parts, p ∈ splitOn ':' colors) →
      (∀ p ∈ st.1, ColorValue colors p.2) → (∀ p ∈ st.2, ∃ v, ColorValue colors v ∧ p.2 = escSeq v) →
      ∀ st', st' = parts.foldl (fun st part => match splitEq part with
        | none => st
        | some (key, value) =>
          if key.length = 2 ∧ key.all Char.isAlpha then (dictSet st.1 key value, st.2)
          else
            let ext := (splitext key).2.drop 1
            if ext ≠ [] then (st.1, dictSet st.2 ext (escSeq value)) else st) st →
      (∀ p ∈ st'.1, ColorValue colors p.2) ∧ (∀ p ∈ st'.2, ∃ v, ColorValue colors v ∧ p.2 = escSeq v) := by
    intro parts
    induction parts with
    | nil => rintro st _ h1 h2 st' rfl; exact ⟨h1, h2⟩
    | cons part parts ih =>
      rintro st hp h1 h2 st' rfl
      refine ih _ (fun p h => hp p (by simp [h])) ?_ ?_ _ rfl
      · intro p h
        cases hs : splitEq part with
        | none => simp only [hs] at h; exact h1 p h
        | some kv =>
          obtain ⟨key, value⟩ := kv
          have hv : ColorValue colors value := by
            obtain ⟨hc, a, b, hab, hb⟩ := splitOn_item (hp part (by simp))
            rw [splitEq_some hs] at hc hab
            refine .inr ⟨fun h => hc (by simp [h]), a ++ key, b, by rw [hab]; simp, hb⟩
          simp only [hs] at h
          split at h
          · rcases dictSet_mem h with rfl | h
            · exact hv
            · exact h1 p h
          · split at h
            · exact h1 p h
            · exact h1 p h
      · intro p h
        cases hs : splitEq part with
        | none => simp only [hs] at h; exact h2 p h
        | some kv =>
          obtain ⟨key, value⟩ := kv
          have hv : ColorValue colors value := by
            obtain ⟨hc, a, b, hab, hb⟩ := splitOn_item (hp part (by simp))
            rw [splitEq_some hs] at hc hab
            refine .inr ⟨fun h => hc (by simp [h]), a ++ key, b, by rw [hab]; simp, hb⟩
          simp only [hs] at h
          split at h
          · exact h2 p h
          · split at h
            · rcases dictSet_mem h with rfl | h
              · exact ⟨value, hv, rfl⟩
              · exact h2 p h
            · exact h2 p h
  exact gen _ ([], []) (fun p h => h) (by simp) (by simp) _ rfl

/-- Two renderings of a text, the first plain, the second with escape sequences. -/
def Coloured (colors : Str) (s : Str) (r : RStr) : Prop := r.length = s.length ∧ Inserted (IsEscape colors) s r.value

theorem escSeq_inserted {colors v s t : Str} (hv : ColorValue colors v) (h : Inserted (IsEscape colors) s t) : Inserted (IsEscape colors) s (escSeq v ++ t) := by
  unfold escSeq
  by_cases hn : v = []
  · rw [if_pos hn]; exact h
  · rw [if_neg hn]; exact .esc ⟨v, hn, hv, rfl⟩ h

theorem Coloured.plain (colors s : Str) : Coloured colors s (.plain s) := ⟨rfl, Inserted.refl _ s⟩

theorem Coloured.wrap {colors v r s : Str} (hv : ColorValue colors v) (hr : ColorValue colors r) : Coloured colors s ⟨escSeq v ++ s ++ escSeq r, s.length⟩ := by
  refine ⟨rfl, ?_⟩
  rw [List.append_assoc]
  refine escSeq_inserted hv ?_
  have h := Inserted.append (Inserted.refl (IsEscape colors) s) (escSeq_inserted hr Inserted.nil)
  simpa using h

/-- A palette that only adds escape sequences. -/
structure GoodPalette (colors : Str) (P : Palette) : Prop where
  file : ∀ ext s, ∃ r, P.file ext s = some r ∧ Coloured colors s r
  directory : ∀ s, ∃ r, P.directory s = some r ∧ Coloured colors s r
  executable : ∀ s, ∃ r, P.executable s = some r ∧ Coloured colors s r
  symlink : ∀ s, ∃ r, P.symlink s = some r ∧ Coloured colors s r
  orphan : ∀ s, ∃ r, P.orphan s = some r ∧ Coloured colors s r

theorem colorPalette_good {colors : Str} (hc : colors ≠ []) : GoodPalette colors (colorPalette colors) := by
  obtain ⟨hr, he⟩ := lsColors_values colors
  have hreset : ColorValue colors ((dictGet (lsColors colors).1 "rs".toList).getD ['0']) := by
    cases hg : dictGet (lsColors colors).1 "rs".toList with
    | none => exact .inl rfl
    | some v => exact hr _ (dictGet_mem hg)
  have hcol : ∀ rule s, ∃ r, colorize (lsColors colors).1 (escSeq ((dictGet (lsColors colors).1 "rs".toList).getD ['0'])) rule s = some r ∧ Coloured colors s r := by
    intro rule s
    unfold colorize
    cases hg : dictGet (lsColors colors).1 rule with
    | none => exact ⟨_, rfl, Coloured.plain colors s⟩
    | some v => exact ⟨_, rfl, Coloured.wrap (hr _ (dictGet_mem hg)) hreset⟩
  unfold colorPalette
  rw [if_neg hc]
  refine ⟨?_, hcol _, hcol _, hcol _, hcol _⟩
  intro ext s
  dsimp only
  cases hg : dictGet (lsColors colors).2 ext with
  | none => exact ⟨_, rfl, Coloured.plain colors s⟩
  | some e =>
    obtain ⟨v, hv, hve⟩ := he _ (dictGet_mem hg)
    simp only at hve
    subst hve
    exact ⟨_, rfl, Coloured.wrap hv hreset⟩

theorem good_renderName {colors : Str} {P : Palette} (h : GoodPalette colors P) (C : ConsoleEnv) (i : EntInfo) :
    ∃ r, C.renderName P i = some r ∧ Coloured colors i.entry.name r := by
  unfold ConsoleEnv.renderName
  split
  · split
    · exact h.orphan _
    · exact h.symlink _
  · split
    · exact h.executable _
    · exact h.file _ _

theorem good_renderPath {colors : Str} {P : Palette} (h : GoodPalette colors P) (C : ConsoleEnv) (i : EntInfo) (b : Bool) :
    ∃ r, C.renderPath P i b = some r ∧ Coloured colors (pathText C i b) r := by
  unfold ConsoleEnv.renderPath pathText
  obtain ⟨n, hn, hn1, hn2⟩ := good_renderName h C i
  rw [hn]
  by_cases h1 : i.isDir = true
  · rw [if_pos h1, if_pos h1]; exact h.directory _
  · rw [if_neg h1, if_neg h1]
    obtain ⟨d, hd, hd1, hd2⟩ := h.directory (i.entry.dir ++ ['/'])
    have key : ∃ p, (if i.entry.dir ≠ [] then (P.directory (i.entry.dir ++ ['/'])).map (fun d => RStr.mk (d.value ++ n.value) (d.length + n.length)) else some n) = some p ∧
        Coloured colors ((if i.entry.dir ≠ [] then i.entry.dir ++ ['/'] else []) ++ i.entry.name) p := by
      by_cases h2 : i.entry.dir ≠ []
      · rw [if_pos h2, if_pos h2, hd]
        exact ⟨_, rfl, (by simp [hd1, hn1]; omega), hd2.append hn2⟩
      · rw [if_neg h2, if_neg h2]
        exact ⟨n, rfl, hn1, hn2⟩
    obtain ⟨p, hp, hp1, hp2⟩ := key
    simp only [hp]
    by_cases h3 : (C.isSymlink i && b) = true
    · rw [if_pos h3, if_pos h3]
      refine ⟨_, rfl, (by simp [hp1]; omega), ?_⟩
      simp only [List.append_assoc]
      have := hp2.append (Inserted.refl (IsEscape colors) (" -> ".toList ++ C.link i))
      simpa only [List.append_assoc] using this
    · rw [if_neg h3, if_neg h3]
      exact ⟨p, rfl, by simpa using hp1, by simpa using hp2⟩

theorem good_renderField {colors : Str} {P : Palette} (h : GoodPalette colors P) (C : ConsoleEnv) (i : EntInfo) (f : Field) :
    (fieldText C i f = none → C.renderField P i f = none) ∧
    ∀ s, fieldText C i f = some s → ∃ r, C.renderField P i f = some r ∧ Coloured colors s r := by
  unfold ConsoleEnv.renderField fieldText
  by_cases h1 : f.attr = ("file".toList, "dir".toList)
  · have : ¬ f.attr = ("file".toList, "path".toList) := by rw [h1]; decide
    rw [if_pos h1, if_neg this, if_pos h1]
    exact ⟨fun h => (by cases h), by rintro s hs; cases hs; exact h.directory _⟩
  · rw [if_neg h1, if_neg h1]
    by_cases h2 : f.attr = ("file".toList, "name".toList)
    · have : ¬ f.attr = ("file".toList, "path".toList) := by rw [h2]; decide
      rw [if_pos h2, if_neg this, if_pos h2]
      exact ⟨fun h => (by cases h), by rintro s hs; cases hs; exact good_renderName h C i⟩
    · rw [if_neg h2, if_neg h2]
      by_cases h3 : f.attr = ("file".toList, "path".toList)
      · rw [if_pos h3, if_pos h3]
        exact ⟨fun h => (by cases h), by rintro s hs; cases hs; exact good_renderPath h C i _⟩
      · rw [if_neg h3, if_neg h3]
        cases C.render.search.attr i f.attr with
        | none => exact ⟨fun _ => rfl, by rintro s hs; cases hs⟩
        | some v => exact ⟨fun h => (by cases h), by rintro s hs; cases hs; exact ⟨_, rfl, Coloured.plain colors _⟩⟩

theorem good_pad {colors s : Str} {r : RStr} (h : Coloured colors s r) (n : Int) : Inserted (IsEscape colors) (padString (.plain s) n) (padString r n) := by
  unfold padString
  simp only [RStr.plain, h.1]
  split
  · exact h.2.append (Inserted.refl _ _)
  · exact (Inserted.refl _ _).append h.2

theorem good_column {colors : Str} {P : Palette} (h : GoodPalette colors P) (C : ConsoleEnv) (i : EntInfo) (f : Field) :
    (C.column plainPalette i f = none → C.column P i f = none) ∧
    ∀ a, C.column plainPalette i f = some a → ∃ b, C.column P i f = some b ∧ Inserted (IsEscape colors) a b := by
  obtain ⟨h1, h2⟩ := good_renderField h C i f
  unfold ConsoleEnv.column ConsoleEnv.formatField
  rw [plain_renderField]
  cases hf : fieldText C i f with
  | none =>
    rw [h1 hf]
    refine ⟨fun h => h, fun a ha => ?_⟩
    simp only [Option.map_none] at ha ⊢
    refine ⟨a, ha, Inserted.refl _ _⟩
  | some s =>
    obtain ⟨r, hr, hc⟩ := h2 s hf
    rw [hr]
    simp only [Option.map_some]
    cases f.width with
    | none => exact ⟨fun h => (by cases h), by rintro a ha; cases ha; exact ⟨_, rfl, hc.2⟩⟩
    | some w => exact ⟨fun h => (by cases h), by rintro a ha; cases ha; exact ⟨_, rfl, good_pad hc _⟩⟩

theorem good_columns {colors : Str} {P : Palette} (h : GoodPalette colors P) (C : ConsoleEnv) (i : EntInfo) (fields : List Field) :
    (mapOption (C.column plainPalette i) fields = none → mapOption (C.column P i) fields = none) ∧
    ∀ a, mapOption (C.column plainPalette i) fields = some a → ∃ b, mapOption (C.column P i) fields = some b ∧
      Inserted (IsEscape colors) (joinStr C.separator a) (joinStr C.separator b) ∧ a.length = b.length := by
  induction fields with
  | nil => exact ⟨fun h => h, by rintro a ha; cases ha; exact ⟨[], rfl, .nil, rfl⟩⟩
  | cons f fs ih =>
    obtain ⟨g1, g2⟩ := good_column h C i f
    simp only [mapOption]
    cases hc : C.column plainPalette i f with
    | none => rw [g1 hc]; exact ⟨fun _ => rfl, by rintro a ha; cases ha⟩
    | some a =>
      obtain ⟨b, hb, hab⟩ := g2 a hc
      rw [hb]
      cases hm : mapOption (C.column plainPalette i) fs with
      | none => rw [ih.1 hm]; exact ⟨fun _ => rfl, by rintro a ha; cases ha⟩
      | some as =>
        obtain ⟨bs, hbs, hj, hl⟩ := ih.2 as hm
        rw [hbs]
        refine ⟨fun h => (by cases h), ?_⟩
        rintro a' ha'
        cases ha'
        refine ⟨_, rfl, ?_, by simp [hl]⟩
        cases as with
        | nil => cases bs with
          | nil => exact hab
          | cons _ _ => simp at hl
        | cons x xs => cases bs with
          | nil => simp at hl
          | cons y ys => exact hab.append ((Inserted.refl _ _).append hj)

/-- C32, with LS_COLORS set: with colours a line is printed for an entry iff one is printed without, and it is the same line with escape sequences inserted. What
is missing is an unset LS_COLORS, see `C32_false`. -/
theorem C32_partial (C : ConsoleEnv) (colors : Str) (hc : colors ≠ []) (fields : List Field) (i : EntInfo) :
    (C.line plainPalette fields i = none ↔ C.line (colorPalette colors) fields i = none) ∧
    ∀ a, C.line plainPalette fields i = some a → ∃ b, C.line (colorPalette colors) fields i = some b ∧ Inserted (IsEscape colors) a b := by
  obtain ⟨h1, h2⟩ := good_columns (colorPalette_good hc) C i fields
  unfold ConsoleEnv.line
  cases hm : mapOption (C.column plainPalette i) fields with
  | none => rw [h1 hm]; exact ⟨Iff.rfl, by rintro a ha; cases ha⟩
  | some as =>
    obtain ⟨bs, hb, hj, _⟩ := h2 as hm
    rw [hb]
    exact ⟨by simp, by rintro a ha; cases ha; exact ⟨_, rfl, hj⟩⟩

/-- C32 for the whole output: with colours it is the output without and escape sequences inserted. -/
theorem C32_output_partial (C : ConsoleEnv) (colors : Str) (hc : colors ≠ []) (fields : List Field) (entries : List EntInfo) :
    Inserted (IsEscape colors) (C.output plainPalette fields entries) (C.output (colorPalette colors) fields entries) := by
  unfold ConsoleEnv.output
  induction entries with
  | nil => exact .nil
  | cons i es ih =>
    obtain ⟨h1, h2⟩ := C32_partial C colors hc fields i
    cases hl : C.line plainPalette fields i with
    | none => rw [List.filterMap_cons_none hl, List.filterMap_cons_none (h1.1 hl)]; exact ih
    | some a =>
      obtain ⟨b, hb, hi⟩ := h2 a hl
      rw [List.filterMap_cons_some hl, List.filterMap_cons_some hb]
      exact (hi.append (Inserted.refl _ _)).append ih

/-- C32, column widths: the width of a coloured field, without its escape sequences, is the width of the plain field. -/
theorem C32_width_partial (C : ConsoleEnv) (colors : Str) (hc : colors ≠ []) (i : EntInfo) (f : Field) :
    (C.renderField (colorPalette colors) i f).map RStr.length = (C.renderField plainPalette i f).map RStr.length := by
  obtain ⟨h1, h2⟩ := good_renderField (colorPalette_good hc) C i f
  rw [plain_renderField]
  cases hf : fieldText C i f with
  | none => rw [h1 hf]; rfl
  | some s =>
    obtain ⟨r, hr, hl, _⟩ := h2 s hf
    rw [hr]
    simp [hl, RStr.plain]

end FF
