import Verif.Spec.Registry
import Verif.Props.Types
/-! Properties C49 and C50. -/
namespace FF
open Spec

theorem splitDot_none {s : Str} (h : '.' ∉ s) : splitDot s = none := by
  induction s with
  | nil => rfl
  | cons c s ih =>
    simp only [List.mem_cons, not_or] at h
    simp [splitDot, Ne.symm h.1, ih h.2]

theorem splitDot_append {p a : Str} (h : '.' ∉ p) : splitDot (p ++ '.' :: a) = some (p, a) := by
  induction p with
  | nil => simp [splitDot]
  | cons c s ih =>
    simp only [List.mem_cons, not_or] at h
    simp [splitDot, Ne.symm h.1, ih h.2]

theorem mem_setOf {l : List Str} {x : Str} : x ∈ setOf l ↔ x ∈ l := by
  induction l generalizing x with
  | nil => simp [setOf]
  | cons y ys ih =>
    simp only [setOf]
    split
    · rename_i h
      rw [ih, List.mem_cons]
      exact ⟨.inr, fun h' => h'.elim (fun e => e ▸ ih.1 h) id⟩
    · simp [ih]

theorem setOf_nodup (l : List Str) : (setOf l).Nodup := by
  induction l with
  | nil => simp [setOf]
  | cons y ys ih =>
    simp only [setOf]
    split
    · exact ih
    · rename_i h; exact List.nodup_cons.2 ⟨h, ih⟩

theorem mem_attributeTable {reg : List PluginDef} {a : Attr} {ty : Ty} :
    (a, ty) ∈ attributeTable reg ↔ ∃ q ∈ reg, q.name = a.1 ∧ (a.2, ty) ∈ q.attrs := by
  simp only [attributeTable, List.mem_flatMap, List.mem_map, Prod.mk.injEq, Prod.exists]
  constructor
  · rintro ⟨q, hq, n, t, hm, rfl, rfl⟩; exact ⟨q, hq, rfl, hm⟩
  · rintro ⟨q, hq, h1, h2⟩; exact ⟨q, hq, a.2, ty, h2, by rw [h1], rfl⟩

theorem mem_pluginsFor {reg : List PluginDef} {p a : Str} : p ∈ pluginsFor reg a ↔ Provides reg p a := by
  simp only [pluginsFor, mem_setOf, List.mem_map, List.mem_filter, decide_eq_true_eq, Prod.exists]
  constructor
  · rintro ⟨q, n, ty, ⟨h1, rfl⟩, rfl⟩
    obtain ⟨q', hq, h2, h3⟩ := mem_attributeTable.1 h1
    exact ⟨q', hq, h2, ty, h3⟩
  · rintro ⟨q, hq, h1, ty, h2⟩
    exact ⟨p, a, ty, ⟨mem_attributeTable.2 ⟨q, hq, h1, h2⟩, rfl⟩, rfl⟩

theorem any_name_iff {reg : List PluginDef} {p : Str} : reg.any (fun q => q.name = p) = true ↔ Loaded reg p := by
  simp [Loaded]

/-- C49: a name without a dot means the file plugin's attribute if there is one, otherwise that of the only plugin providing it,
and is refused if there is no such plugin or more than one. -/
theorem C49_unqualified (reg : List PluginDef) {a : Str} (ha : '.' ∉ a) (p n : Str) :
    setupAttribute reg a = some (p, n) ↔ n = a ∧ Provides reg p a ∧ (p = "file".toList ∨ ∀ q, Provides reg q a → q = p) := by
  have hl : ∀ p, Provides reg p a → reg.any (fun q => q.name = p) = true := by
    rintro p ⟨q, hq, h1, _⟩; exact any_name_iff.2 ⟨q, hq, h1⟩
  have hnd : (pluginsFor reg a).Nodup := setOf_nodup _
  unfold setupAttribute parseAttribute
  rw [splitDot_none ha]
  simp only
  by_cases hf : "file".toList ∈ pluginsFor reg a
  · rw [if_pos hf]
    have hp := mem_pluginsFor.1 hf
    simp only
    rw [if_pos (hl _ hp)]
    simp only [Option.some.injEq, Prod.mk.injEq]
    constructor
    · rintro ⟨rfl, rfl⟩; exact ⟨rfl, hp, .inl rfl⟩
    · rintro ⟨rfl, _, h | h⟩
      · exact ⟨h.symm, rfl⟩
      · exact ⟨h _ hp, rfl⟩
  · rw [if_neg hf]
    cases hps : pluginsFor reg a with
    | nil =>
      simp only [reduceCtorEq, false_iff, not_and]
      intro _ h
      have := mem_pluginsFor.2 h
      rw [hps] at this; cases this
    | cons x xs =>
      cases xs with
      | nil =>
        have hx : Provides reg x a := mem_pluginsFor.1 (by rw [hps]; simp)
        simp only
        rw [if_pos (hl _ hx)]
        simp only [Option.some.injEq, Prod.mk.injEq]
        constructor
        · rintro ⟨rfl, rfl⟩
          refine ⟨rfl, hx, .inr ?_⟩
          intro q hq
          have := mem_pluginsFor.2 hq
          rw [hps] at this; simpa using this
        · rintro ⟨rfl, hp, _⟩
          have := mem_pluginsFor.2 hp
          rw [hps] at this
          exact ⟨(by simpa using this : p = x).symm, rfl⟩
      | cons y ys =>
        simp only [reduceCtorEq, false_iff, not_and, not_or]
        rintro rfl hp
        constructor
        · rintro rfl; exact hf (mem_pluginsFor.2 hp)
        · intro h
          have hx := h x (mem_pluginsFor.1 (by rw [hps]; simp))
          have hy := h y (mem_pluginsFor.1 (by rw [hps]; simp))
          rw [hps] at hnd
          simp [hx, hy] at hnd

/-- C49: a name with a dot means the attribute of the named plugin, which must be loaded. -/
theorem C49_qualified (reg : List PluginDef) {p a : Str} (hp : '.' ∉ p) (r : Attr) :
    setupAttribute reg (p ++ '.' :: a) = some r ↔ r = (p, a) ∧ Loaded reg p := by
  unfold setupAttribute parseAttribute
  rw [splitDot_append hp]
  simp only
  split
  · rename_i h
    simp only [Option.some.injEq]
    exact ⟨fun e => ⟨e.symm, any_name_iff.1 h⟩, fun ⟨e, _⟩ => e.symm⟩
  · rename_i h
    simp only [reduceCtorEq, false_iff, not_and]
    exact fun _ hl => h (any_name_iff.2 hl)

/-- C49: the type of an attribute is the one its plugin declares; other attributes are refused. -/
theorem C49_type {reg : List PluginDef} (hr : Regular reg) (a : Attr) (ty : Ty) :
    attributeType reg a = some ty ↔ ∃ q ∈ reg, q.name = a.1 ∧ (a.2, ty) ∈ q.attrs := by
  have huniq : ∀ t t', (∃ q ∈ reg, q.name = a.1 ∧ (a.2, t) ∈ q.attrs) → (∃ q ∈ reg, q.name = a.1 ∧ (a.2, t') ∈ q.attrs) → t = t' := by
    rintro t t' ⟨q, hq, h1, h2⟩ ⟨q', hq', h1', h2'⟩
    have hqq : q = q' := by
      have := hr.names
      clear h2 h2'
      induction reg with
      | nil => cases hq
      | cons x xs ih =>
        simp only [List.map_cons, List.nodup_cons] at this
        rcases List.mem_cons.1 hq with hq | hq <;> rcases List.mem_cons.1 hq' with hq' | hq'
        · rw [hq, hq']
        · exact absurd (List.mem_map.2 ⟨q', hq', by rw [h1', ← h1, hq]⟩) this.1
        · exact absurd (List.mem_map.2 ⟨q, hq, by rw [h1, ← h1', hq']⟩) this.1
        · exact ih ⟨this.2, fun q hq => hr.attrs q (by simp [hq])⟩ hq hq' this.2
    subst hqq
    have := hr.attrs q hq
    generalize q.attrs = l at this h2 h2'
    induction l with
    | nil => cases h2
    | cons x xs ih =>
      simp only [List.map_cons, List.nodup_cons] at this
      rcases List.mem_cons.1 h2 with e | e <;> rcases List.mem_cons.1 h2' with e' | e'
      · rw [← e] at e'; simp only [Prod.mk.injEq, true_and] at e'; exact e'.symm
      · exact absurd (List.mem_map.2 ⟨_, e', by rw [← e]⟩) this.1
      · exact absurd (List.mem_map.2 ⟨_, e, by rw [← e']⟩) this.1
      · exact ih this.2 e e'
  unfold attributeType
  rw [Option.map_eq_some_iff]
  constructor
  · rintro ⟨⟨b, t⟩, h, rfl⟩
    have h1 : b = a := by simpa using List.find?_some h
    subst h1
    exact mem_attributeTable.1 (List.mem_of_find?_eq_some h)
  · intro h
    have hm : (a, ty) ∈ attributeTable reg := mem_attributeTable.2 h
    obtain ⟨r, hr'⟩ : ∃ r, (attributeTable reg).find? (fun r => r.1 = a) = some r := by
      have : ((attributeTable reg).find? (fun r => r.1 = a)).isSome = true := by
        rw [List.find?_isSome]; exact ⟨_, hm, by simp⟩
      exact Option.isSome_iff_exists.1 this
    refine ⟨r, hr', ?_⟩
    have h1 : r.1 = a := by simpa using List.find?_some hr'
    have h2 := List.mem_of_find?_eq_some hr'
    obtain ⟨b, t⟩ := r
    simp only at h1; subst h1
    exact huniq _ _ (mem_attributeTable.1 h2) h

theorem registerPlugin_foldl (ps reg : List PluginDef) :
    ∃ new, ps.foldl registerPlugin reg = reg ++ new ∧ ∀ q, q ∈ new ↔ (¬ Loaded reg q.name ∧ ∃ pre post, ps = pre ++ q :: post ∧ ∀ r ∈ pre, r.name ≠ q.name) := by
  induction ps generalizing reg with
  | nil => exact ⟨[], by simp, by simp⟩
  | cons p ps ih =>
    simp only [List.foldl_cons]
    by_cases h : reg.any (fun q => q.name = p.name) = true
    · have e : registerPlugin reg p = reg := by simp only [registerPlugin, h, if_true]
      rw [e]
      obtain ⟨new, h1, h2⟩ := ih reg
      refine ⟨new, h1, ?_⟩
      intro q
      rw [h2]
      constructor
      · rintro ⟨hn, pre, post, rfl, hp⟩
        refine ⟨hn, p :: pre, post, rfl, ?_⟩
        intro r hr
        rcases List.mem_cons.1 hr with rfl | hr
        · intro e; exact hn (e ▸ any_name_iff.1 h)
        · exact hp r hr
      · rintro ⟨hn, pre, post, e, hp⟩
        refine ⟨hn, ?_⟩
        cases pre with
        | nil =>
          simp only [List.nil_append, List.cons.injEq] at e
          exact absurd (e.1 ▸ any_name_iff.1 h) hn
        | cons x pre =>
          simp only [List.cons_append, List.cons.injEq] at e
          exact ⟨pre, post, e.2, fun r hr => hp r (by simp [hr])⟩
    · have e : registerPlugin reg p = reg ++ [p] := by simp only [registerPlugin, h]; rfl
      rw [e]
      obtain ⟨new, h1, h2⟩ := ih (reg ++ [p])
      refine ⟨p :: new, by rw [h1]; simp, ?_⟩
      intro q
      have hl : Loaded (reg ++ [p]) q.name ↔ Loaded reg q.name ∨ p.name = q.name := by
        simp only [Loaded, List.mem_append, List.mem_singleton]
        constructor
        · rintro ⟨x, hx | rfl, hn⟩
          · exact .inl ⟨x, hx, hn⟩
          · exact .inr hn
        · rintro (⟨x, hx, hn⟩ | hn)
          · exact ⟨x, .inl hx, hn⟩
          · exact ⟨p, .inr rfl, hn⟩
      simp only [List.mem_cons, h2, hl, not_or]
      constructor
      · rintro (rfl | ⟨⟨hn, hne⟩, pre, post, rfl, hp⟩)
        · exact ⟨fun hl => h (any_name_iff.2 hl), [], ps, rfl, by simp⟩
        · refine ⟨hn, p :: pre, post, rfl, ?_⟩
          intro r hr
          rcases List.mem_cons.1 hr with rfl | hr
          · exact hne
          · exact hp r hr
      · rintro ⟨hn, pre, post, e, hp⟩
        cases pre with
        | nil =>
          simp only [List.nil_append, List.cons.injEq] at e
          exact .inl e.1.symm
        | cons x pre =>
          simp only [List.cons_append, List.cons.injEq] at e
          refine .inr ⟨⟨hn, ?_⟩, pre, post, e.2, fun r hr => hp r (by simp [hr])⟩
          exact fun h => hp x (by simp) (e.1 ▸ h)

/-- C50: the loaded plugins are, for each name, the first one in the order of the directories. -/
theorem C50_first (content : Str → List PluginDef) (dirs : List Str) (q : PluginDef) :
    q ∈ loadPlugins content dirs ↔
      ∃ before d after pre post, dirs = before ++ d :: after ∧ content d = pre ++ q :: post ∧
        (∀ d' ∈ before, ∀ r ∈ content d', r.name ≠ q.name) ∧ ∀ r ∈ pre, r.name ≠ q.name := by
  obtain ⟨new, h1, h2⟩ := registerPlugin_foldl (dirs.flatMap content) []
  unfold loadPlugins
  rw [h1, List.nil_append, h2]
  constructor
  · rintro ⟨_, pre, post, h, hp⟩
    clear h1 h2 new
    induction dirs generalizing pre with
    | nil => simp at h
    | cons d ds ih =>
      simp only [List.flatMap_cons] at h
      rcases List.append_eq_append_iff.1 h with ⟨as, e1, e2⟩ | ⟨as, e1, e2⟩
      · obtain ⟨before, d', after, pre', post', i1, i2, i3, i4⟩ := ih as e2 (fun r hr => hp r (by rw [e1]; simp [hr]))
        refine ⟨d :: before, d', after, pre', post', by rw [i1]; rfl, i2, ?_, i4⟩
        intro x hx r hr
        rcases List.mem_cons.1 hx with rfl | hx
        · exact hp r (by rw [e1]; simp [hr])
        · exact i3 x hx r hr
      · cases as with
        | nil =>
          simp only [List.append_nil, List.nil_append] at e1 e2
          obtain ⟨before, d', after, pre', post', i1, i2, i3, i4⟩ := ih [] (by simpa using e2.symm) (by simp)
          refine ⟨d :: before, d', after, pre', post', by rw [i1]; rfl, i2, ?_, i4⟩
          intro x hx r hr
          rcases List.mem_cons.1 hx with rfl | hx
          · exact hp r (by rw [← e1]; exact hr)
          · exact i3 x hx r hr
        | cons x as =>
          simp only [List.cons_append, List.cons.injEq] at e2
          exact ⟨[], d, ds, pre, as, rfl, by rw [e1, e2.1], by simp, hp⟩
  · rintro ⟨before, d, after, pre, post, rfl, h, hb, hp⟩
    refine ⟨by simp [Loaded], before.flatMap content ++ pre, post ++ after.flatMap content, by simp [h], ?_⟩
    intro r hr
    rcases List.mem_append.1 hr with hr | hr
    · obtain ⟨x, hx, hr⟩ := List.mem_flatMap.1 hr
      exact hb x hx r hr
    · exact hp r hr

/-- C50: no two loaded plugins have the same name, and every name offered anywhere is loaded. -/
theorem C50_names (content : Str → List PluginDef) (dirs : List Str) :
    ((loadPlugins content dirs).map PluginDef.name).Nodup ∧ ∀ d ∈ dirs, ∀ r ∈ content d, Loaded (loadPlugins content dirs) r.name := by
  have key : ∀ (ps reg : List PluginDef), (reg.map PluginDef.name).Nodup → ((ps.foldl registerPlugin reg).map PluginDef.name).Nodup ∧
      (∀ n, Loaded reg n → Loaded (ps.foldl registerPlugin reg) n) ∧ ∀ r ∈ ps, Loaded (ps.foldl registerPlugin reg) r.name := by
    intro ps
    induction ps with
    | nil => intro reg h; exact ⟨h, fun _ h => h, by simp⟩
    | cons p ps ih =>
      intro reg h
      have h' : ((registerPlugin reg p).map PluginDef.name).Nodup := by
        unfold registerPlugin
        split
        · exact h
        · rename_i hn
          rw [List.map_append, List.nodup_append]
          refine ⟨h, by simp, ?_⟩
          intro a ha b hb e
          simp only [List.map_cons, List.map_nil, List.mem_singleton] at hb
          obtain ⟨x, hx, rfl⟩ := List.mem_map.1 ha
          exact hn (any_name_iff.2 ⟨x, hx, e.trans hb⟩)
      have hl : Loaded (registerPlugin reg p) p.name ∧ ∀ n, Loaded reg n → Loaded (registerPlugin reg p) n := by
        unfold registerPlugin
        split
        · rename_i hn; exact ⟨any_name_iff.1 hn, fun _ h => h⟩
        · refine ⟨⟨p, by simp, rfl⟩, ?_⟩
          rintro n ⟨x, hx, hn⟩; exact ⟨x, by simp [hx], hn⟩
      obtain ⟨i1, i2, i3⟩ := ih _ h'
      refine ⟨i1, fun n hn => i2 n (hl.2 n hn), ?_⟩
      intro r hr
      rcases List.mem_cons.1 hr with rfl | hr
      · exact i2 _ hl.1
      · exact i3 r hr
  obtain ⟨h1, _, h3⟩ := key (dirs.flatMap content) [] (by simp)
  exact ⟨h1, fun d hd r hr => h3 r (List.mem_flatMap.2 ⟨d, hd, hr⟩)⟩

/-- C50: the order of the directories: builtin, contrib, those in FF_PLUGIN_DIRS (separated by colons, empty ones skipped), user. -/
theorem C50_order (builtin contrib user : Str) {ds : List Str} (hne : ds ≠ []) (hd : ∀ d ∈ ds, ':' ∉ d) :
    pluginDirs builtin contrib user (some (joinWith ':' ds)) = builtin :: contrib :: ds.filter (fun d => d ≠ []) ++ [user] ∧
    pluginDirs builtin contrib user none = [builtin, contrib, user] := by
  constructor
  · simp [pluginDirs, splitOn_joinWith hne hd]
  · rfl

def demoReg : List PluginDef := loadPlugins
  (fun d => if d = "/b".toList then [filePlugin, ignorePlugin] else [⟨"file".toList, [], 1⟩, ⟨"image".toList, [("width".toList, .number), ("path".toList, .string)], 1⟩])
  (pluginDirs "/b".toList "/c".toList "/u".toList (some "::/d:".toList))

set_option maxRecDepth 10000 in
example : demoReg.map PluginDef.name = ["file".toList, "ignore".toList, "image".toList] ∧ setupAttribute demoReg "path".toList = some ("file".toList, "path".toList) ∧
    setupAttribute demoReg "width".toList = some ("image".toList, "width".toList) ∧ setupAttribute demoReg "nope".toList = none ∧
    attributeType demoReg ("image".toList, "width".toList) = some .number ∧ attributeType demoReg ("file".toList, "width".toList) = none := by decide

end FF
