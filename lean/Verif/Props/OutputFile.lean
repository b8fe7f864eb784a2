import Verif.Model.Main
import Verif.Props.Registry
import Verif.Props.Sort
/-! Property C84: `-o file`. -/
namespace FF
open Spec

set_option maxRecDepth 50000 in
set_option maxHeartbeats 2000000 in
theorem splitField_file : ∀ a ∈ filePlugin.attrs.map Prod.fst, splitField (a ++ ":n".toList) = some (a, none, some 'n') ∧ splitDot a = none := by
  decide

theorem file_table {reg : List PluginDef} (hf : filePlugin ∈ reg) {a : Str} (ha : a ∈ filePlugin.attrs.map Prod.fst) :
    ∃ ty, (("file".toList, a), ty) ∈ attributeTable reg := by
  obtain ⟨⟨b, ty⟩, hb, rfl⟩ := List.mem_map.1 ha
  exact ⟨ty, List.mem_flatMap.2 ⟨filePlugin, hf, List.mem_map.2 ⟨(b, ty), hb, rfl⟩⟩⟩

theorem makeField_file {reg : List PluginDef} (hf : filePlugin ∈ reg) {a : Str} (ha : a ∈ filePlugin.attrs.map Prod.fst) :
    ∃ f, makeField reg (a ++ ":n".toList) = some f ∧ f.attr = ("file".toList, a) ∧ f.width = none ∧ f.modifier = some 'n' := by
  obtain ⟨h1, h2⟩ := splitField_file a ha
  obtain ⟨ty, hty⟩ := file_table hf ha
  have hp : "file".toList ∈ pluginsFor reg a := by
    unfold pluginsFor
    rw [mem_setOf]
    exact List.mem_map.2 ⟨_, List.mem_filter.2 ⟨hty, by simp⟩, rfl⟩
  have hs : setupAttribute reg a = some ("file".toList, a) := by
    unfold setupAttribute parseAttribute
    rw [h2]
    simp only [hp, if_true]
    rw [if_pos (List.any_eq_true.2 ⟨filePlugin, hf, decide_eq_true rfl⟩)]
  have ht : ∃ t, attributeType reg ("file".toList, a) = some t := by
    unfold attributeType
    cases hfd : (attributeTable reg).find? (fun r => decide (r.1 = ("file".toList, a))) with
    | none => exact absurd (List.find?_eq_none.1 hfd _ hty) (by simp)
    | some x => exact ⟨x.2, rfl⟩
  obtain ⟨t, ht⟩ := ht
  exact ⟨⟨("file".toList, a), a, t, none, some 'n'⟩, by simp only [makeField, h1, hs, ht], rfl, rfl, rfl⟩

theorem mapOption_app {α β : Type} (f : α → Option β) (xs ys : List α) : mapOption f (xs ++ ys) = match mapOption f xs with
    | none => none
    | some a => match mapOption f ys with
      | none => none
      | some b => some (a ++ b) := by
  induction xs with
  | nil => simp only [List.nil_append, mapOption]; cases mapOption f ys <;> rfl
  | cons x xs ih =>
    simp only [List.cons_append, mapOption]
    cases f x with
    | none => rfl
    | some y =>
      simp only [ih]
      cases mapOption f xs with
      | none => rfl
      | some a => cases mapOption f ys <;> rfl

theorem expandFile_split (reg : List PluginDef) {pre post : List Str} (h : "file".toList ∉ pre) :
    expandFile reg (pre ++ "file".toList :: post) = pre ++ ((fileAttributes reg).map (· ++ ":n".toList) ++ post) := by
  induction pre with
  | nil => simp only [List.nil_append, expandFile, if_true]
  | cons w ws ih =>
    simp only [List.mem_cons, not_or] at h
    simp only [List.cons_append, expandFile, if_neg (Ne.symm h.1), ih h.2]

theorem expandFile_none (reg : List PluginDef) {ws : List Str} (h : "file".toList ∉ ws) : expandFile reg ws = ws := by
  induction ws with
  | nil => rfl
  | cons w ws ih =>
    simp only [List.mem_cons, not_or] at h
    simp only [expandFile, if_neg (Ne.symm h.1), ih h.2]

theorem fileAttributes_perm {reg : List PluginDef} (hf : filePlugin ∈ reg) (hu : (reg.map PluginDef.name).Nodup) :
    (fileAttributes reg).Perm (filePlugin.attrs.map Prod.fst) := by
  have : reg.filter (fun p => p.name = "file".toList) = [filePlugin] := by
    induction reg with
    | nil => cases hf
    | cons p reg ih =>
      simp only [List.map_cons, List.nodup_cons] at hu
      rcases List.mem_cons.1 hf with rfl | hf
      · have : reg.filter (fun p => decide (p.name = "file".toList)) = [] := by
          rw [List.filter_eq_nil_iff]
          intro q hq
          simp only [decide_eq_true_eq]
          intro he
          exact hu.1 (List.mem_map.2 ⟨q, hq, he⟩)
        rw [List.filter_cons, this]
        rfl
      · have hn : p.name ≠ "file".toList := fun he => hu.1 (List.mem_map.2 ⟨filePlugin, hf, he.symm ▸ rfl⟩)
        rw [List.filter_cons, if_neg (by simpa using hn)]
        exact ih hf hu.2
  unfold fileAttributes
  rw [this]
  simpa using pySort_perm strLe (filePlugin.attrs.map Prod.fst)

theorem mapOption_all {α β γ : Type} {f : α → Option β} {g : β → γ} {h : α → γ} {P : β → Prop} {xs : List α} (hx : ∀ x ∈ xs, ∃ y, f x = some y ∧ g y = h x ∧ P y) :
    ∃ ys, mapOption f xs = some ys ∧ ys.map g = xs.map h ∧ ∀ y ∈ ys, P y := by
  induction xs with
  | nil => exact ⟨[], rfl, rfl, by simp⟩
  | cons x xs ih =>
    obtain ⟨y, h1, h2, h3⟩ := hx x (by simp)
    obtain ⟨ys, h4, h5, h6⟩ := ih (fun z hz => hx z (by simp [hz]))
    refine ⟨y :: ys, by simp only [mapOption, h1, h4], by simp [h2, h5], ?_⟩
    intro z hz
    rcases List.mem_cons.1 hz with rfl | hz
    · exact h3
    · exact h6 z hz

/-- C84: in a list of output fields, `file` stands for all attributes of a file in alphabetical order, each exactly once and printed as an empty string if there is no value;
the fields before and after it stay. -/
theorem C84_file {reg : List PluginDef} (hf : filePlugin ∈ reg) (hu : (reg.map PluginDef.name).Nodup) {pre post : List Str} (hp : "file".toList ∉ pre)
    {f1 f2 : List Field} (h1 : outputFields reg pre = some f1) (h2 : outputFields reg post = some f2) :
    ∃ (mid : List Field) (names : List Str), outputFields reg (expandFile reg (pre ++ "file".toList :: post)) = some (f1 ++ (mid ++ f2)) ∧
      mid.map Field.attr = names.map (fun n => ("file".toList, n)) ∧ (∀ f ∈ mid, f.width = none ∧ f.modifier = some 'n') ∧
      names.Perm (filePlugin.attrs.map Prod.fst) ∧ names.Pairwise (fun a b => strLe a b = true) := by
  have hperm := fileAttributes_perm hf hu
  obtain ⟨mid, hm1, hm2, hm3⟩ := mapOption_all (f := makeField reg) (g := Field.attr) (h := fun w => ("file".toList, w.take (w.length - 2)))
    (P := fun f => f.width = none ∧ f.modifier = some 'n') (xs := (fileAttributes reg).map (· ++ ":n".toList)) (by
      intro x hx
      obtain ⟨a, ha, rfl⟩ := List.mem_map.1 hx
      obtain ⟨f, e1, e2, e3⟩ := makeField_file hf (hperm.subset ha)
      exact ⟨f, e1, by rw [e2]; simp, e3⟩)
  refine ⟨mid, fileAttributes reg, ?_, ?_, hm3, hperm, pySort_sorted ⟨fun a b => strLe_total a b, fun a b c => strLe_trans⟩ _⟩
  · unfold outputFields at *
    rw [expandFile_split reg hp, mapOption_app, h1, mapOption_app, hm1, h2]
  · rw [hm2, List.map_map]
    refine List.map_congr_left (fun a _ => ?_)
    simp

/-- C84: without the word `file`, nothing is replaced. -/
theorem C84_other {reg : List PluginDef} {ws : List Str} (h : "file".toList ∉ ws) : expandFile reg ws = ws := expandFile_none reg h

theorem makeField_word {reg : List PluginDef} (h : ∀ p, ¬ Provides reg p "file".toList) : makeField reg "file".toList = none := by
  have h1 : splitField "file".toList = some ("file".toList, none, none) := by decide
  have h2 : pluginsFor reg "file".toList = [] := by
    rw [List.eq_nil_iff_forall_not_mem]
    exact fun p hp => h p (mem_pluginsFor.1 hp)
  have h3 : setupAttribute reg "file".toList = none := by
    unfold setupAttribute parseAttribute
    rw [show splitDot "file".toList = none from by decide]
    simp only [h2, List.not_mem_nil, if_false]
  simp only [makeField, h1, h3]

theorem mapOption_none {α β : Type} {f : α → Option β} {x : α} {xs : List α} (hx : x ∈ xs) (h : f x = none) : mapOption f xs = none := by
  induction xs with
  | nil => cases hx
  | cons y ys ih =>
    rcases List.mem_cons.1 hx with rfl | hx
    · simp only [mapOption, h]
    · simp only [mapOption, ih hx]
      cases f y <;> rfl

/-- C84 fails for a second `file`, which is refused (as long as no plugin has an attribute of that name). -/
theorem C84_twice {reg : List PluginDef} (h : ∀ p, ¬ Provides reg p "file".toList) {pre post : List Str} (hp : "file".toList ∉ pre) (hq : "file".toList ∈ post) :
    outputFields reg (expandFile reg (pre ++ "file".toList :: post)) = none := by
  rw [expandFile_split reg hp]
  exact mapOption_none (List.mem_append_right _ (List.mem_append_right _ hq)) (makeField_word h)

set_option maxRecDepth 50000 in
set_option maxHeartbeats 2000000 in
/-- `-o size,file,name`. -/
example : filePlugin ∈ [filePlugin, ignorePlugin] ∧ ([filePlugin, ignorePlugin].map PluginDef.name).Nodup ∧ "file".toList ∉ ["size".toList] ∧
    ((outputFields [filePlugin, ignorePlugin] (expandFile [filePlugin, ignorePlugin] ["size".toList, "file".toList, "name".toList])).map
      (fun fs => (fs.map (fun f => String.ofList f.attr.2)).take 4)) = some ["size", "atime", "broken", "ctime"] := by
  decide

end FF
