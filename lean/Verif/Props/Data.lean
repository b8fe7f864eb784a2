import Verif.Spec.Data
import Verif.Props.Attributes
import Verif.Props.Sort
import Verif.Props.Api
namespace FF
open Spec

/-! ### C134: plugins give what they declare -/

theorem map_str_of_all {l : List PyAtom} (h : l.all PyAtom.isStr = true) : ∃ l' : List Str, l = l'.map .str := by
  induction l with
  | nil => exact ⟨[], rfl⟩
  | cons a l ih =>
    simp only [List.all_cons, Bool.and_eq_true] at h
    obtain ⟨l', rfl⟩ := ih h.2
    cases a with
    | str s => exact ⟨s :: l', rfl⟩
    | int _ => cases h.1
    | bool _ => cases h.1
    | none => cases h.1
    | other => cases h.1

theorem all_str_map (l : List Str) : (l.map PyAtom.str).all PyAtom.isStr = true := by simp [PyAtom.isStr]

/-- The check of a value is the type of the value. -/
theorem checkType_iff (ty : Ty) (v : PyVal) : ty.checkType v = true ↔ Passes ty v := by
  constructor
  · intro h
    cases v with
    | atom a =>
      cases a <;> cases ty <;>
        first
          | (simp [Ty.checkType, PyAtom.isStr] at h; done)
          | exact .inl .flag
          | exact .inl (.text (by simp))
          | exact .inl (.number (by simp))
          | exact .inr ⟨by simp, _, rfl⟩
    | list l =>
      cases ty <;> first | (simp [Ty.checkType] at h; done) | (obtain ⟨l', rfl⟩ := map_str_of_all h; exact .inl (.list l'))
    | set l =>
      cases ty <;> first | (simp [Ty.checkType] at h; done) | (obtain ⟨l', rfl⟩ := map_str_of_all h; exact .inl (.set l'))
  · rintro (h | ⟨h, b, rfl⟩)
    · cases h with
      | text h => rcases h with rfl | rfl | rfl <;> rfl
      | list l => exact all_str_map l
      | set l => exact all_str_map l
      | flag => rfl
      | number h => rcases h with rfl | rfl | rfl | rfl | rfl <;> rfl
    · rcases h with rfl | rfl | rfl | rfl | rfl <;> rfl

theorem mem_dictSet {β : Type} {d : List (Str × β)} {k : Str} {v : β} {r : Str × β} (h : r ∈ dictSet d k v) : r ∈ d ∨ r = (k, v) := by
  induction d with
  | nil => simp only [dictSet, List.mem_singleton] at h; exact .inr h
  | cons x d ih =>
    obtain ⟨a, b⟩ := x
    simp only [dictSet] at h
    split at h
    · rename_i hk
      rcases List.mem_cons.1 h with h | h
      · exact .inr (by rw [h, hk])
      · exact .inl (by simp [h])
    · rcases List.mem_cons.1 h with h | h
      · exact .inl (by simp [h])
      · rcases ih h with h | h
        · exact .inl (by simp [h])
        · exact .inr h

theorem mem_pyDict {β : Type} {l : List (Str × β)} {r : Str × β} (h : r ∈ pyDict l) : r ∈ l := by
  have key : ∀ (l : List (Str × β)) (d : List (Str × β)), r ∈ l.foldl (fun d r => dictSet d r.1 r.2) d → r ∈ d ∨ r ∈ l := by
    intro l
    induction l with
    | nil => intro d h; exact .inl h
    | cons x l ih =>
      intro d h
      rcases ih _ h with h | h
      · rcases mem_dictSet h with h | h
        · exact .inl h
        · exact .inr (by rw [h]; simp)
      · exact .inr (by simp [h])
  rcases key l [] h with h | h
  · cases h
  · exact h

theorem dictSet_lookup {β : Type} (d : List (Str × β)) (k : Str) (v : β) (n : Str) : (dictSet d k v).lookup n = if n = k then some v else d.lookup n := by
  induction d with
  | nil =>
    by_cases h : n = k
    · simp [dictSet, List.lookup, h]
    · have : (n == k) = false := by simpa using h
      simp [dictSet, List.lookup, h, this]
  | cons x d ih =>
    obtain ⟨a, b⟩ := x
    simp only [dictSet]
    by_cases ha : a = k
    · rw [if_pos ha]
      by_cases h : n = k
      · simp [List.lookup, h, ha]
      · have : (n == a) = false := by simpa [ha] using h
        simp [List.lookup, h, this]
    · rw [if_neg ha]
      by_cases hn : n = a
      · have : ¬ n = k := fun e => ha (hn ▸ e)
        simp [List.lookup, hn, ha]
      · have : (n == a) = false := by simpa using hn
        simp only [List.lookup, this, ih]

/-- A dictionary has the last value of each name. -/
theorem pyDict_lookup {β : Type} (l : List (Str × β)) (n : Str) : (pyDict l).lookup n = lastFor n l := by
  have key : ∀ (l : List (Str × β)) (d : List (Str × β)), (l.foldl (fun d r => dictSet d r.1 r.2) d).lookup n = (lastFor n l).or (d.lookup n) := by
    intro l
    induction l with
    | nil => intro d; rfl
    | cons x l ih =>
      intro d
      simp only [List.foldl_cons, ih, dictSet_lookup, lastFor, List.filter_cons]
      by_cases hx : x.1 = n
      · simp only [hx, decide_true, if_true, List.getLast?_cons]
        cases (l.filter (fun r => r.1 = n)).getLast? <;> simp
      · have hx' : ¬ n = x.1 := fun e => hx e.symm
        simp only [hx, hx', decide_false, Bool.false_eq_true, if_false]
  have := key l []
  simp only [pyDict, this, List.lookup, Option.or_none]

theorem lookup_iff_mem {β : Type} {l : List (Str × β)} (hn : (l.map Prod.fst).Nodup) {k : Str} {v : β} : l.lookup k = some v ↔ (k, v) ∈ l := by
  induction l with
  | nil => simp
  | cons x l ih =>
    obtain ⟨a, b⟩ := x
    simp only [List.map_cons, List.nodup_cons] at hn
    by_cases h : k = a
    · subst h
      simp only [List.lookup, BEq.rfl, Option.some.injEq, List.mem_cons, Prod.mk.injEq, true_and]
      constructor
      · exact fun e => .inl e.symm
      · rintro (e | e)
        · exact e.symm
        · exact absurd (List.mem_map_of_mem (f := Prod.fst) e) hn.1
    · have : (k == a) = false := by simpa using h
      simp only [List.lookup, this, ih hn.2, List.mem_cons, Prod.mk.injEq, h, false_and, false_or]

/-- C134: in debug mode exactly the data is accepted that a plugin has declared; a value that is replaced by a later one does not matter. The data that is accepted is
the same as without debug mode, where everything is accepted. -/
theorem C134_check {p : PluginDef} (hp : (p.attrs.map Prod.fst).Nodup) (pairs : List (Str × PyVal)) :
    (∃ d, checkData false p pairs = some d ∧ (∀ n, d.lookup n = lastFor n pairs) ∧
      (AlmostDeclared p d → checkData true p pairs = some d) ∧ (¬ AlmostDeclared p d → checkData true p pairs = none)) := by
  refine ⟨pyDict pairs, rfl, pyDict_lookup pairs, ?_⟩
  have key : (pyDict pairs).all p.accepts = true ↔ AlmostDeclared p (pyDict pairs) := by
    rw [List.all_eq_true]
    constructor
    · intro h r hr
      have := h r hr
      unfold PluginDef.accepts at this
      cases hl : p.attrs.lookup r.1 with
      | none => simp [hl] at this
      | some ty =>
        simp only [hl] at this
        exact ⟨ty, (lookup_iff_mem hp).1 hl, (checkType_iff _ _).1 this⟩
    · intro h r hr
      obtain ⟨ty, h1, h2⟩ := h r hr
      simp only [PluginDef.accepts, (lookup_iff_mem hp).2 h1, (checkType_iff _ _).2 h2]
  constructor
  · intro h
    simp only [checkData, key.2 h, Bool.not_true, Bool.and_false, Bool.false_eq_true, if_false]
  · intro h
    have : (pyDict pairs).all p.accepts = false := by
      cases hb : (pyDict pairs).all p.accepts with
      | false => rfl
      | true => exact absurd (key.1 hb) h
    simp only [checkData, this, Bool.not_false, Bool.and_true, if_true]

/-- What is declared is accepted, with and without debug mode. -/
theorem Spec.AsDeclared.accepted {p : PluginDef} (hp : (p.attrs.map Prod.fst).Nodup) {pairs : List (Str × PyVal)} (h : AsDeclared p pairs) (debug : Bool) :
    checkData debug p pairs = some (pyDict pairs) := by
  cases debug with
  | false => rfl
  | true =>
    obtain ⟨d, h1, _, h2, _⟩ := C134_check hp pairs
    have : d = pyDict pairs := by
      simp only [checkData, Bool.false_and, Bool.false_eq_true, if_false, Option.some.injEq] at h1
      exact h1.symm
    rw [this] at h2
    exact h2 fun r hr => (h r (mem_pyDict hr)).imp fun ty ht => ⟨ht.1, .inl ht.2⟩

theorem fs_declared (r : Str × Bool) : AsDeclared fsPlugin (fsPairs r) := by
  intro x hx
  simp only [fsPairs, List.mem_cons, List.not_mem_nil, or_false] at hx
  rcases hx with rfl | rfl
  · exact ⟨.string, (by dsimp only; decide), .text (.inl rfl)⟩
  · exact ⟨.boolean, (by dsimp only; decide), .flag⟩

theorem git_declared (d : GitData) : AsDeclared gitPlugin (gitPairs d) := by
  intro x hx
  simp only [gitPairs, List.mem_cons, List.not_mem_nil, or_false] at hx
  rcases hx with rfl | rfl | rfl | rfl
  · exact ⟨.string, (by dsimp only; decide), .text (.inl rfl)⟩
  · exact ⟨.boolean, (by dsimp only; decide), .flag⟩
  · exact ⟨.boolean, (by dsimp only; decide), .flag⟩
  · exact ⟨.boolean, (by dsimp only; decide), .flag⟩

theorem hash_declared (name hexdigest : Str) : AsDeclared (hashPlugin name) (hashPairs name hexdigest) := by
  intro x hx
  simp only [hashPairs, List.mem_cons, List.not_mem_nil, or_false] at hx
  subst hx
  exact ⟨.string, by simp [hashPlugin], .text (.inl rfl)⟩

theorem elf_declared (names : List Str) : AsDeclared elfPlugin (elfPairs names) := by
  intro x hx
  simp only [elfPairs, List.mem_cons, List.not_mem_nil, or_false] at hx
  subst hx
  exact ⟨.listOfStrings, by simp [elfPlugin], .list _⟩

theorem shebang_declared (s : Option Str) : AsDeclared shebangPlugin (shebangPairs s) := by
  intro x hx
  cases s with
  | none => cases hx
  | some s =>
    simp only [shebangPairs, List.mem_cons, List.not_mem_nil, or_false] at hx
    subst hx
    exact ⟨.string, by simp [shebangPlugin], .text (.inl rfl)⟩

theorem py_declared (imports : List Str) : AsDeclared pyPlugin (pyPairs imports) := by
  intro x hx
  simp only [pyPairs, List.mem_cons, List.not_mem_nil, or_false] at hx
  subst hx
  exact ⟨.listOfStrings, by simp [pyPlugin], .list _⟩

theorem pacman_declared (files : List (Str × Str)) (path : Str) : AsDeclared pacmanPlugin (pacmanPairs files path) := by
  intro x hx
  unfold pacmanPairs at hx
  split at hx
  · rcases List.mem_cons.1 hx with rfl | hx
    · exact ⟨.boolean, (by dsimp only; decide), .flag⟩
    · obtain ⟨n, _, rfl⟩ := List.mem_map.1 hx
      exact ⟨.string, (by dsimp only; decide), .text (.inl rfl)⟩
  · simp only [List.mem_cons, List.not_mem_nil, or_false] at hx
    subst hx
    exact ⟨.boolean, (by dsimp only; decide), .flag⟩

theorem tar_declared (members : List Str) : AsDeclared tarPlugin (tarPairs members) := by
  intro x hx
  simp only [tarPairs, List.mem_cons, List.not_mem_nil, or_false] at hx
  subst hx
  exact ⟨.listOfStrings, (by dsimp only; decide), .set _⟩

theorem xattr_declared (attrs : Option (List XAttr)) : AsDeclared xattrPlugin (xattrPairs attrs) := by
  intro x hx
  simp only [xattrPairs, List.mem_cons, List.not_mem_nil, or_false] at hx
  subst hx
  exact ⟨.listOfStrings, by simp [xattrPlugin], .list _⟩

theorem grep_declared (content : Option Str) : AsDeclared grepPlugin (grepPairs content) := by
  intro x hx
  cases content with
  | none =>
    simp only [grepPairs, grepProcess, List.append_nil, List.mem_cons, List.not_mem_nil, or_false] at hx
    subst hx
    exact ⟨.boolean, (by dsimp only; decide), .flag⟩
  | some s =>
    simp only [grepPairs, grepProcess, List.cons_append, List.nil_append, List.mem_cons, List.not_mem_nil, or_false] at hx
    rcases hx with rfl | rfl | rfl
    · exact ⟨.boolean, (by dsimp only; decide), .flag⟩
    · exact ⟨.number, (by dsimp only; decide), .number (.inl rfl)⟩
    · exact ⟨.listOfStrings, (by dsimp only; decide), .list _⟩

theorem mime_declared {mime encoding name : Str} {pairs : List (Str × PyVal)} (h : mimePairs mime encoding name = some pairs) : AsDeclared mimePlugin pairs := by
  unfold mimePairs at h
  cases hm : mimeParts mime with
  | none => rw [hm] at h; cases h
  | some r =>
    rw [hm] at h
    simp only [Option.map_some, Option.some.injEq] at h
    subst h
    intro x hx
    simp only [List.mem_cons, List.not_mem_nil, or_false] at hx
    rcases hx with rfl | rfl | rfl | rfl | rfl <;> exact ⟨.string, (by dsimp only; decide), .text (.inl rfl)⟩

theorem ignore_declared (r : Bool × Str) : AsDeclared ignorePlugin (ignorePairs r) := by
  intro x hx
  simp only [ignorePairs, List.mem_cons, List.not_mem_nil, or_false] at hx
  rcases hx with rfl | rfl
  · exact ⟨.boolean, (by dsimp only; decide), .flag⟩
  · exact ⟨.string, (by dsimp only; decide), .text (.inl rfl)⟩

/-- C134: whatever a file is like, the plugins that come with ff give values of attributes they declare, and of the declared types; so the check in debug mode makes no
difference. -/
theorem C134_plugins (debug : Bool) :
    (∀ r, AsDeclared fsPlugin (fsPairs r) ∧ checkData debug fsPlugin (fsPairs r) = some (pyDict (fsPairs r))) ∧
    (∀ d, AsDeclared gitPlugin (gitPairs d) ∧ checkData debug gitPlugin (gitPairs d) = some (pyDict (gitPairs d))) ∧
    (∀ name hex, AsDeclared (hashPlugin name) (hashPairs name hex) ∧ checkData debug (hashPlugin name) (hashPairs name hex) = some (pyDict (hashPairs name hex))) ∧
    (∀ l, AsDeclared elfPlugin (elfPairs l) ∧ checkData debug elfPlugin (elfPairs l) = some (pyDict (elfPairs l))) ∧
    (∀ s, AsDeclared shebangPlugin (shebangPairs s) ∧ checkData debug shebangPlugin (shebangPairs s) = some (pyDict (shebangPairs s))) ∧
    (∀ l, AsDeclared pyPlugin (pyPairs l) ∧ checkData debug pyPlugin (pyPairs l) = some (pyDict (pyPairs l))) ∧
    (∀ files path, AsDeclared pacmanPlugin (pacmanPairs files path) ∧ checkData debug pacmanPlugin (pacmanPairs files path) = some (pyDict (pacmanPairs files path))) ∧
    (∀ l, AsDeclared tarPlugin (tarPairs l) ∧ checkData debug tarPlugin (tarPairs l) = some (pyDict (tarPairs l))) ∧
    (∀ l, AsDeclared xattrPlugin (xattrPairs l) ∧ checkData debug xattrPlugin (xattrPairs l) = some (pyDict (xattrPairs l))) ∧
    (∀ c, AsDeclared grepPlugin (grepPairs c) ∧ checkData debug grepPlugin (grepPairs c) = some (pyDict (grepPairs c))) ∧
    (∀ m e n pairs, mimePairs m e n = some pairs → AsDeclared mimePlugin pairs ∧ checkData debug mimePlugin pairs = some (pyDict pairs)) ∧
    (∀ r, AsDeclared ignorePlugin (ignorePairs r) ∧ checkData debug ignorePlugin (ignorePairs r) = some (pyDict (ignorePairs r))) :=
  ⟨fun r => ⟨fs_declared r, (fs_declared r).accepted (by decide) debug⟩,
   fun d => ⟨git_declared d, (git_declared d).accepted (by decide) debug⟩,
   fun n h => ⟨hash_declared n h, (hash_declared n h).accepted (by simp [hashPlugin]) debug⟩,
   fun l => ⟨elf_declared l, (elf_declared l).accepted (by decide) debug⟩,
   fun s => ⟨shebang_declared s, (shebang_declared s).accepted (by decide) debug⟩,
   fun l => ⟨py_declared l, (py_declared l).accepted (by decide) debug⟩,
   fun f p => ⟨pacman_declared f p, (pacman_declared f p).accepted (by decide) debug⟩,
   fun l => ⟨tar_declared l, (tar_declared l).accepted (by decide) debug⟩,
   fun l => ⟨xattr_declared l, (xattr_declared l).accepted (by decide) debug⟩,
   fun c => ⟨grep_declared c, (grep_declared c).accepted (by decide) debug⟩,
   fun _ _ _ _ h => ⟨mime_declared h, (mime_declared h).accepted (by decide) debug⟩,
   fun r => ⟨ignore_declared r, (ignore_declared r).accepted (by decide) debug⟩⟩

/-- C134 (partial: pymediainfo gives texts for tags and formats, numbers for widths, heights and durations): so does the medium plugin. -/
theorem C134_medium_partial (lower : Str → Str) (float : Str → Option Int) {tracks : List RawTrack} (hu : ∀ t ∈ tracks, Usual t) (debug : Bool) :
    ∃ pairs, mediumPairs lower float tracks = some pairs ∧ AsDeclared mediumPlugin pairs ∧ checkData debug mediumPlugin pairs = some (pyDict pairs) := by
  have htag : AsDeclared mediumPlugin (mediumTagPairs tracks) := by
    intro x hx
    simp only [mediumTagPairs, List.mem_flatMap, List.mem_filter, List.mem_map] at hx
    obtain ⟨t, ⟨ht, _⟩, a, ⟨ha, htr⟩, rfl⟩ := hx
    simp only [mediumTags, List.map_cons, List.map_nil, List.mem_cons, List.not_mem_nil, or_false] at ha
    have get : ∀ n ∈ ["performer", "album", "title", "genre", "recorded_date", "format"], (t.get n.toList).truth = true → ∃ s, t.get n.toList = .str s := by
      intro n hn h
      rcases (hu t ht).tag n hn with h' | h'
      · rw [h'] at h; cases h
      · exact h'
    rcases ha with rfl | rfl | rfl | rfl | rfl
    · obtain ⟨s, hs⟩ := get _ (by simp) htr
      exact ⟨.string, (by dsimp only; decide), by dsimp only; rw [hs]; exact .text (.inl rfl)⟩
    · obtain ⟨s, hs⟩ := get _ (by simp) htr
      exact ⟨.string, (by dsimp only; decide), by dsimp only; rw [hs]; exact .text (.inl rfl)⟩
    · obtain ⟨s, hs⟩ := get _ (by simp) htr
      exact ⟨.string, (by dsimp only; decide), by dsimp only; rw [hs]; exact .text (.inl rfl)⟩
    · obtain ⟨s, hs⟩ := get _ (by simp) htr
      exact ⟨.string, (by dsimp only; decide), by dsimp only; rw [hs]; exact .text (.inl rfl)⟩
    · obtain ⟨s, hs⟩ := get _ (by simp) htr
      exact ⟨.string, (by dsimp only; decide), by dsimp only; rw [hs]; exact .text (.inl rfl)⟩
  have hsize : ∀ t, Usual t → AsDeclared mediumPlugin (mediumSizePairs t) := by
    intro t ht x hx
    unfold mediumSizePairs at hx
    split at hx
    · rename_i hne
      simp only [List.mem_cons, List.not_mem_nil, or_false] at hx
      rcases hx with rfl | rfl
      · rcases ht.size "width" (by simp) with h | ⟨n, h⟩
        · exact absurd h hne.2
        · exact ⟨.number, (by dsimp only; decide), by dsimp only; rw [h]; exact .number (.inl rfl)⟩
      · rcases ht.size "height" (by simp) with h | ⟨n, h⟩
        · exact absurd h hne.1
        · exact ⟨.number, (by dsimp only; decide), by dsimp only; rw [h]; exact .number (.inl rfl)⟩
    · cases hx
  have hformat : ∀ t, Usual t → ∃ l, mediumFormatPairs lower t = some l ∧ AsDeclared mediumPlugin l := by
    intro t ht
    unfold mediumFormatPairs
    rcases ht.tag "format" (by simp) with h | ⟨s, h⟩
    · rw [h]; exact ⟨_, rfl, fun x hx => by cases hx⟩
    · rw [h]
      refine ⟨_, rfl, fun x hx => ?_⟩
      simp only [List.mem_cons, List.not_mem_nil, or_false] at hx
      subst hx
      exact ⟨.string, (by dsimp only; decide), .text (.inl rfl)⟩
  have hdur : ∀ o : Option RawTrack, (∀ t, o = some t → Usual t) → ∃ l, mediumDurationOf float o = some l ∧ AsDeclared mediumPlugin l := by
    intro o ho
    cases o with
    | none => exact ⟨[], rfl, fun x hx => by cases hx⟩
    | some t =>
      simp only [mediumDurationOf, mediumDurationPairs]
      rcases (ho t rfl).duration with h | ⟨n, h⟩
      · rw [h]; exact ⟨_, rfl, fun x hx => by cases hx⟩
      · rw [h]
        refine ⟨_, rfl, fun x hx => ?_⟩
        simp only [List.mem_cons, List.not_mem_nil, or_false] at hx
        subst hx
        exact ⟨.duration, (by dsimp only; decide), .number (by simp)⟩
  have hfirst : ∀ k t, firstTrack k tracks = some t → Usual t := fun k t h => hu t (List.mem_of_find?_eq_some h)
  have happ : ∀ {a b : List (Str × PyVal)}, AsDeclared mediumPlugin a → AsDeclared mediumPlugin b → AsDeclared mediumPlugin (a ++ b) := by
    intro a b ha hb x hx
    rcases List.mem_append.1 hx with h | h
    · exact ha x h
    · exact hb x h
  have hvis : ∃ l, mediumVisual lower (firstTrack kindVideo tracks) (firstTrack kindImage tracks) = some l ∧ AsDeclared mediumPlugin l := by
    cases hv : firstTrack kindVideo tracks with
    | some v => exact ⟨_, rfl, hsize v (hfirst _ v hv)⟩
    | none =>
      cases hi : firstTrack kindImage tracks with
      | some t =>
        obtain ⟨l, h1, h2⟩ := hformat t (hfirst _ t hi)
        exact ⟨l ++ mediumSizePairs t, by simp [mediumVisual, h1], happ h2 (hsize t (hfirst _ t hi))⟩
      | none => exact ⟨[], rfl, fun x hx => by cases hx⟩
  obtain ⟨lv, e1, d1⟩ := hvis
  obtain ⟨l1, e2, d2⟩ := hdur (firstTrack kindVideo tracks) (hfirst _)
  obtain ⟨l2, e3, d3⟩ := hdur (firstTrack kindAudio tracks) (hfirst _)
  have hd := happ (happ (happ htag d1) d2) d3
  refine ⟨_, ?_, hd, hd.accepted (by decide) debug⟩
  unfold mediumPairs
  simp only [e1, e2, e3, Option.bind_eq_bind, Option.bind_some, Option.pure_def]

/-- A song whose title is a number for pymediainfo. -/
def numberTrack : RawTrack := ⟨kindGeneral, fun a => if a = "title".toList then .int 1984 else .none⟩

/-- C134 (false): with a tag that is a number the search ends in debug mode, and otherwise the attribute, which is declared as a text, is a number. -/
theorem C134_medium_false (lower : Str → Str) (float : Str → Option Int) : ∃ pairs, mediumPairs lower float [numberTrack] = some pairs ∧
    checkData true mediumPlugin pairs = none ∧ checkData false mediumPlugin pairs = some [("title".toList, .atom (.int 1984))] ∧ ("title".toList, Ty.string) ∈ mediumPlugin.attrs :=
  ⟨[("title".toList, .atom (.int 1984))], rfl, by decide +kernel, by decide +kernel, by decide⟩

/-- C134: the values of all attributes in a search have the types of the attributes, if the plugins give what they declare. -/
theorem C134_search {S : SearchEnv} {W : FileWorld} (hS : S.stat = W.stat) (hfile : ∀ p ∈ S.reg, p.name = "file".toList → p = filePlugin)
    (hdata : ∀ p ∈ S.reg, p.name ≠ "file".toList → ∀ i, ∃ pairs, AsDeclared p pairs ∧ ∀ n, S.data i p.name n = (lastFor n pairs).bind valueOf)
    (hnd : ∀ p ∈ S.reg, (p.attrs.map Prod.fst).Nodup) {a : Attr} {ty : Ty} (ha : attributeType S.reg a = some ty) {i : EntInfo} {v : Val} (hv : S.attr i a = some v) :
    HasType ty v := by
  unfold attributeType at ha
  obtain ⟨r, hr, rfl⟩ := Option.map_eq_some_iff.1 ha
  have h1 := List.mem_of_find?_eq_some hr
  have h2 : r.1 = a := by simpa using List.find?_some hr
  simp only [attributeTable, List.mem_flatMap, List.mem_map] at h1
  obtain ⟨p, hp, b, hb, rfl⟩ := h1
  subst h2
  by_cases hn : p.name = "file".toList
  · have := hfile p hp hn
    subst this
    exact C133_typed hS i hb hv
  · have e : S.attr i (p.name, b.1) = S.data i p.name b.1 := if_neg hn
    simp only [e] at hv
    obtain ⟨pairs, hd, hl⟩ := hdata p hp hn i
    rw [hl] at hv
    obtain ⟨x, hx, hxv⟩ := Option.bind_eq_some_iff.1 hv
    unfold lastFor at hx
    obtain ⟨q, hq, rfl⟩ := Option.map_eq_some_iff.1 hx
    have hm := List.mem_filter.1 (List.mem_of_getLast? hq)
    obtain ⟨ty', ht1, ht2⟩ := hd q hm.1
    have hqn : q.1 = b.1 := by simpa using hm.2
    rw [hqn] at ht1
    have hty : ty' = b.2 := by
      have g1 := (lookup_iff_mem (hnd p hp)).2 ht1
      have g2 := (lookup_iff_mem (hnd p hp) (k := b.1) (v := b.2)).2 hb
      rw [g1] at g2
      exact Option.some.inj g2
    subst hty
    obtain ⟨n, w⟩ := q
    obtain ⟨b1, b2⟩ := b
    simp only at ht2 hxv ⊢
    cases ht2 with
    | text h => cases hxv; rcases h with h | h | h <;> simp only [h, HasType]
    | list l => cases hxv; trivial
    | set l => cases hxv; trivial
    | flag => cases hxv; trivial
    | number h => cases hxv; rcases h with h | h | h | h | h <;> simp only [h, HasType]

/-- The fields of a search have the types of their attributes. -/
theorem makeField_type {reg : List PluginDef} {s : Str} {f : Field} (h : makeField reg s = some f) : attributeType reg f.attr = some f.type := by
  unfold makeField at h
  split at h
  · cases h
  · split at h
    · cases h
    · split at h
      · cases h
      · rename_i ht
        cases h
        exact ht

/-- C134: so with any fields for sorting, without the modifier v, no search fails while sorting, whatever is found; see C35 for the order. -/
theorem C134_sorted {R : RenderEnv} {W : FileWorld} (D : DigitEnv) (hS : R.search.stat = W.stat) (hfile : ∀ p ∈ R.search.reg, p.name = "file".toList → p = filePlugin)
    (hdata : ∀ p ∈ R.search.reg, p.name ≠ "file".toList → ∀ i, ∃ pairs, AsDeclared p pairs ∧ ∀ n, R.search.data i p.name n = (lastFor n pairs).bind valueOf)
    (hnd : ∀ p ∈ R.search.reg, (p.attrs.map Prod.fst).Nodup) {texts : List Str} {fields : List Field} (hf : mapOption (makeField R.search.reg) texts = some fields)
    (hm : ∀ f ∈ fields, f.modifier ≠ some 'v') (reverse : Bool) (entries : List EntInfo) :
    ∃ out, R.finalizeEntries D (some fields) reverse entries = some out ∧ out.Perm entries ∧
      out.Pairwise (fun a b => if reverse then ¬ Lex SortVal.Before (sortVals R fields a) (sortVals R fields b)
        else ¬ Lex SortVal.Before (sortVals R fields b) (sortVals R fields a)) := by
  obtain ⟨out, h1, h2, h3, _⟩ := C35_sorted R D fields reverse entries hm (fun e _ f hf' v hv => by
    obtain ⟨t, _, ht⟩ := mapOption_mem hf f hf'
    exact C134_search hS hfile hdata hnd (makeField_type ht) hv)
  exact ⟨out, h1, h2, h3⟩

/-- The hypotheses of C134 are met: a search with the plugins file and grep, where each file has two lines. -/
example : ∃ (S : SearchEnv) (i : EntInfo) (v : Val), S.stat = demoFileWorld.stat ∧ (∀ p ∈ S.reg, p.name = "file".toList → p = filePlugin) ∧
    (∀ p ∈ S.reg, p.name ≠ "file".toList → ∀ i, ∃ pairs, AsDeclared p pairs ∧ ∀ n, S.data i p.name n = (lastFor n pairs).bind valueOf) ∧
    (∀ p ∈ S.reg, (p.attrs.map Prod.fst).Nodup) ∧ attributeType S.reg ("grep".toList, "linecount".toList) = some .number ∧
    S.attr i ("grep".toList, "linecount".toList) = some v ∧ v = .int 2 := by
  refine ⟨{ demoSearch with reg := [filePlugin, grepPlugin], stat := demoFileWorld.stat, data := fun _ _ n => (lastFor n (grepPairs (some "a\nb".toList))).bind valueOf },
    ⟨⟨".".toList, "/d".toList⟩, "x".toList, false, []⟩, _, rfl, ?_, ?_, ?_, by decide +kernel, by decide +kernel, rfl⟩
  · intro p hp hn
    simp only [List.mem_cons, List.not_mem_nil, or_false] at hp
    rcases hp with rfl | rfl
    · rfl
    · exact absurd hn (by decide)
  · intro p hp hn i
    simp only [List.mem_cons, List.not_mem_nil, or_false] at hp
    rcases hp with rfl | rfl
    · exact absurd rfl hn
    · exact ⟨_, grep_declared _, fun _ => rfl⟩
  · intro p hp
    simp only [List.mem_cons, List.not_mem_nil, or_false] at hp
    rcases hp with rfl | rfl <;> decide

/-- A film of 90 seconds. -/
example : Usual ⟨kindVideo, fun a => if a = "duration".toList then .int 90000 else if a = "width".toList ∨ a = "height".toList then .int 480 else .none⟩ := by
  refine ⟨fun a ha => ?_, fun a ha => ?_, .inr ⟨90000, rfl⟩⟩
  · simp only [List.mem_cons, List.not_mem_nil, or_false] at ha
    rcases ha with rfl | rfl | rfl | rfl | rfl | rfl <;> exact .inl rfl
  · simp only [List.mem_cons, List.not_mem_nil, or_false] at ha
    rcases ha with rfl | rfl <;> exact .inr ⟨480, rfl⟩

end FF
