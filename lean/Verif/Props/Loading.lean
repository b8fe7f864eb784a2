import Verif.Spec.Loading
import Mathlib.Tactic.SplitIfs
/-! C103: how plugins are loaded. -/
namespace FF
open Spec

theorem pluginFile_iff {it : DirItem} {f : Bool} (h : it.isFile = some f) :
    (!f || !endsWith it.name ".py".toList || startsWith it.name "_".toList) = false ↔ PluginFile it := by
  unfold PluginFile
  rw [h]
  have h1 : endsWith it.name ".py".toList = true ↔ ∃ stem, it.name = stem ++ ['.', 'p', 'y'] := by
    unfold endsWith
    rw [List.isSuffixOf_iff_suffix]
    exact ⟨fun ⟨s, e⟩ => ⟨s, e.symm⟩, fun ⟨s, e⟩ => ⟨s, e.symm⟩⟩
  have h2 : startsWith it.name "_".toList = true ↔ ∃ rest, it.name = '_' :: rest := by
    unfold startsWith
    rw [List.isPrefixOf_iff_prefix]
    exact ⟨fun ⟨s, e⟩ => ⟨s, e.symm⟩, fun ⟨s, e⟩ => ⟨s, e.symm⟩⟩
  rw [← h1, ← not_exists, ← h2]
  cases f <;> simp

/-- The objects of several files, one after the other. -/
def loadObjs (s : RegState) : List (Str × ModObj) → RegState × Bool
  | [] => (s, true)
  | (path, o) :: l => match s.inspect path [o] with
    | (s', true) => loadObjs s' l
    | (s', false) => (s', false)

theorem loadObjs_append (s : RegState) (l l' : List (Str × ModObj)) :
    loadObjs s (l ++ l') = match loadObjs s l with
      | (s', true) => loadObjs s' l'
      | (s', false) => (s', false) := by
  induction l generalizing s with
  | nil => rfl
  | cons x l ih =>
    obtain ⟨p, o⟩ := x
    simp only [List.cons_append, loadObjs]
    cases h : s.inspect p [o] with
    | mk s' b => cases b <;> simp [ih]

theorem inspect_objs (s : RegState) (path : Str) (objs : List ModObj) : s.inspect path objs = loadObjs s (objs.map (fun o => (path, o))) := by
  induction objs generalizing s with
  | nil => rfl
  | cons o objs ih =>
    simp only [List.map_cons, loadObjs]
    cases o with
    | other => simp [RegState.inspect, ih]
    | type t => simp [RegState.inspect, ih]
    | plugin c =>
      simp only [RegState.inspect]
      cases h : s.register path c with
      | mk s' b => cases b <;> simp [ih]

theorem loadDirs_nil_dir (s : RegState) (d : Str) (ds : List (Str × Option (List DirItem))) : s.loadDirs ((d, some []) :: ds) = s.loadDirs ds := by
  simp [RegState.loadDirs, RegState.loadDir]

theorem loadDirs_objs {dirs : List (Str × Option (List DirItem))} {l : List (Str × ModObj)} (ho : Offers dirs l) (he : Examinable dirs) :
    ∀ s : RegState, s.loadDirs dirs = loadObjs s l := by
  induction ho with
  | nil => intro s; rfl
  | unreadable _ ih => intro s; exact ih (fun d items h => he d items (by simp [h])) s
  | last _ ih => intro s; rw [loadDirs_nil_dir]; exact ih (fun d items h => he d items (by simp [h])) s
  | @file d ds it items objs l hf hr _ ih =>
    intro s
    have ih' := ih (by
      intro d' items' h it' hi
      rcases List.mem_cons.1 h with h | h
      · cases h; exact he d (it :: items) (by simp) it' (by simp [hi])
      · exact he d' items' (by simp [h]) it' hi)
    have hp := (pluginFile_iff hf.1).2 hf
    simp only [RegState.loadDirs, RegState.loadDir, hf.1]
    rw [if_neg (by rw [hp]; simp)]
    simp only [hr, loadObjs_append, inspect_objs]
    cases h : loadObjs s (objs.map (fun o => (d ++ '/' :: it.name, o))) with
    | mk s' b =>
      cases b with
      | false => rfl
      | true => simp only [← ih' s']; rfl
  | @no d ds it items l hf _ ih =>
    intro s
    have ih' := ih (by
      intro d' items' h it' hi
      rcases List.mem_cons.1 h with h | h
      · cases h; exact he d (it :: items) (by simp) it' (by simp [hi])
      · exact he d' items' (by simp [h]) it' hi)
    cases hi : it.isFile with
    | none => exact absurd hi (he d (it :: items) (by simp) it (by simp))
    | some f =>
      have hp : (!f || !endsWith it.name ".py".toList || startsWith it.name "_".toList) = true := by
        cases hb : (!f || !endsWith it.name ".py".toList || startsWith it.name "_".toList) with
        | true => rfl
        | false => exact absurd ((pluginFile_iff hi).1 hb) hf
      rw [← ih' s]
      simp only [RegState.loadDirs, RegState.loadDir, hi]
      rw [if_pos hp]

/-- The names that are taken. -/
def RegState.names (s : RegState) : List Str := s.plugins.map (fun c => c.plugin.name)

theorem names_any (s : RegState) (n : Str) : s.plugins.any (fun q => q.plugin.name = n) = true ↔ n ∈ s.names := by
  simp [RegState.names]

theorem typeKnown_iff (types : List Nat) (ty : Option (List Nat)) : typeKnown types ty = true ↔ ∃ bases, ty = some bases ∧ ∃ b ∈ bases, b ∈ types := by
  cases ty <;> simp [typeKnown]

/-- What is loaded from a sequence of objects: the state describes the objects `pre` that have been looked at. -/
theorem loadObjs_spec (l : List (Str × ModObj)) : ∀ (s : RegState),
    ((loadObjs s l).2 = true ↔ ∀ pre c, FirstOffered l c pre → c.plugin.name ∉ s.names → c.init = true ∧
        ∀ ty ∈ c.types, ∃ bases, ty = some bases ∧ ∃ b ∈ bases, b ∈ s.types ∨ ∃ p, (p, .type b) ∈ pre) ∧
    ((loadObjs s l).2 = true → (∀ q, q ∈ (loadObjs s l).1.plugins ↔ q ∈ s.plugins ∨ q.plugin.name ∉ s.names ∧ ∃ pre, FirstOffered l q pre) ∧
      (∀ seen, (∀ n, n ∈ seen ↔ n ∈ s.names) → ∃ ws, Repeated seen l ws ∧ (loadObjs s l).1.warnings = s.warnings ++ ws)) := by
  induction l with
  | nil =>
    intro s
    have hf : ∀ c pre, ¬ FirstOffered [] c pre := by rintro c pre ⟨path, post, h, _⟩; simp at h
    refine ⟨by simp [loadObjs, hf], fun _ => ⟨by simp [loadObjs, hf], fun seen _ => ⟨[], .nil, by simp [loadObjs]⟩⟩⟩
  | cons x l ih =>
    obtain ⟨path, o⟩ := x
    intro s
    -- the first ones of the longer list
    have shift : ∀ (hn : ∀ c, o ≠ .plugin c) (c : PluginClass) (pre : List (Str × ModObj)), FirstOffered ((path, o) :: l) c pre ↔
        ∃ pre', pre = (path, o) :: pre' ∧ FirstOffered l c pre' := by
      intro hn c pre
      constructor
      · rintro ⟨p, post, e, h⟩
        cases pre with
        | nil => simp only [List.nil_append, List.cons.injEq, Prod.mk.injEq] at e; exact absurd e.1.2 (hn c)
        | cons y pre =>
          simp only [List.cons_append, List.cons.injEq] at e
          exact ⟨pre, by rw [e.1], p, post, e.2, fun p q hq => h p q (by simp [hq])⟩
      · rintro ⟨pre', rfl, p, post, rfl, h⟩
        refine ⟨p, post, rfl, ?_⟩
        intro p' q hq
        rcases List.mem_cons.1 hq with hq | hq
        · simp only [Prod.mk.injEq] at hq; exact absurd hq.2.symm (hn q)
        · exact h p' q hq
    cases o with
    | other =>
      have e : loadObjs s ((path, .other) :: l) = loadObjs s l := by simp [loadObjs, RegState.inspect]
      have sh := shift (by simp)
      obtain ⟨i1, i2⟩ := ih s
      rw [e]
      refine ⟨?_, fun hb => ⟨fun q => ?_, fun seen hs => ?_⟩⟩
      · rw [i1]
        constructor
        · intro h pre c hf hn
          obtain ⟨pre', rfl, hf'⟩ := (sh c pre).1 hf
          obtain ⟨a, b⟩ := h pre' c hf' hn
          exact ⟨a, fun ty ht => by
            obtain ⟨bs, rfl, x, hx, hh⟩ := b ty ht
            exact ⟨bs, rfl, x, hx, hh.imp id (fun ⟨p, hp⟩ => ⟨p, by simp [hp]⟩)⟩⟩
        · intro h pre c hf hn
          obtain ⟨a, b⟩ := h _ c ((sh c _).2 ⟨pre, rfl, hf⟩) hn
          exact ⟨a, fun ty ht => by
            obtain ⟨bs, rfl, x, hx, hh⟩ := b ty ht
            exact ⟨bs, rfl, x, hx, hh.imp id (fun ⟨p, hp⟩ => ⟨p, by simpa using hp⟩)⟩⟩
      · rw [(i2 hb).1]
        refine or_congr Iff.rfl (and_congr Iff.rfl ⟨fun ⟨pre, h⟩ => ⟨_, (sh q _).2 ⟨pre, rfl, h⟩⟩, fun ⟨pre, h⟩ => ?_⟩)
        obtain ⟨pre', _, h'⟩ := (sh q pre).1 h
        exact ⟨pre', h'⟩
      · obtain ⟨ws, h1, h2⟩ := (i2 hb).2 seen hs
        exact ⟨ws, .other h1, h2⟩
    | type t =>
      have e : loadObjs s ((path, .type t) :: l) = loadObjs { s with types := s.types ++ [t] } l := by simp [loadObjs, RegState.inspect]
      have sh := shift (by simp)
      obtain ⟨i1, i2⟩ := ih { s with types := s.types ++ [t] }
      have hnames : RegState.names { s with types := s.types ++ [t] } = s.names := rfl
      rw [hnames] at i1 i2
      rw [e]
      refine ⟨?_, fun hb => ⟨fun q => ?_, fun seen hs => ?_⟩⟩
      · rw [i1]
        constructor
        · intro h pre c hf hn
          obtain ⟨pre', rfl, hf'⟩ := (sh c pre).1 hf
          obtain ⟨a, b⟩ := h pre' c hf' hn
          exact ⟨a, fun ty ht => by
            obtain ⟨bs, rfl, x, hx, hh⟩ := b ty ht
            refine ⟨bs, rfl, x, hx, ?_⟩
            rcases hh with hh | ⟨p, hp⟩
            · rcases List.mem_append.1 hh with hh | hh
              · exact .inl hh
              · simp only [List.mem_singleton] at hh; subst hh; exact .inr ⟨path, by simp⟩
            · exact .inr ⟨p, by simp [hp]⟩⟩
        · intro h pre c hf hn
          obtain ⟨a, b⟩ := h _ c ((sh c _).2 ⟨pre, rfl, hf⟩) hn
          exact ⟨a, fun ty ht => by
            obtain ⟨bs, rfl, x, hx, hh⟩ := b ty ht
            refine ⟨bs, rfl, x, hx, ?_⟩
            rcases hh with hh | ⟨p, hp⟩
            · exact .inl (by simp [hh])
            · rcases List.mem_cons.1 hp with hp | hp
              · simp only [Prod.mk.injEq, ModObj.type.injEq] at hp; exact .inl (by simp [hp.2])
              · exact .inr ⟨p, hp⟩⟩
      · rw [(i2 hb).1]
        refine or_congr Iff.rfl (and_congr Iff.rfl ⟨fun ⟨pre, h⟩ => ⟨_, (sh q _).2 ⟨pre, rfl, h⟩⟩, fun ⟨pre, h⟩ => ?_⟩)
        obtain ⟨pre', _, h'⟩ := (sh q pre).1 h
        exact ⟨pre', h'⟩
      · obtain ⟨ws, h1, h2⟩ := (i2 hb).2 seen hs
        exact ⟨ws, .type h1, h2⟩
    | plugin d =>
      -- the first ones of the longer list: the plugin itself, or one with another name
      have sh : ∀ (c : PluginClass) (pre : List (Str × ModObj)), FirstOffered ((path, .plugin d) :: l) c pre ↔
          (pre = [] ∧ c = d) ∨ ∃ pre', pre = (path, .plugin d) :: pre' ∧ d.plugin.name ≠ c.plugin.name ∧ FirstOffered l c pre' := by
        intro c pre
        constructor
        · rintro ⟨p, post, e, h⟩
          cases pre with
          | nil => simp only [List.nil_append, List.cons.injEq, Prod.mk.injEq, ModObj.plugin.injEq] at e; exact .inl ⟨rfl, e.1.2.symm⟩
          | cons y pre =>
            simp only [List.cons_append, List.cons.injEq] at e
            obtain ⟨rfl, e⟩ := e
            exact .inr ⟨pre, rfl, h path d (by simp), p, post, e, fun p q hq => h p q (by simp [hq])⟩
        · rintro (⟨rfl, rfl⟩ | ⟨pre', rfl, hne, p, post, rfl, h⟩)
          · exact ⟨path, l, rfl, by simp⟩
          · refine ⟨p, post, rfl, ?_⟩
            intro p' q hq
            rcases List.mem_cons.1 hq with hq | hq
            · simp only [Prod.mk.injEq, ModObj.plugin.injEq] at hq; rw [hq.2]; exact hne
            · exact h p' q hq
      by_cases hd : d.plugin.name ∈ s.names
      · have e : loadObjs s ((path, .plugin d) :: l) = loadObjs { s with warnings := s.warnings ++ [(d.plugin.name, path)] } l := by
          simp only [loadObjs, RegState.inspect, RegState.register]
          rw [if_pos ((names_any s _).2 hd)]
        obtain ⟨i1, i2⟩ := ih { s with warnings := s.warnings ++ [(d.plugin.name, path)] }
        have hnames : RegState.names { s with warnings := s.warnings ++ [(d.plugin.name, path)] } = s.names := rfl
        rw [hnames] at i1 i2
        rw [e]
        refine ⟨?_, fun hb => ⟨fun q => ?_, fun seen hs => ?_⟩⟩
        · rw [i1]
          constructor
          · intro h pre c hf hn
            rcases (sh c pre).1 hf with ⟨rfl, rfl⟩ | ⟨pre', rfl, _, hf'⟩
            · exact absurd hd hn
            · obtain ⟨a, b⟩ := h pre' c hf' hn
              exact ⟨a, fun ty ht => by
                obtain ⟨bs, rfl, x, hx, hh⟩ := b ty ht
                exact ⟨bs, rfl, x, hx, hh.imp id (fun ⟨p, hp⟩ => ⟨p, by simp [hp]⟩)⟩⟩
          · intro h pre c hf hn
            obtain ⟨a, b⟩ := h _ c ((sh c _).2 (.inr ⟨pre, rfl, fun e => hn (e ▸ hd), hf⟩)) hn
            exact ⟨a, fun ty ht => by
              obtain ⟨bs, rfl, x, hx, hh⟩ := b ty ht
              exact ⟨bs, rfl, x, hx, hh.imp id (fun ⟨p, hp⟩ => ⟨p, by simpa using hp⟩)⟩⟩
        · rw [(i2 hb).1]
          refine or_congr Iff.rfl ⟨?_, ?_⟩
          · rintro ⟨hn, pre, h⟩
            exact ⟨hn, _, (sh q _).2 (.inr ⟨pre, rfl, fun e => hn (e ▸ hd), h⟩)⟩
          · rintro ⟨hn, pre, h⟩
            rcases (sh q pre).1 h with ⟨_, rfl⟩ | ⟨pre', _, _, h'⟩
            · exact absurd hd hn
            · exact ⟨hn, pre', h'⟩
        · obtain ⟨ws, h1, h2⟩ := (i2 hb).2 seen hs
          exact ⟨(d.plugin.name, path) :: ws, .again ((hs _).2 hd) h1, by rw [h2]; simp⟩
      · have hr : s.register path d = if d.init then ({ s with plugins := s.plugins ++ [d] }, d.types.all (typeKnown s.types)) else (s, false) := by
          unfold RegState.register
          rw [if_neg (fun h => hd ((names_any s _).1 h))]
        by_cases hgood : d.init = true ∧ d.types.all (typeKnown s.types) = true
        · have e : loadObjs s ((path, .plugin d) :: l) = loadObjs { s with plugins := s.plugins ++ [d] } l := by
            simp only [loadObjs, RegState.inspect, hr, hgood.1, if_true, hgood.2]
          obtain ⟨i1, i2⟩ := ih { s with plugins := s.plugins ++ [d] }
          have hnames : ∀ n, n ∈ RegState.names { s with plugins := s.plugins ++ [d] } ↔ n ∈ s.names ∨ n = d.plugin.name := by
            intro n; simp [RegState.names]
          have hty : ∀ ty ∈ d.types, ∃ bases, ty = some bases ∧ ∃ b ∈ bases, b ∈ s.types := by
            intro ty ht
            exact (typeKnown_iff _ _).1 (List.all_eq_true.1 hgood.2 ty ht)
          rw [e]
          refine ⟨?_, fun hb => ⟨fun q => ?_, fun seen hs => ?_⟩⟩
          · rw [i1]
            constructor
            · intro h pre c hf hn
              rcases (sh c pre).1 hf with ⟨rfl, rfl⟩ | ⟨pre', rfl, hne, hf'⟩
              · refine ⟨hgood.1, fun ty ht => ?_⟩
                obtain ⟨bs, e, x, hx, hh⟩ := hty ty ht
                exact ⟨bs, e, x, hx, .inl hh⟩
              · obtain ⟨a, b⟩ := h pre' c hf' (by rw [hnames]; exact fun hh => hh.elim hn (fun hh => hne hh.symm))
                exact ⟨a, fun ty ht => by
                  obtain ⟨bs, rfl, x, hx, hh⟩ := b ty ht
                  exact ⟨bs, rfl, x, hx, hh.imp id (fun ⟨p, hp⟩ => ⟨p, by simp [hp]⟩)⟩⟩
            · intro h pre c hf hn
              rw [hnames, not_or] at hn
              obtain ⟨a, b⟩ := h _ c ((sh c _).2 (.inr ⟨pre, rfl, fun e => hn.2 e.symm, hf⟩)) hn.1
              exact ⟨a, fun ty ht => by
                obtain ⟨bs, rfl, x, hx, hh⟩ := b ty ht
                exact ⟨bs, rfl, x, hx, hh.imp id (fun ⟨p, hp⟩ => ⟨p, by simpa using hp⟩)⟩⟩
          · rw [(i2 hb).1]
            constructor
            · rintro (h | ⟨hn, pre, h⟩)
              · rcases List.mem_append.1 h with h | h
                · exact .inl h
                · simp only [List.mem_singleton] at h; subst h
                  exact .inr ⟨hd, [], (sh q []).2 (.inl ⟨rfl, rfl⟩)⟩
              · rw [hnames, not_or] at hn
                exact .inr ⟨hn.1, _, (sh q _).2 (.inr ⟨pre, rfl, fun e => hn.2 e.symm, h⟩)⟩
            · rintro (h | ⟨hn, pre, h⟩)
              · exact .inl (by simp [h])
              · rcases (sh q pre).1 h with ⟨_, rfl⟩ | ⟨pre', _, hne, h'⟩
                · exact .inl (by simp)
                · exact .inr ⟨by rw [hnames]; exact fun hh => hh.elim hn (fun hh => hne hh.symm), pre', h'⟩
          · obtain ⟨ws, h1, h2⟩ := (i2 hb).2 (d.plugin.name :: seen) (by intro n; rw [hnames, List.mem_cons, hs]; exact or_comm)
            exact ⟨ws, .first (fun h => hd ((hs _).1 h)) h1, h2⟩
        · have hb : (loadObjs s ((path, .plugin d) :: l)).2 = false := by
            simp only [loadObjs, RegState.inspect, hr]
            cases hi : d.init with
            | false => simp
            | true =>
              rw [hi] at hgood
              have : d.types.all (typeKnown s.types) = false := by
                cases ht : d.types.all (typeKnown s.types) with
                | false => rfl
                | true => exact absurd ⟨rfl, ht⟩ hgood
              simp [this]
          rw [hb]
          refine ⟨⟨fun h => by simp at h, fun h => ?_⟩, fun h => by simp at h⟩
          obtain ⟨a, b⟩ := h [] d ((sh d []).2 (.inl ⟨rfl, rfl⟩)) hd
          refine absurd ⟨a, List.all_eq_true.2 fun ty ht => (typeKnown_iff _ _).2 ?_⟩ hgood
          obtain ⟨bs, e, x, hx, hh⟩ := b ty ht
          exact ⟨bs, e, x, hx, hh.resolve_right (by simp)⟩

/-- The list is determined. -/
theorem Spec.Offers.unique {dirs : List (Str × Option (List DirItem))} {l l' : List (Str × ModObj)} (h : Offers dirs l) (h' : Offers dirs l') : l = l' := by
  induction h generalizing l' with
  | nil => cases h'; rfl
  | unreadable _ ih => cases h' with | unreadable h' => exact ih h'
  | last _ ih => cases h' with | last h' => exact ih h'
  | file h1 h2 _ ih =>
    cases h' with
    | file _ h3 h' => rw [h2] at h3; cases h3; rw [ih h']
    | no h3 => exact absurd h1 h3
  | no h1 _ ih =>
    cases h' with
    | file h3 => exact absurd h3 h1
    | no _ h' => exact ih h'

/-- C103 (partial: provided every file can be executed and examined). Loading fails exactly if a plugin that is the first one with its name cannot be used. Otherwise the plugins that are
loaded are, for each name, the first ones in the plugin files, and there is a warning about each of the others. -/
theorem C103_files_partial {dirs : List (Str × Option (List DirItem))} {l : List (Str × ModObj)} (ho : Offers dirs l) (he : Examinable dirs) :
    ((RegState.empty.load dirs).2 = .badPlugin ↔ ∃ pre c, FirstOffered l c pre ∧ ¬ Usable pre c) ∧
    ((RegState.empty.load dirs).2 ≠ .badPlugin →
      (∀ q, q ∈ (RegState.empty.load dirs).1.plugins ↔ ∃ pre, FirstOffered l q pre) ∧ Repeated [] l (RegState.empty.load dirs).1.warnings) := by
  have key := loadObjs_spec l RegState.empty
  rw [← loadDirs_objs ho he] at key
  have hn : ∀ n, n ∉ RegState.empty.names := by simp [RegState.names, RegState.empty]
  have ht : ∀ n, n ∉ RegState.empty.types := by simp [RegState.empty]
  obtain ⟨k1, k2⟩ := key
  have hbad : (RegState.empty.load dirs).2 = .badPlugin ↔ (RegState.empty.loadDirs dirs).2 = false := by
    unfold RegState.load
    cases h : RegState.empty.loadDirs dirs with
    | mk s' b =>
      cases b with
      | false => simp
      | true => simp only; split_ifs <;> simp
  have hsame : (RegState.empty.load dirs).1.plugins = (RegState.empty.loadDirs dirs).1.plugins ∧
      (RegState.empty.load dirs).1.warnings = (RegState.empty.loadDirs dirs).1.warnings := by
    unfold RegState.load
    cases h : RegState.empty.loadDirs dirs with
    | mk s' b =>
      cases b with
      | false => simp
      | true => simp only; split_ifs <;> simp
  have hu : (RegState.empty.loadDirs dirs).2 = true ↔ ∀ pre c, FirstOffered l c pre → Usable pre c := by
    rw [k1]
    constructor
    · intro h pre c hf
      obtain ⟨a, b⟩ := h pre c hf (hn _)
      exact ⟨a, fun ty hty => by
        obtain ⟨bs, e, x, hx, hh⟩ := b ty hty
        exact ⟨bs, e, x, hx, hh.resolve_left (ht _)⟩⟩
    · intro h pre c hf _
      obtain ⟨a, b⟩ := h pre c hf
      exact ⟨a, fun ty hty => by
        obtain ⟨bs, e, x, hx, hh⟩ := b ty hty
        exact ⟨bs, e, x, hx, .inr hh⟩⟩
  refine ⟨?_, fun h => ?_⟩
  · rw [hbad]
    constructor
    · intro h
      rw [h] at hu
      simp only [Bool.false_eq_true, false_iff] at hu
      by_cases hx : ∃ pre c, FirstOffered l c pre ∧ ¬ Usable pre c
      · exact hx
      · exact absurd (fun pre c hf => Classical.byContradiction fun hc => hx ⟨pre, c, hf, hc⟩) hu
    · rintro ⟨pre, c, h1, h2⟩
      cases hb : (RegState.empty.loadDirs dirs).2 with
      | false => rfl
      | true => exact absurd (hu.1 hb pre c h1) h2
  · have hb : (RegState.empty.loadDirs dirs).2 = true := by
      cases hb : (RegState.empty.loadDirs dirs).2 with
      | true => rfl
      | false => exact absurd (hbad.2 hb) h
    obtain ⟨j1, j2⟩ := k2 hb
    obtain ⟨ws, j3, j4⟩ := j2 [] (by intro n; simp [RegState.names, RegState.empty])
    rw [hsame.1, hsame.2]
    refine ⟨fun q => ?_, ?_⟩
    · rw [j1]
      exact ⟨fun h => h.elim (fun h => by simp [RegState.empty] at h) (fun h => h.2), fun h => .inr ⟨hn _, h⟩⟩
    · rw [j4]; simpa [RegState.empty] using j3

/-- C103: when loading succeeds, what an attribute name means (C49) is decided by the plugins that are loaded. -/
theorem C103_table (dirs : List (Str × Option (List DirItem))) (s : RegState) (h : (s.load dirs).2 = .ok) :
    (s.load dirs).1.table = attributeTable ((s.load dirs).1.plugins.map PluginClass.plugin) ∧
    ∀ c ∈ (s.load dirs).1.plugins, ∀ a ∈ c.plugin.attrs, ∀ b ∈ c.plugin.attrs, a.1 = b.1 → a.2 = b.2 := by
  revert h
  unfold RegState.load
  cases s.loadDirs dirs with
  | mk s' b =>
    cases b with
    | false => simp
    | true =>
      simp only
      split_ifs with hc
      · refine fun _ => ⟨rfl, ?_⟩
        intro c hcm a ha b hb e
        have h1 := List.all_eq_true.1 hc c hcm
        unfold attrsComparable at h1
        have h2 := List.all_eq_true.1 (List.all_eq_true.1 h1 a ha) b hb
        exact of_decide_eq_true h2 e
      · simp

theorem loadDir_fails (dir : Str) (before : List DirItem) (it : DirItem) (after : List DirItem) (hb : ∀ x ∈ before, x.isFile ≠ none) (hf : PluginFile it) (hr : it.run = none) :
    ∀ s : RegState, (s.loadDir dir (before ++ it :: after)).2 = false := by
  induction before with
  | nil =>
    intro s
    simp only [List.nil_append, RegState.loadDir, hf.1]
    rw [if_neg (by rw [(pluginFile_iff hf.1).2 hf]; simp)]
    simp [hr]
  | cons x before ih =>
    intro s
    have ih := ih (fun y hy => hb y (by simp [hy]))
    simp only [List.cons_append, RegState.loadDir]
    cases hx : x.isFile with
    | none => exact absurd hx (hb x (by simp))
    | some f =>
      simp only
      split_ifs
      · exact ih s
      · cases x.run with
        | none => rfl
        | some objs =>
          simp only
          cases s.inspect (dir ++ '/' :: x.name) objs with
          | mk s' b => cases b <;> simp [ih]

/-- C103 (false: a plugin that does not work does not affect runs that do not use it). A plugin file that cannot be executed, or not be read, makes loading fail, whatever the other files
are. -/
theorem C103_broken_false {dirs : List (Str × Option (List DirItem))} {dir : Str} {before after : List DirItem} {it : DirItem}
    (hd : (dir, some (before ++ it :: after)) ∈ dirs) (hb : ∀ x ∈ before, x.isFile ≠ none) (hf : PluginFile it) (hr : it.run = none) (s : RegState) :
    (s.load dirs).2 = .badPlugin := by
  have key : ∀ dirs : List (Str × Option (List DirItem)), (dir, some (before ++ it :: after)) ∈ dirs → ∀ s : RegState, (s.loadDirs dirs).2 = false := by
    intro dirs
    induction dirs with
    | nil => intro h; simp at h
    | cons d dirs ih =>
      intro h s
      obtain ⟨d, items⟩ := d
      rcases List.mem_cons.1 h with h' | h'
      · cases h'
        simp only [RegState.loadDirs]
        have := loadDir_fails dir before it after hb hf hr s
        cases hl : s.loadDir dir (before ++ it :: after) with
        | mk s' b => rw [hl] at this; simp only at this; subst this; rfl
      · cases items with
        | none => exact ih h' s
        | some items =>
          simp only [RegState.loadDirs]
          cases s.loadDir d items with
          | mk s' b => cases b <;> simp [ih h']
  have := key dirs hd s
  unfold RegState.load
  cases hl : s.loadDirs dirs with
  | mk s' b => rw [hl] at this; simp only at this; subst this; rfl

/-- A plugin file with one plugin that has one attribute of type 0, after that type. -/
def demoItem (file name attr : Str) : DirItem := ⟨file, some true, some [.other, .type 0, .plugin ⟨⟨name, [(attr, .string)], 0⟩, [some [0]], true⟩]⟩

def demoPlugins : List (Str × Option (List DirItem)) :=
  [("/b".toList, some [demoItem "file.py".toList "file".toList "name".toList, ⟨"_x.py".toList, some true, none⟩, ⟨"README".toList, some true, none⟩,
      demoItem "a.py".toList "a".toList "x".toList]), ("/c".toList, none), ("/u".toList, some [demoItem "a.py".toList "a".toList "y".toList])]

/-- The hypotheses of `C103_files_partial` hold for it. -/
example : (∃ l, Offers demoPlugins l ∧ Examinable demoPlugins) ∧ (RegState.empty.load demoPlugins).2 = .ok ∧
    ((RegState.empty.load demoPlugins).1.plugins.map fun c => c.plugin.name) = ["file".toList, "a".toList] ∧
    (RegState.empty.load demoPlugins).1.warnings = [("a".toList, "/u/a.py".toList)] := by
  refine ⟨⟨_, .file ⟨rfl, ⟨"file".toList, rfl⟩, by intro r h; cases h⟩ rfl (.no ?_ (.no ?_ (.file ⟨rfl, ⟨"a".toList, rfl⟩, by intro r h; cases h⟩ rfl (.last (.unreadable
    (.file ⟨rfl, ⟨"a".toList, rfl⟩, by intro r h; cases h⟩ rfl (.last .nil))))))), ?_⟩, by decide, by decide, by decide⟩
  · exact fun h => h.2.2 _ rfl
  · rintro ⟨_, ⟨stem, h⟩, _⟩
    have h3 := congrArg (fun l => List.drop (l.length - 3) l) h
    simp at h3
  · unfold Examinable
    intro d items h it hi
    simp only [demoPlugins, List.mem_cons, List.not_mem_nil, or_false, Prod.mk.injEq, Option.some.injEq, reduceCtorEq, and_false, false_or] at h
    rcases h with ⟨_, rfl⟩ | ⟨_, rfl⟩ <;> simp only [List.mem_cons, List.not_mem_nil, or_false] at hi
    · rcases hi with rfl | rfl | rfl | rfl <;> simp [demoItem]
    · subst hi; simp [demoItem]

/-- C103 (false: the plugins in a directory do not depend on other files there). An entry that cannot be examined, as a symbolic link that leads to itself, hides the plugin files that are read
after it, without a message. -/
theorem C103_hidden_false : ∃ (items : List DirItem) (it : DirItem), PluginFile (demoItem "a.py".toList "a".toList "x".toList) ∧
    (RegState.empty.load [("/u".toList, some (items ++ [demoItem "a.py".toList "a".toList "x".toList]))]).1.plugins ≠ [] ∧
    (RegState.empty.load [("/u".toList, some (items ++ [it, demoItem "a.py".toList "a".toList "x".toList]))]) = (RegState.empty, .ok) :=
  ⟨[], ⟨"link".toList, none, none⟩, ⟨rfl, ⟨"a".toList, rfl⟩, by intro r h; cases h⟩, by decide, by decide⟩

/-- C103 (false: the order of the classes in a plugin file does not matter). A plugin that is defined before its type cannot be used. -/
theorem C103_order_false : ∃ c : PluginClass, (RegState.empty.load [("/u".toList, some [⟨"a.py".toList, some true, some [.type 0, .plugin c]⟩])]).2 = .ok ∧
    (RegState.empty.load [("/u".toList, some [⟨"a.py".toList, some true, some [.plugin c, .type 0]⟩])]).2 = .badPlugin :=
  ⟨⟨⟨"a".toList, [("x".toList, .string)], 0⟩, [some [0]], true⟩, by decide, by decide⟩

/-- C103 (false: errors in plugins are reported as such). Two attributes of a plugin with the same name and different types are an exception that nothing catches. -/
theorem C103_twice_false : (RegState.empty.load [("/u".toList, some [⟨"a.py".toList, some true,
    some [.type 0, .type 1, .plugin ⟨⟨"a".toList, [("x".toList, .string), ("x".toList, .number)], 0⟩, [some [0], some [1]], true⟩]⟩])]).2 = .crash := by decide

/-- C103 (false: an error in a plugin file is reported whenever it is loaded). When loading has failed after the first plugin, a second `Find` in the same program goes on with the plugins
loaded so far, none of which has any attributes. -/
theorem C103_again_false {dirs : List (Str × Option (List DirItem))} (h : (RegState.empty.construct dirs).2 = .badPlugin) (h1 : (RegState.empty.construct dirs).1.plugins ≠ []) :
    ((RegState.empty.construct dirs).1.construct dirs).2 = .ok ∧ ((RegState.empty.construct dirs).1.construct dirs).1.table = [] := by
  have ht : (RegState.empty.construct dirs).1.table = [] := by
    have key : ∀ l (s : RegState) path, (s.inspect path l).1.table = s.table := by
      intro l
      induction l with
      | nil => intros; rfl
      | cons o l ih =>
        intro s path
        cases o with
        | other => exact ih s path
        | type t => simp only [RegState.inspect]; rw [ih]
        | plugin c =>
          simp only [RegState.inspect]
          have hr : (s.register path c).1.table = s.table := by unfold RegState.register; split_ifs <;> rfl
          cases hx : s.register path c with
          | mk s' b =>
            rw [hx] at hr
            simp only at hr; cases b <;> simp [ih, hr]
    have k2 : ∀ dir l (s : RegState), (s.loadDir dir l).1.table = s.table := by
      intro dir l
      induction l with
      | nil => intros; rfl
      | cons it l ih =>
        intro s
        simp only [RegState.loadDir]
        cases it.isFile with
        | none => rfl
        | some f =>
          simp only
          split_ifs
          · exact ih s
          · cases it.run with
            | none => rfl
            | some objs =>
              simp only
              have hr := key objs s (dir ++ '/' :: it.name)
              cases hx : s.inspect (dir ++ '/' :: it.name) objs with
              | mk s' b => rw [hx] at hr; simp only at hr; cases b <;> simp [ih, hr]
    have k3 : ∀ ds (s : RegState), (s.loadDirs ds).1.table = s.table := by
      intro ds
      induction ds with
      | nil => intros; rfl
      | cons d ds ih =>
        intro s
        obtain ⟨d, items⟩ := d
        cases items with
        | none => exact ih s
        | some items =>
          simp only [RegState.loadDirs]
          have hr := k2 d items s
          cases hx : s.loadDir d items with
          | mk s' b => rw [hx] at hr; simp only at hr; cases b <;> simp [ih, hr]
    have k4 := k3 dirs RegState.empty
    revert h
    have he : RegState.empty.construct dirs = RegState.empty.load dirs := if_pos rfl
    rw [he]
    unfold RegState.load
    cases hx : RegState.empty.loadDirs dirs with
    | mk s' b =>
      rw [hx] at k4
      cases b with
      | false => exact fun _ => k4
      | true => simp only; split_ifs <;> simp
  have he : (RegState.empty.construct dirs).1.construct dirs = ((RegState.empty.construct dirs).1, .ok) := if_neg h1
  rw [he]
  exact ⟨rfl, ht⟩

example : (RegState.empty.construct [("/b".toList, some [demoItem "file.py".toList "file".toList "name".toList, ⟨"x.py".toList, some true, none⟩])]).2 = .badPlugin ∧
    (RegState.empty.construct [("/b".toList, some [demoItem "file.py".toList "file".toList "name".toList, ⟨"x.py".toList, some true, none⟩])]).1.plugins ≠ [] := by decide

end FF
