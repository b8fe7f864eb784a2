import Verif.Lemmas.Walk
import Verif.Props.Entry
namespace FF
open Spec

/-! ### C08: pruning -/

theorem pathJoin_pathOf {dir : List Str} {n : Str} (hd : ∀ x ∈ dir, IsFileName x) (hn : IsFileName n) :
    pathJoin (pathOf dir) n = pathOf (dir ++ [n]) := by
  by_cases h : dir = []
  · subst h; simp [pathJoin, pathOf]
  · have h1 := pathOf_ne_nil h hd
    have h2 : pathOf dir ≠ ['/'] := pathOf_head_ne_sep hd []
    rw [pathOf_append_last dir n h]
    simp [pathJoin, h1, h2, hn.1]

theorem entry_name {start : Start} (hr : start.root ≠ []) {dir : List Str} {n : Str} (hd : ∀ x ∈ dir, IsFileName x) (hn : IsFileName n) :
    (mkEntry start.root start.absroot (pathOf (dir ++ [n]))).name = n := (C60_entry _ _ _ _ hr hd hn).1

theorem entry_abspath {start : Start} (hr : start.absroot ≠ []) {dir : List Str} {n : Str} (hd : ∀ x ∈ dir, IsFileName x) (hn : IsFileName n) :
    (mkEntry start.root start.absroot (pathOf (dir ++ [n]))).abspath = absOf start.absroot (dir ++ [n]) := by
  have hne : pathOf (dir ++ [n]) ≠ [] := pathOf_ne_nil (by simp) (by
    intro x hx; rcases List.mem_append.1 hx with h | h
    · exact hd x h
    · simp at h; subst h; exact hn)
  simp only [mkEntry, pathJoin, absOf]
  by_cases h : start.absroot = ['/'] <;> simp [h, hr, hne]

theorem addIgnores_eq {isIgn : Str → Bool} {start : Start} (hr : start.root ≠ []) (ha : start.absroot ≠ []) {dir : List Str} {kids : List FNode}
    (hd : ∀ x ∈ dir, IsFileName x) (hk : ∀ n ∈ kids, IsFileName n.name) :
    addIgnores isIgn start (pathOf dir) kids = ignoresIn isIgn start.absroot dir kids := by
  unfold addIgnores ignoresIn
  induction kids with
  | nil => rfl
  | cons n ns ih =>
    have hn := hk n (by simp)
    have ih := ih (fun m hm => hk m (by simp [hm]))
    simp only [List.map_cons, List.filter_cons, pathJoin_pathOf hd hn, entry_name hr hd hn]
    cases isIgn n.name with
    | true => simp only [if_true, List.map_cons, pathJoin_pathOf hd hn, entry_abspath ha hd hn, ih]
    | false => simpa using ih

/-- `entryAt` below a directory. -/
def entryIn (isIgn : Str → Bool) (start : Start) (dir : List Str) (ign : List Str) (kids : List FNode) (p : List FNode) : EntInfo :=
  { start := start, relpath := pathOf (dir ++ p.map FNode.name), isDir := (p.getLast?.map FNode.isDir).getD false,
    ignorePaths := ign ++ ignoresOn isIgn start.absroot dir kids p }

theorem entryIn_cons (isIgn : Str → Bool) (start : Start) (dir : List Str) (ign : List Str) (kids : List FNode) (n : FNode) {p : List FNode} (hp : p ≠ []) :
    entryIn isIgn start dir ign kids (n :: p) =
    entryIn isIgn start (dir ++ [n.name]) (ign ++ ignoresIn isIgn start.absroot dir kids) n.kids p := by
  cases p with
  | nil => exact absurd rfl hp
  | cons m p => simp [entryIn, ignoresOn, List.getLast?_cons_cons]

theorem chain_cons {kids : List FNode} {n : FNode} {p : List FNode} (hp : p ≠ []) : Chain kids (n :: p) ↔ n ∈ kids ∧ n.isDir = true ∧ Chain n.kids p := by
  cases p with
  | nil => exact absurd rfl hp
  | cons m p => rfl

theorem chain_ne_nil {kids p : List FNode} (h : Chain kids p) : p ≠ [] := by rintro rfl; exact h

theorem resKids_mem (cfg : WalkCfg) {start : Start} (hr : start.root ≠ []) (ha : start.absroot ≠ []) {kids : List FNode} (hg : GoodTree kids) :
    ∀ (dir : List Str) (ign : List Str), (∀ x ∈ dir, IsFileName x) → ∀ i,
      (i ∈ resKids cfg start (pathOf dir) (ign ++ addIgnores cfg.isIgnoreFile start (pathOf dir) kids) kids ↔
       ∃ p, Chain kids p ∧ i = entryIn cfg.isIgnoreFile start dir ign kids p ∧ cfg.keep i = true ∧
        ∀ q, q ≠ [] → q <+: p → cfg.excl (entryIn cfg.isIgnoreFile start dir ign kids q) = false) := by
  induction hg with
  | @mk kids hnames _ _ ih =>
    intro dir ign hd i
    rw [resKids_eq, List.mem_flatMap, addIgnores_eq hr ha hd hnames]
    constructor
    · rintro ⟨n, hn, hi⟩
      have hname := hnames n hn
      rw [resNode_eq, resEnt, pathJoin_pathOf hd hname] at hi
      have he : (⟨start, pathOf (dir ++ [n.name]), n.isDir, ign ++ ignoresIn cfg.isIgnoreFile start.absroot dir kids⟩ : EntInfo) =
          entryIn cfg.isIgnoreFile start dir ign kids [n] := by simp [entryIn, ignoresOn]
      rw [he] at hi
      split at hi
      · cases hi
      · rename_i hex
        have hex : cfg.excl (entryIn cfg.isIgnoreFile start dir ign kids [n]) = false := by simpa using hex
        rcases List.mem_append.1 hi with hi | hi
        · split at hi
          · rename_i hk
            simp only [List.mem_singleton] at hi
            subst hi
            refine ⟨[n], hn, rfl, hk, fun q hq hqp => ?_⟩
            have : q = [n] := by
              rcases List.prefix_cons_iff.1 hqp with h | ⟨t, rfl, ht⟩
              · exact absurd h hq
              · simp at ht; simp [ht]
            rw [this]; exact hex
          · cases hi
        · split at hi
          · rename_i hdir
            have hdir' : n.isDir = true := by simpa [entryIn] using hdir
            have hd' : ∀ x ∈ dir ++ [n.name], IsFileName x := by
              intro x hx; rcases List.mem_append.1 hx with h | h
              · exact hd x h
              · simp at h; subst h; exact hname
            have hres : resDir cfg (EntT.toDir ⟨entryIn cfg.isIgnoreFile start dir ign kids [n], n.kids⟩) =
                resKids cfg start (pathOf (dir ++ [n.name])) ((ign ++ ignoresIn cfg.isIgnoreFile start.absroot dir kids) ++
                  addIgnores cfg.isIgnoreFile start (pathOf (dir ++ [n.name])) n.kids) n.kids := by
              simp [resDir, EntT.toDir, entryIn, ignoresOn]
            rw [hres, ih n hn _ _ hd'] at hi
            obtain ⟨p, hp, rfl, hk, hq⟩ := hi
            have hpne := chain_ne_nil hp
            rw [← entryIn_cons _ _ _ _ _ _ hpne] at hk ⊢
            refine ⟨n :: p, (chain_cons hpne).2 ⟨hn, hdir', hp⟩, rfl, hk, fun q hqne hqp => ?_⟩
            rcases List.prefix_cons_iff.1 hqp with h | ⟨t, rfl, ht⟩
            · exact absurd h hqne
            · by_cases htn : t = []
              · subst htn; exact hex
              · rw [entryIn_cons _ _ _ _ _ _ htn]; exact hq t htn ht
          · cases hi
    · rintro ⟨p, hp, rfl, hk, hq⟩
      cases p with
      | nil => exact hp.elim
      | cons n p =>
        have hn : n ∈ kids := by
          cases p with
          | nil => exact hp
          | cons m p => exact hp.1
        refine ⟨n, hn, ?_⟩
        have hname := hnames n hn
        rw [resNode_eq, resEnt, pathJoin_pathOf hd hname]
        have he : (⟨start, pathOf (dir ++ [n.name]), n.isDir, ign ++ ignoresIn cfg.isIgnoreFile start.absroot dir kids⟩ : EntInfo) =
            entryIn cfg.isIgnoreFile start dir ign kids [n] := by simp [entryIn, ignoresOn]
        rw [he]
        have hex := hq [n] (by simp) (by simp)
        simp only [hex, Bool.false_eq_true, if_false]
        rw [List.mem_append]
        cases p with
        | nil => left; simp [hk]
        | cons m p =>
          right
          obtain ⟨_, hdir, hch⟩ := hp
          have : (entryIn cfg.isIgnoreFile start dir ign kids [n]).isDir = true := by simpa [entryIn] using hdir
          simp only [this, if_true]
          have hd' : ∀ x ∈ dir ++ [n.name], IsFileName x := by
            intro x hx; rcases List.mem_append.1 hx with h | h
            · exact hd x h
            · simp at h; subst h; exact hname
          have hres : resDir cfg (EntT.toDir ⟨entryIn cfg.isIgnoreFile start dir ign kids [n], n.kids⟩) =
              resKids cfg start (pathOf (dir ++ [n.name])) ((ign ++ ignoresIn cfg.isIgnoreFile start.absroot dir kids) ++
                addIgnores cfg.isIgnoreFile start (pathOf (dir ++ [n.name])) n.kids) n.kids := by
            simp [resDir, EntT.toDir, entryIn, ignoresOn]
          rw [hres, ih n hn _ _ hd']
          refine ⟨m :: p, hch, entryIn_cons _ _ _ _ _ _ (by simp), hk, fun q hqne hqp => ?_⟩
          rw [← entryIn_cons _ _ _ _ _ _ hqne]
          exact hq (n :: q) (by simp) (by obtain ⟨t, ht⟩ := hqp; exact ⟨t, by simp [← ht]⟩)

/-- The results of a start directory are what is selected. -/
theorem resDir_mem (cfg : WalkCfg) {start : Start} (hr : start.root ≠ []) (ha : start.absroot ≠ []) {kids : List FNode} (hg : GoodTree kids) (base : List Str)
    (i : EntInfo) : i ∈ resDir cfg ⟨start, [], base, kids⟩ ↔ Selected cfg start base kids i := by
  have := resKids_mem cfg hr ha hg [] base (by simp) i
  simp only [pathOf] at this
  unfold resDir
  simp only
  rw [this]
  have he : ∀ p, entryIn cfg.isIgnoreFile start [] base kids p = entryAt cfg.isIgnoreFile start base kids p := by intro p; simp [entryIn, entryAt]
  simp only [he, Selected]

/-! ### Each entry once -/

theorem resKids_prefix (cfg : WalkCfg) {start : Start} (hr : start.root ≠ []) (ha : start.absroot ≠ []) {kids : List FNode} (hg : GoodTree kids)
    {dir : List Str} {ign : List Str} (hd : ∀ x ∈ dir, IsFileName x) {i : EntInfo}
    (h : i ∈ resKids cfg start (pathOf dir) (ign ++ addIgnores cfg.isIgnoreFile start (pathOf dir) kids) kids) :
    ∃ p, Chain kids p ∧ i.relpath = pathOf (dir ++ p.map FNode.name) := by
  obtain ⟨p, hp, rfl, _⟩ := (resKids_mem cfg hr ha hg dir ign hd i).1 h
  exact ⟨p, hp, rfl⟩

theorem goodTree_chain {kids : List FNode} (hg : GoodTree kids) {p : List FNode} (hp : Chain kids p) : ∀ n ∈ p, IsFileName n.name := by
  induction p generalizing kids with
  | nil => simp
  | cons n p ih =>
    cases hg with
    | mk h1 h2 h3 =>
      cases p with
      | nil => intro m hm; simp at hm; subst hm; exact h1 _ hp
      | cons m p =>
        obtain ⟨hn, _, hch⟩ := hp
        intro x hx
        rcases List.mem_cons.1 hx with rfl | hx
        · exact h1 _ hn
        · exact ih (h3 n hn) hch x hx

theorem pathOf_inj {a b : List Str} (ha : ∀ x ∈ a, IsFileName x) (hb : ∀ x ∈ b, IsFileName x) (h : pathOf a = pathOf b) : a = b := by
  by_cases h1 : a = []
  · subst h1
    by_cases h2 : b = []
    · exact h2.symm
    · exact absurd h.symm (pathOf_ne_nil h2 hb)
  · by_cases h2 : b = []
    · subst h2; exact absurd h (pathOf_ne_nil h1 ha)
    · rw [← splitOn_pathOf h1 (fun x hx => (ha x hx).2), ← splitOn_pathOf h2 (fun x hx => (hb x hx).2), h]

theorem resKids_nodup (cfg : WalkCfg) {start : Start} (hr : start.root ≠ []) (ha : start.absroot ≠ []) {kids : List FNode} (hg : GoodTree kids) :
    ∀ (dir : List Str) (ign : List Str), (∀ x ∈ dir, IsFileName x) →
      (resKids cfg start (pathOf dir) (ign ++ addIgnores cfg.isIgnoreFile start (pathOf dir) kids) kids).Nodup := by
  induction hg with
  | @mk kids hnames hnodup hsub ih =>
    intro dir ign hd
    rw [addIgnores_eq hr ha hd hnames]
    generalize hI : ign ++ ignoresIn cfg.isIgnoreFile start.absroot dir kids = I
    clear hI
    -- the results of a node begin with its name
    have hpre : ∀ n ∈ kids, ∀ i ∈ resNode cfg start (pathOf dir) I n, ∃ t, (∀ x ∈ t, IsFileName x) ∧ i.relpath = pathOf (dir ++ n.name :: t) ∧
        (i ∈ (if n.isDir then resKids cfg start (pathOf (dir ++ [n.name])) (I ++ addIgnores cfg.isIgnoreFile start (pathOf (dir ++ [n.name])) n.kids) n.kids else []) → t ≠ []) := by
      intro n hn i hi
      have hname := hnames n hn
      have hd' : ∀ x ∈ dir ++ [n.name], IsFileName x := by
        intro x hx; rcases List.mem_append.1 hx with h | h
        · exact hd x h
        · simp at h; subst h; exact hname
      have hbelow : i ∈ (if n.isDir then resKids cfg start (pathOf (dir ++ [n.name])) (I ++ addIgnores cfg.isIgnoreFile start (pathOf (dir ++ [n.name])) n.kids) n.kids else []) →
          ∃ t, t ≠ [] ∧ (∀ x ∈ t, IsFileName x) ∧ i.relpath = pathOf (dir ++ n.name :: t) := by
        intro h
        split at h
        · obtain ⟨p, hp, hrel⟩ := resKids_prefix cfg hr ha (hsub n hn) hd' h
          refine ⟨p.map FNode.name, by simpa using chain_ne_nil hp, ?_, by rw [hrel]; simp⟩
          intro x hx
          obtain ⟨m, hm, rfl⟩ := List.mem_map.1 hx
          exact goodTree_chain (hsub n hn) hp m hm
        · cases h
      by_cases hb : i ∈ (if n.isDir then resKids cfg start (pathOf (dir ++ [n.name])) (I ++ addIgnores cfg.isIgnoreFile start (pathOf (dir ++ [n.name])) n.kids) n.kids else [])
      · obtain ⟨t, h1, h2, h3⟩ := hbelow hb
        exact ⟨t, h2, h3, fun _ => h1⟩
      · refine ⟨[], by simp, ?_, fun h => absurd h hb⟩
        rw [resNode_eq, resEnt, pathJoin_pathOf hd hname] at hi
        split at hi
        · cases hi
        · rcases List.mem_append.1 hi with hi | hi
          · split at hi
            · simp only [List.mem_singleton] at hi; subst hi; rfl
            · cases hi
          · exact absurd hi hb
    rw [resKids_eq]
    -- one node
    have hone : ∀ n ∈ kids, (resNode cfg start (pathOf dir) I n).Nodup := by
      intro n hn
      have hname := hnames n hn
      have hd' : ∀ x ∈ dir ++ [n.name], IsFileName x := by
        intro x hx; rcases List.mem_append.1 hx with h | h
        · exact hd x h
        · simp at h; subst h; exact hname
      have ih' := ih n hn (dir ++ [n.name]) I hd'
      have hpre' := hpre n hn
      rw [resNode_eq, resEnt, pathJoin_pathOf hd hname] at hpre' ⊢
      split
      · exact List.nodup_nil
      · rename_i hex
        rw [if_neg hex] at hpre'
        have hres : resDir cfg (EntT.toDir ⟨⟨start, pathOf (dir ++ [n.name]), n.isDir, I⟩, n.kids⟩) =
          resKids cfg start (pathOf (dir ++ [n.name])) (I ++ addIgnores cfg.isIgnoreFile start (pathOf (dir ++ [n.name])) n.kids) n.kids := rfl
        simp only [hres] at hpre' ⊢
        rw [List.nodup_append]
        refine ⟨by split <;> simp, by split; exact ih'; exact List.nodup_nil, ?_⟩
        intro a hmem b hb hab
        subst hab
        obtain ⟨t, h1, h2, h3⟩ := hpre' a (by rw [List.mem_append]; exact Or.inr hb)
        have htne := h3 hb
        split at hmem
        · simp only [List.mem_singleton] at hmem
          subst hmem
          have := pathOf_inj hd' (b := dir ++ n.name :: t) (by
            intro x hx
            simp only [List.mem_append, List.mem_cons] at hx
            rcases hx with hx | rfl | hx
            · exact hd x hx
            · exact hname
            · exact h1 x hx) h2
          simp only [List.append_cancel_left_eq, List.cons.injEq, true_and] at this
          exact htne this.symm
        · cases hmem
    -- all nodes
    clear ih hsub
    induction kids with
    | nil => simp
    | cons n ns ihk =>
      rw [List.flatMap_cons, List.nodup_append]
      simp only [List.map_cons, List.nodup_cons] at hnodup
      refine ⟨hone n (by simp), ihk (fun m hm => hnames m (by simp [hm])) hnodup.2 (fun m hm => hpre m (by simp [hm])) (fun m hm => hone m (by simp [hm])), ?_⟩
      intro a hmem b hb hab
      subst hab
      obtain ⟨m, hm, hb⟩ := List.mem_flatMap.1 hb
      obtain ⟨t1, h1, h2, _⟩ := hpre n (by simp) a hmem
      obtain ⟨t2, h3, h4, _⟩ := hpre m (by simp [hm]) a hb
      rw [h2] at h4
      have := pathOf_inj (a := dir ++ n.name :: t1) (b := dir ++ m.name :: t2) (by
        intro x hx
        simp only [List.mem_append, List.mem_cons] at hx
        rcases hx with hx | rfl | hx
        · exact hd x hx
        · exact hnames n (by simp)
        · exact h1 x hx) (by
        intro x hx
        simp only [List.mem_append, List.mem_cons] at hx
        rcases hx with hx | rfl | hx
        · exact hd x hx
        · exact hnames m (by simp [hm])
        · exact h3 x hx) h4
      simp only [List.append_cancel_left_eq, List.cons.injEq] at this
      exact hnodup.1 (by rw [this.1]; exact List.mem_map_of_mem hm)

/-! ### Start directories -/

/-- What the search is asked to do: start directories, the ignore files that apply from outside, and what is below. -/
structure Root where
  start : Start
  base : List Str
  kids : List FNode

def Root.dir (r : Root) : DirT := ⟨r.start, [], r.base, r.kids⟩

/-- Start directories are given by non-empty paths and lead to proper trees. -/
def Root.Ok (r : Root) : Prop := r.start.root ≠ [] ∧ r.start.absroot ≠ [] ∧ GoodTree r.kids

theorem perm_of_countP {l r : List EntInfo} (h : ∀ p : EntInfo → Bool, List.countP p l = List.countP p r) : l.Perm r :=
  List.perm_iff_count.2 (fun a => h (· == a))

theorem init_pending (cfg : WalkCfg) (roots : List DirT) (n : Nat) : pendingRes cfg (initState roots n) = roots.flatMap (resDir cfg) := by
  have h1 : (List.replicate n (⟨.idle, [], []⟩ : Worker)).flatMap (resWorker cfg) = [] := by
    induction n with
    | zero => rfl
    | succ n ih => simp [List.replicate_succ, ih, resWorker, resState]
  have h2 : (roots.map (fun d => Chunk.dirs [d])).flatMap (resChunk cfg) = roots.flatMap (resDir cfg) := by
    induction roots with
    | nil => rfl
    | cons d ds ih => simp [resChunk, ih]
  simp [pendingRes, initState, h1, h2]

theorem resDir_start (cfg : WalkCfg) {r : Root} (hr : r.Ok) {i : EntInfo} (h : i ∈ resDir cfg r.dir) : i.start = r.start := by
  obtain ⟨p, _, rfl, _⟩ := (resDir_mem cfg hr.1 hr.2.1 hr.2.2 r.base i).1 h
  rfl

theorem roots_nodup (cfg : WalkCfg) {roots : List Root} (hok : ∀ r ∈ roots, r.Ok) (hnd : (roots.map Root.start).Nodup) :
    ((roots.map Root.dir).flatMap (resDir cfg)).Nodup := by
  induction roots with
  | nil => simp
  | cons r rs ih =>
    simp only [List.map_cons, List.nodup_cons] at hnd
    rw [List.map_cons, List.flatMap_cons, List.nodup_append]
    have hr := hok r (by simp)
    refine ⟨?_, ih (fun x hx => hok x (by simp [hx])) hnd.2, ?_⟩
    · exact resKids_nodup cfg hr.1 hr.2.1 hr.2.2 [] r.base (by simp)
    · intro a hm b hb hab
      subst hab
      obtain ⟨d, hd, hb⟩ := List.mem_flatMap.1 hb
      obtain ⟨r', hr', rfl⟩ := List.mem_map.1 hd
      have h1 := resDir_start cfg hr hm
      have h2 := resDir_start cfg (hok r' (by simp [hr'])) hb
      exact hnd.1 (by rw [← h1, h2]; exact List.mem_map_of_mem hr')

/-- The entries that a search selects, as a list. -/
theorem roots_mem (cfg : WalkCfg) {roots : List Root} (hok : ∀ r ∈ roots, r.Ok) (i : EntInfo) :
    i ∈ (roots.map Root.dir).flatMap (resDir cfg) ↔ ∃ r ∈ roots, Selected cfg r.start r.base r.kids i := by
  simp only [List.mem_flatMap, List.mem_map]
  constructor
  · rintro ⟨_, ⟨r, hr, rfl⟩, hi⟩
    obtain ⟨h1, h2, h3⟩ := hok r hr
    exact ⟨r, hr, (resDir_mem cfg h1 h2 h3 r.base i).1 hi⟩
  · rintro ⟨r, hr, hi⟩
    obtain ⟨h1, h2, h3⟩ := hok r hr
    exact ⟨r.dir, ⟨r, hr, rfl⟩, (resDir_mem cfg h1 h2 h3 r.base i).2 hi⟩

/-- C07: at every moment of every execution, also without timing assumptions, nothing has been handed to processing twice or
without being selected: what was handed over is a part of the selected entries, each once. -/
theorem C07_sound (cfg : WalkCfg) (fair : Fair) {roots : List Root} (hok : ∀ r ∈ roots, r.Ok) (hnd : (roots.map Root.start).Nodup) (n : Nat) {s : PState}
    (h : PSteps cfg fair (initState (roots.map Root.dir) n) s) :
    s.handed.Nodup ∧ ∀ i ∈ s.handed, ∃ r ∈ roots, Selected cfg r.start r.base r.kids i := by
  have hc : ∀ p, List.countP p s.handed + List.countP p (pendingRes cfg s) = List.countP p ((roots.map Root.dir).flatMap (resDir cfg)) := by
    intro p
    rw [h.conserve p, init_pending]
    simp [initState]
  have hnd' := roots_nodup cfg hok hnd
  constructor
  · rw [List.nodup_iff_count]
    intro a
    have := hc (· == a)
    have h2 := List.nodup_iff_count.1 hnd' a
    simp only [List.count] at h2 ⊢
    omega
  · intro i hi
    rw [← roots_mem cfg hok]
    have := hc (· == i)
    have h1 : 0 < List.countP (· == i) s.handed := List.countP_pos_iff.2 ⟨i, hi, by simp⟩
    have h2 : 0 < List.countP (· == i) ((roots.map Root.dir).flatMap (resDir cfg)) := by omega
    obtain ⟨j, hj, hij⟩ := List.countP_pos_iff.1 h2
    simp only [beq_iff_eq] at hij
    exact hij ▸ hj

/-- C07: when the search ends, under the timing assumption that `queue.get` reports Empty only if there is nothing to come, the entries handed
to processing are exactly the selected ones, each once. Any number of workers, any interleaving. -/
theorem C07_complete_partial (cfg : WalkCfg) (fair : Fair) (ht : fair.timely = true) {roots : List Root} (hok : ∀ r ∈ roots, r.Ok)
    (hnd : (roots.map Root.start).Nodup) {n : Nat} (hn : 0 < n) {s : PState} (h : PSteps cfg fair (initState (roots.map Root.dir) n) s)
    (hfin : s.main = .finished) :
    s.handed.Nodup ∧ ∀ i, i ∈ s.handed ↔ ∃ r ∈ roots, Selected cfg r.start r.base r.kids i := by
  refine ⟨(C07_sound cfg fair hok hnd n h).1, fun i => ?_⟩
  have hcalm := (Calm.init (roots.map Root.dir) hn).steps ht h
  obtain ⟨hq, hw⟩ := hcalm.fin hfin
  have hp : pendingRes cfg s = [] := by
    unfold pendingRes
    rw [hq]
    simp only [List.flatMap_nil, List.nil_append, List.flatMap_eq_nil_iff]
    intro w hw'
    obtain ⟨h1, h2⟩ := hw w hw'
    simp [resWorker, h1, h2, resState]
  have hperm : s.handed.Perm ((roots.map Root.dir).flatMap (resDir cfg)) := by
    apply perm_of_countP
    intro p
    have := h.conserve p
    rw [hp, init_pending] at this
    simpa [initState] using this
  rw [hperm.mem_iff, roots_mem cfg hok]

/-- C11: when main ends its collection, under the timing assumptions it has received exactly the selected entries, each once. -/
theorem C11_complete_partial (cfg : WalkCfg) (fair : Fair) (ht : fair.timely = true) (hpr : fair.prompt = true) {roots : List Root} (hok : ∀ r ∈ roots, r.Ok)
    (hnd : (roots.map Root.start).Nodup) {n : Nat} (hn : 0 < n) {s : PState} (h : PSteps cfg fair (initState (roots.map Root.dir) n) s)
    (hfin : s.main = .finished) :
    s.collected.Perm s.handed ∧ s.collected.Nodup ∧ ∀ i, i ∈ s.collected ↔ ∃ r ∈ roots, Selected cfg r.start r.base r.kids i := by
  have hquiet : Quiet s := by
    refine Quiet.steps ht hpr (Calm.init (roots.map Root.dir) hn) ⟨?_, ?_⟩ h
    · intro h; cases h
    · intro h; cases h
  obtain ⟨hq, hw⟩ := hquiet.fin hfin
  have hp : outPending s = [] := by
    unfold outPending
    rw [hq]
    simp only [List.flatten_nil, List.nil_append, List.flatMap_eq_nil_iff]
    intro w hw'
    rw [(hw w hw').2]; rfl
  have hperm : s.collected.Perm s.handed := by
    apply perm_of_countP
    intro p
    have := h.out p (by
      have : ∀ k, (List.replicate k (⟨.idle, [], []⟩ : Worker)).flatMap (fun w => w.outbuf.flatten) = [] := by
        intro k; induction k with
        | zero => rfl
        | succ k ih => simp [List.replicate_succ, ih]
      simp [initState, outPending, this])
    rw [hp] at this
    simpa using this
  obtain ⟨h1, h2⟩ := C07_complete_partial cfg fair ht hok hnd hn h hfin
  exact ⟨hperm, hperm.nodup_iff.2 h1, fun i => by rw [hperm.mem_iff, h2]⟩

/-- C11: at no time has main received an entry twice or one that is not selected. -/
theorem C11_sound (cfg : WalkCfg) (fair : Fair) {roots : List Root} (hok : ∀ r ∈ roots, r.Ok) (hnd : (roots.map Root.start).Nodup) (n : Nat) {s : PState}
    (h : PSteps cfg fair (initState (roots.map Root.dir) n) s) :
    s.collected.Nodup ∧ ∀ i ∈ s.collected, ∃ r ∈ roots, Selected cfg r.start r.base r.kids i := by
  have hc : ∀ p, List.countP p s.collected + List.countP p (outPending s) = List.countP p s.handed := by
    intro p
    refine h.out p ?_
    have : ∀ k, (List.replicate k (⟨.idle, [], []⟩ : Worker)).flatMap (fun w => w.outbuf.flatten) = [] := by
      intro k; induction k with
      | zero => rfl
      | succ k ih => simp [List.replicate_succ, ih]
    simp [initState, outPending, this]
  obtain ⟨h1, h2⟩ := C07_sound cfg fair hok hnd n h
  constructor
  · rw [List.nodup_iff_count] at h1 ⊢
    intro a
    have := hc (· == a)
    have h3 := h1 a
    simp only [List.count] at h3 ⊢
    omega
  · intro i hi
    have := hc (· == i)
    have h3 : 0 < List.countP (· == i) s.collected := List.countP_pos_iff.2 ⟨i, hi, by simp⟩
    obtain ⟨j, hj, hij⟩ := List.countP_pos_iff.1 (show 0 < List.countP (· == i) s.handed by omega)
    simp only [beq_iff_eq] at hij
    exact h2 i (hij ▸ hj)

/-! ### Executions -/

theorem PSteps.head {cfg : WalkCfg} {fair : Fair} {s t u : PState} (h : PStep cfg fair s t) (hs : PSteps cfg fair t u) : PSteps cfg fair s u := by
  induction hs with
  | refl => exact .step .refl h
  | step _ h' ih => exact .step ih h'

/-- A search for everything. -/
def demoCfg : WalkCfg := { isIgnoreFile := fun _ => false, excl := fun _ => false, keep := fun _ => true, jobs := 1, slow := false }

def demoStart : Start := ⟨".".toList, "/w".toList⟩

/-- A directory with a directory `a` that holds a file `b`. -/
def demoRoot : Root := ⟨demoStart, [], [.mk "a".toList true [.mk "b".toList false []]]⟩

theorem demoRoot_ok : demoRoot.Ok := by
  refine ⟨by decide, by decide, ?_⟩
  have hb : GoodTree [.mk "b".toList false []] := by
    refine .mk ?_ (by simp) ?_
    · intro n hn; simp only [List.mem_singleton] at hn; subst hn; exact ⟨by decide, by decide⟩
    · intro n hn; simp only [List.mem_singleton] at hn; subst hn; exact .mk (by simp [FNode.kids]) (by simp [FNode.kids]) (by simp [FNode.kids])
  refine .mk ?_ (by simp [demoRoot]) ?_
  · intro n hn; simp only [demoRoot, List.mem_singleton] at hn; subst hn; exact ⟨by decide, by decide⟩
  · intro n hn; simp only [demoRoot, List.mem_singleton] at hn; subst hn; exact hb

def demoA : EntInfo := ⟨demoStart, "a".toList, true, []⟩
def demoB : EntInfo := ⟨demoStart, "a/b".toList, false, []⟩
def demoKidB : FNode := .mk "b".toList false []
def demoEntA : EntT := ⟨demoA, [demoKidB]⟩
def demoEntB : EntT := ⟨demoB, []⟩
def demoDirA : DirT := ⟨demoStart, "a".toList, [], [demoKidB]⟩

theorem demo_scan (isIgn : Str → Bool) (h : isIgn = fun _ => false) : scanDirectory isIgn demoRoot.dir = [demoEntA] ∧ scanDirectory isIgn demoDirA = [demoEntB] := by
  subst h
  rw [scanDirectory_eq, scanDirectory_eq]
  exact ⟨rfl, rfl⟩

theorem demo_test : testEntry demoCfg demoEntA [] [] = ([demoDirA], [demoA]) ∧ testEntry demoCfg demoEntB [] [] = ([], [demoB]) := ⟨rfl, rfl⟩

/-- A worker on its own. -/
theorem PStep.single {cfg : WalkCfg} {fair : Fair} {q outq m w col handed q' m' w' new} (h : WStep cfg fair true (q, m, w) new (q', m', w')) :
    PStep cfg fair ⟨q, outq, [w], m, col, handed⟩ ⟨q', outq, [w'], m', col, handed ++ new⟩ := PStep.worker (l := []) (r := []) h

/-- The search of the demo tree ends, even under all timing assumptions, with both entries. -/
theorem demo_run : PSteps demoCfg ⟨true, true⟩ (initState [demoRoot.dir] 1) ⟨[], [], [⟨.stopped, [], []⟩], .finished, [demoA, demoB], [demoA, demoB]⟩ := by
  have hs := demo_scan demoCfg.isIgnoreFile rfl
  have hscan1 := WStep.scan (cfg := demoCfg) (fair := ⟨true, true⟩) (alone := true) (d := demoRoot.dir) (todo := []) (q := []) (m := .polling) (b := []) (o := [])
  rw [hs.1] at hscan1
  have hscan2 := WStep.scan (cfg := demoCfg) (fair := ⟨true, true⟩) (alone := true) (d := demoDirA) (todo := []) (q := []) (m := .polling) (b := []) (o := [])
  rw [hs.2] at hscan2
  refine .head (.single (WStep.getDirs (ds := [demoRoot.dir]))) ?_
  refine .head (.single hscan1) ?_
  refine .head (.single (WStep.test (e := demoEntA))) ?_
  refine .head (.single (WStep.put (search := [demoDirA]) (by simp))) ?_
  refine .head (.single (WStep.hand (process := [demoA]) (by simp))) ?_
  refine .head (.single WStep.finish) ?_
  refine .head (.single (WStep.flush (c := .dirs [demoDirA]))) ?_
  refine .head (PStep.flushOut (l := []) (r := []) (c := [demoA])) ?_
  refine .head (PStep.collect (c := [demoA])) ?_
  refine .head (.single (WStep.getDirs (ds := [demoDirA]))) ?_
  refine .head (.single hscan2) ?_
  refine .head (.single (WStep.test (e := demoEntB))) ?_
  refine .head (.single (WStep.hand (process := [demoB]) (by simp))) ?_
  refine .head (.single WStep.finish) ?_
  refine .head (PStep.flushOut (l := []) (r := []) (c := [demoB])) ?_
  refine .head (PStep.collect (c := [demoB])) ?_
  refine .head (.single (WStep.empty (fun _ => ⟨rfl, fun _ => rfl⟩))) ?_
  refine .head (PStep.mainEmpty (fun _ => ⟨rfl, by simp⟩)) ?_
  exact .head (PStep.barrier (by simp) (fun _ => rfl)) .refl

/-- The hypotheses of the theorems on completeness are met. -/
example : (∀ r ∈ [demoRoot], r.Ok) ∧ ([demoRoot].map Root.start).Nodup ∧ ∃ s, PSteps demoCfg ⟨true, true⟩ (initState ([demoRoot].map Root.dir) 1) s ∧
    s.main = .finished ∧ s.handed = [demoA, demoB] :=
  ⟨by simp [demoRoot_ok], by simp, _, demo_run, rfl, rfl⟩

/-- C07 is false without the timing assumption: a worker that finds the queue empty while its own feeder thread has not yet sent the directory it
has just put lets the search end early. In the execution shown `get` reports Empty only when nothing can be received. -/
theorem C07_false : ∃ s, PSteps demoCfg ⟨false, true⟩ (initState ([demoRoot].map Root.dir) 1) s ∧ s.main = .finished ∧
    Selected demoCfg demoRoot.start demoRoot.base demoRoot.kids demoB ∧ demoB ∉ s.handed := by
  have hs := demo_scan demoCfg.isIgnoreFile rfl
  have hscan1 := WStep.scan (cfg := demoCfg) (fair := ⟨false, true⟩) (alone := true) (d := demoRoot.dir) (todo := []) (q := []) (m := .polling) (b := []) (o := [])
  rw [hs.1] at hscan1
  refine ⟨⟨[], [], [⟨.stopped, [.dirs [demoDirA]], []⟩], .finished, [demoA], [demoA]⟩, ?_, rfl, ?_, by decide⟩
  · refine .head (.single (WStep.getDirs (ds := [demoRoot.dir]))) ?_
    refine .head (.single hscan1) ?_
    refine .head (.single (WStep.test (e := demoEntA))) ?_
    refine .head (.single (WStep.put (search := [demoDirA]) (by simp))) ?_
    refine .head (.single (WStep.hand (process := [demoA]) (by simp))) ?_
    refine .head (.single WStep.finish) ?_
    refine .head (PStep.flushOut (l := []) (r := []) (c := [demoA])) ?_
    refine .head (PStep.collect (c := [demoA])) ?_
    refine .head (.single (WStep.empty (fun h => by cases h))) ?_
    refine .head (PStep.mainEmpty (fun h => by cases h)) ?_
    exact .head (PStep.barrier (by simp) (fun _ => rfl)) .refl
  · refine ⟨[.mk "a".toList true [.mk "b".toList false []], .mk "b".toList false []], ?_, ?_, rfl, fun _ _ _ => rfl⟩
    · exact ⟨by simp [demoRoot], rfl, by simp [FNode.kids, Chain]⟩
    · rfl

/-- C11 is false without the timing assumption on the barrier: main may wait at the barrier before the worker hands over its results, and pass it
together with the worker afterwards, without looking into the out queue again. -/
theorem C11_false : ∃ s, PSteps demoCfg ⟨true, false⟩ (initState ([demoRoot].map Root.dir) 1) s ∧ s.main = .finished ∧
    s.handed = [demoA, demoB] ∧ s.collected = [] := by
  have hs := demo_scan demoCfg.isIgnoreFile rfl
  have hscan1 := WStep.scan (cfg := demoCfg) (fair := ⟨true, false⟩) (alone := true) (d := demoRoot.dir) (todo := []) (q := []) (m := .waiting false) (b := []) (o := [])
  rw [hs.1] at hscan1
  have hscan2 := WStep.scan (cfg := demoCfg) (fair := ⟨true, false⟩) (alone := true) (d := demoDirA) (todo := []) (q := []) (m := .waiting false) (b := []) (o := [])
  rw [hs.2] at hscan2
  refine ⟨⟨[], [[demoA], [demoB]], [⟨.stopped, [], []⟩], .finished, [], [demoA, demoB]⟩, ?_, rfl, rfl, rfl⟩
  refine .head (PStep.mainEmpty (fun _ => ⟨rfl, by simp⟩)) ?_
  refine .head (.single (WStep.getDirs (ds := [demoRoot.dir]))) ?_
  refine .head (.single hscan1) ?_
  refine .head (.single (WStep.test (e := demoEntA))) ?_
  refine .head (.single (WStep.put (search := [demoDirA]) (by simp))) ?_
  refine .head (.single (WStep.hand (process := [demoA]) (by simp))) ?_
  refine .head (.single WStep.finish) ?_
  refine .head (.single (WStep.flush (c := .dirs [demoDirA]))) ?_
  refine .head (PStep.flushOut (l := []) (r := []) (c := [demoA])) ?_
  refine .head (.single (WStep.getDirs (ds := [demoDirA]))) ?_
  refine .head (.single hscan2) ?_
  refine .head (.single (WStep.test (e := demoEntB))) ?_
  refine .head (.single (WStep.hand (process := [demoB]) (by simp))) ?_
  refine .head (.single WStep.finish) ?_
  refine .head (PStep.flushOut (l := []) (r := []) (c := [demoB])) ?_
  refine .head (.single (WStep.empty (fun _ => ⟨rfl, fun _ => rfl⟩))) ?_
  exact .head (PStep.barrier (by simp) (fun h => by cases h)) .refl

/-- C08: once no directory or entry is left to be processed anywhere (no matter what the timing was), an entry has been handed to processing iff it is
found on some way down from a start directory, matches, and neither it nor a directory on that way is excluded. -/
theorem C08_prune (cfg : WalkCfg) (fair : Fair) {roots : List Root} (hok : ∀ r ∈ roots, r.Ok)
    {n : Nat} {s : PState} (h : PSteps cfg fair (initState (roots.map Root.dir) n) s)
    (hq : s.queue = []) (hw : ∀ w ∈ s.workers, w.buf = [] ∧ w.st.isBusy = false) (i : EntInfo) :
    i ∈ s.handed ↔ ∃ r ∈ roots, ∃ p, Chain r.kids p ∧ i = entryAt cfg.isIgnoreFile r.start r.base r.kids p ∧ cfg.keep i = true ∧
      cfg.excl i = false ∧ ∀ q, q ≠ [] → q <+: p → q ≠ p → cfg.excl (entryAt cfg.isIgnoreFile r.start r.base r.kids q) = false := by
  have hp : pendingRes cfg s = [] := by
    unfold pendingRes
    rw [hq]
    simp only [List.flatMap_nil, List.nil_append, List.flatMap_eq_nil_iff]
    intro w hw'
    obtain ⟨h1, h2⟩ := hw w hw'
    cases hst : w.st <;> simp_all [resWorker, resState, WState.isBusy]
  have hperm : s.handed.Perm ((roots.map Root.dir).flatMap (resDir cfg)) := by
    apply perm_of_countP
    intro p
    have := h.conserve p
    rw [hp, init_pending] at this
    simpa [initState] using this
  rw [hperm.mem_iff, roots_mem cfg hok]
  constructor
  · rintro ⟨r, hr, p, h1, rfl, h2, h3⟩
    exact ⟨r, hr, p, h1, rfl, h2, h3 p (chain_ne_nil h1) List.prefix_rfl, fun q hq hqp _ => h3 q hq hqp⟩
  · rintro ⟨r, hr, p, h1, rfl, h2, h3, h4⟩
    refine ⟨r, hr, p, h1, rfl, h2, fun q hq hqp => ?_⟩
    by_cases he : q = p
    · rw [he]; exact h3
    · exact h4 q hq hqp he

/-- C08: at no time and with no timing has an entry been handed over that is excluded or lies below an excluded directory. -/
theorem C08_sound (cfg : WalkCfg) (fair : Fair) {roots : List Root} (hok : ∀ r ∈ roots, r.Ok) (hnd : (roots.map Root.start).Nodup)
    {n : Nat} {s : PState} (h : PSteps cfg fair (initState (roots.map Root.dir) n) s) {i : EntInfo} (hi : i ∈ s.handed) :
    cfg.keep i = true ∧ cfg.excl i = false := by
  obtain ⟨_, _, p, h1, rfl, h2, h3⟩ := (C07_sound cfg fair hok hnd n h).2 i hi
  exact ⟨h2, h3 p (chain_ne_nil h1) List.prefix_rfl⟩

example : ∃ s, PSteps demoCfg ⟨true, true⟩ (initState ([demoRoot].map Root.dir) 1) s ∧ s.queue = [] ∧
    (∀ w ∈ s.workers, w.buf = [] ∧ w.st.isBusy = false) ∧ demoB ∈ s.handed :=
  ⟨_, demo_run, rfl, by simp [WState.isBusy], by simp⟩

/-! ### C12: chunks -/

/-- C12: the chunks of directories put into the queue. -/
theorem C12_search_chunks (jobs : Nat) (l : List α) :
    let cs := chunksOf (chunkSize jobs l.length) l
    cs.flatten = l ∧ ∀ c ∈ cs, c ≠ [] ∧ c.length ≤ 100 := by
  refine ⟨chunksOf_flatten l (chunkSize_pos _ _), ?_⟩
  have key : ∀ (n i fuel : Nat), 0 < n → n ≤ 100 → ∀ c ∈ chunksFrom l n i fuel, c ≠ [] ∧ c.length ≤ 100 := by
    intro n i fuel hn hn'
    induction fuel generalizing i with
    | zero => simp [chunksFrom]
    | succ fuel ih =>
      unfold chunksFrom
      split
      · rename_i hi
        intro c hc
        rcases List.mem_cons.1 hc with rfl | hc
        · refine ⟨?_, by rw [List.length_take]; omega⟩
          intro h0
          have := congrArg List.length h0
          rw [List.length_take, List.length_drop] at this
          simp at this
          omega
        · exact ih (i + n) c hc
      · simp
  exact key _ 0 _ (chunkSize_pos _ _) (by unfold chunkSize; omega)

theorem hundreds_flatten (fuel : Nat) (l : List α) (h : l.length ≤ fuel) : (hundreds fuel l).flatten = l ∧ ∀ c ∈ hundreds fuel l, c ≠ [] ∧ c.length ≤ 100 := by
  induction fuel generalizing l with
  | zero =>
    have : l = [] := List.eq_nil_of_length_eq_zero (by omega)
    subst this; simp [hundreds]
  | succ fuel ih =>
    unfold hundreds
    split
    · rename_i h0; simp [h0]
    · rename_i h0
      have hpos : 0 < l.length := List.length_pos_iff.2 h0
      obtain ⟨h1, h2⟩ := ih (l.drop 100) (by rw [List.length_drop]; omega)
      refine ⟨by rw [List.flatten_cons, h1, List.take_append_drop], ?_⟩
      intro c hc
      rcases List.mem_cons.1 hc with rfl | hc
      · refine ⟨?_, by rw [List.length_take]; omega⟩
        intro h3
        have := congrArg List.length h3
        rw [List.length_take] at this
        rw [List.length_nil] at this
        exact h0 (List.eq_nil_of_length_eq_zero (by omega))
      · exact h2 c hc

/-- C12: the chunks of results. -/
theorem C12_result_chunks (l : List α) : (hundreds l.length l).flatten = l ∧ ∀ c ∈ hundreds l.length l, c ≠ [] ∧ c.length ≤ 100 :=
  hundreds_flatten _ l (by omega)

/-- C12: the entries shared with other processes; both parts are non-empty. -/
theorem C12_share (l : List α) (h : 10 < l.length) :
    (splitAtHalf l).1 ++ (splitAtHalf l).2 = l ∧ (splitAtHalf l).1 ≠ [] ∧ (splitAtHalf l).2 ≠ [] := by
  refine ⟨splitAtHalf_append l, ?_, ?_⟩
  · intro h0
    have := congrArg List.length h0
    simp only [splitAtHalf, List.length_take, List.length_nil] at this
    omega
  · intro h0
    have := congrArg List.length h0
    simp only [splitAtHalf, List.length_drop, List.length_nil] at this
    omega

example : 10 < (List.range 25).length := by decide

end FF
