import Verif.Spec.Os
import Verif.Props.Walk
import Verif.Props.Git
import Verif.Props.Search
import Mathlib.Tactic.SplitIfs
/-! Properties C100 and C101: what a search sees of the files when some of them cannot be read, and when symbolic links are followed. -/
namespace FF
open Spec

/-! ### Looking at one directory -/

theorem Os.entry_ok {O : Os} {follow : Bool} {path : Str} {s : OsStat} : O.entry follow path = .ok s ↔ Examined O follow path s := by
  unfold Os.entry Examined
  cases h : O.stat follow path with
  | error e => simp
  | ok st =>
    simp only [Except.ok.injEq]
    cases hl : st.isLink with
    | false =>
      simp only [Bool.false_eq_true, if_false, Except.ok.injEq]
      constructor
      · rintro rfl; exact ⟨rfl, fun h => by rw [hl] at h; exact absurd h (by simp)⟩
      · exact fun h => h.1
    | true =>
      simp only [if_true]
      cases hr : O.readlink path with
      | error e =>
        simp only [reduceCtorEq, false_iff, not_and]
        rintro rfl h
        exact absurd (h hl) (by simp)
      | ok u =>
        simp only [Except.ok.injEq]
        exact ⟨fun h => ⟨h, fun _ => trivial⟩, fun h => h.1⟩

theorem Os.entry_error {O : Os} {follow : Bool} {path : Str} {e : OsErr} : O.entry follow path = .error e ↔ Unexaminable O follow path e := by
  unfold Os.entry Unexaminable
  cases h : O.stat follow path with
  | error e' => simp
  | ok st =>
    simp only [reduceCtorEq, Except.ok.injEq, false_or]
    cases hl : st.isLink with
    | false =>
      simp only [Bool.false_eq_true, if_false, reduceCtorEq, false_iff, not_exists, not_and]
      rintro x rfl h; rw [hl] at h; exact absurd h (by simp)
    | true =>
      simp only [if_true]
      cases hr : O.readlink path with
      | error e' =>
        simp only [Except.error.injEq]
        exact ⟨fun h => ⟨st, rfl, hl, h⟩, fun ⟨_, _, _, h⟩ => h⟩
      | ok u => simp

theorem mem_warning {e e' : OsErr} : e ∈ e'.warning ↔ e = e' ∧ Worth e := by
  cases e' with
  | notFound => simp only [OsErr.warning, List.not_mem_nil, false_iff]; rintro ⟨rfl, h, _⟩; exact h rfl
  | permission => simp only [OsErr.warning, List.not_mem_nil, false_iff]; rintro ⟨rfl, _, h⟩; exact h rfl
  | other m =>
    simp only [OsErr.warning, List.mem_singleton]
    exact ⟨fun h => ⟨h, by subst h; exact ⟨by simp, by simp⟩⟩, fun h => h.1⟩

theorem Os.scanLoop_fst (O : Os) (follow : Bool) (dir : Str) (names : List Str) (st : List (Str × OsStat) × List OsErr) :
    (O.scanLoop follow dir st names).1 = st.1 ++ names.filterMap (fun n => match O.entry follow (pathJoin dir n) with
      | .error _ => none
      | .ok s => some (n, s)) := by
  induction names generalizing st with
  | nil => simp [Os.scanLoop]
  | cons n ns ih =>
    obtain ⟨es, ws⟩ := st
    unfold Os.scanLoop
    cases h : O.entry follow (pathJoin dir n) with
    | error e => simp [ih, h]
    | ok s => simp [ih, h]

theorem Os.scanLoop_snd (O : Os) (follow : Bool) (dir : Str) (names : List Str) (st : List (Str × OsStat) × List OsErr) :
    (O.scanLoop follow dir st names).2 = st.2 ++ names.flatMap (fun n => match O.entry follow (pathJoin dir n) with
      | .error e => e.warning
      | .ok _ => []) := by
  induction names generalizing st with
  | nil => simp [Os.scanLoop]
  | cons n ns ih =>
    obtain ⟨es, ws⟩ := st
    unfold Os.scanLoop
    cases h : O.entry follow (pathJoin dir n) with
    | error e => simp [ih, h]
    | ok s => simp [ih, h]

theorem Os.mem_scan {O : Os} {follow : Bool} {dir n : Str} {s : OsStat} :
    (n, s) ∈ (O.scan follow dir).1 ↔ Listed O dir n ∧ Examined O follow (pathJoin dir n) s := by
  unfold Os.scan Listed
  cases h : O.scandir dir with
  | error e => simp
  | ok r =>
    obtain ⟨names, err⟩ := r
    simp only [Os.scanLoop_fst, List.nil_append, List.mem_filterMap, Except.ok.injEq, Prod.mk.injEq]
    constructor
    · rintro ⟨m, hm, h⟩
      cases he : O.entry follow (pathJoin dir m) with
      | error e => rw [he] at h; simp at h
      | ok s' =>
        rw [he] at h
        simp only [Option.some.injEq, Prod.mk.injEq] at h
        obtain ⟨rfl, rfl⟩ := h
        exact ⟨⟨names, err, ⟨rfl, rfl⟩, hm⟩, Os.entry_ok.1 he⟩
    · rintro ⟨⟨_, _, ⟨rfl, rfl⟩, hm⟩, hx⟩
      exact ⟨n, hm, by rw [Os.entry_ok.2 hx]⟩

/-- C100, second half: while a directory is scanned, ff warns about exactly those errors that are neither that something has vanished nor that access is denied: errors on
opening the directory, on reading it, and on examining what it lists. -/
theorem C100_warnings (O : Os) (follow : Bool) (dir : Str) (e : OsErr) :
    e ∈ (O.scan follow dir).2 ↔ Worth e ∧ (O.scandir dir = .error e ∨ (∃ names, O.scandir dir = .ok (names, some e)) ∨
      ∃ n, Listed O dir n ∧ Unexaminable O follow (pathJoin dir n) e) := by
  unfold Os.scan Listed
  cases h : O.scandir dir with
  | error e' =>
    simp only [mem_warning, Except.error.injEq, reduceCtorEq, false_and, exists_false, or_false]
    exact ⟨fun h => ⟨h.2, h.1.symm⟩, fun h => ⟨h.2.symm, h.1⟩⟩
  | ok r =>
    obtain ⟨names, err⟩ := r
    simp only [Os.scanLoop_snd, List.nil_append, List.mem_append, List.mem_flatMap, reduceCtorEq, false_or, Except.ok.injEq, Prod.mk.injEq]
    constructor
    · rintro (⟨n, hn, h⟩ | h)
      · cases he : O.entry follow (pathJoin dir n) with
        | error e' =>
          rw [he] at h
          obtain ⟨rfl, hw⟩ := mem_warning.1 h
          exact ⟨hw, .inr ⟨n, ⟨names, err, ⟨rfl, rfl⟩, hn⟩, Os.entry_error.1 he⟩⟩
        | ok s => rw [he] at h; simp at h
      · cases err with
        | none => simp at h
        | some e' =>
          obtain ⟨rfl, hw⟩ := mem_warning.1 h
          exact ⟨hw, .inl ⟨names, rfl, rfl⟩⟩
    · rintro ⟨hw, ⟨_, _, h⟩ | ⟨n, ⟨_, _, ⟨rfl, rfl⟩, hn⟩, hx⟩⟩
      · subst h; exact .inr (mem_warning.2 ⟨rfl, hw⟩)
      · exact .inl ⟨n, hn, by rw [Os.entry_error.2 hx]; exact mem_warning.2 ⟨rfl, hw⟩⟩

/-! ### Looking at all of them -/

theorem pathJoin_root {root : Str} (hr : root ≠ []) {ns : List Str} (hns : ∀ x ∈ ns, IsFileName x) (h : ns ≠ []) : pathJoin root (pathOf ns) = absOf root ns := by
  have := pathOf_ne_nil h hns
  unfold pathJoin absOf
  by_cases h' : root = ['/'] <;> simp [h', hr, this]

theorem pathJoin_join {root : Str} (hr : root ≠ []) {ns : List Str} (hns : ∀ x ∈ ns, IsFileName x) {n : Str} (hn : IsFileName n) :
    pathJoin (pathJoin root (pathOf ns)) n = absOf root (ns ++ [n]) := by
  by_cases h : ns = []
  · subst h
    have := hn.1
    unfold pathJoin absOf
    by_cases h' : root = ['/'] <;> simp [h', hr, this, pathOf]
  · rw [pathJoin_root hr hns h]
    unfold absOf
    rw [pathOf_append_last ns n h]
    have h1 := pathOf_ne_nil h hns
    have h2 := hn.1
    by_cases h' : root = ['/']
    · simp [h', pathJoin, h1, h2]
    · have : ¬ (root ++ '/' :: pathOf ns = ['/']) := by
        intro hc
        have := congrArg List.length hc
        cases root with
        | nil => exact hr rfl
        | cons a l => simp at this
      simp [h', pathJoin, h2, this]

/-- The directory with these names. -/
theorem dirPath_eq {root : Str} (hr : root ≠ []) {ns : List Str} (hns : ∀ x ∈ ns, IsFileName x) :
    pathJoin root (pathOf ns) = if ns = [] then root else absOf root ns := by
  split_ifs with h
  · subst h; simp [pathJoin, pathOf, hr]
  · exact pathJoin_root hr hns h

theorem Spec.Visible.names {O : Os} (hO : O.Proper) {follow : Bool} {root : Str} {ns : List Str} {d : Bool} (h : Visible O follow root ns d) : ∀ x ∈ ns, IsFileName x := by
  induction h with
  | top hl _ => obtain ⟨names, err, h1, h2⟩ := hl; intro x hx; simp at hx; subst hx; exact (hO.names _ _ _ h1).1 _ h2
  | deeper _ hl _ ih =>
    obtain ⟨names, err, h1, h2⟩ := hl
    intro x hx
    rcases List.mem_append.1 hx with hx | hx
    · exact ih x hx
    · simp at hx; subst hx; exact (hO.names _ _ _ h1).1 _ h2

theorem absOf_length {root : Str} (hr : root ≠ []) {ns : List Str} (hns : ∀ x ∈ ns, IsFileName x) : ns.length < (absOf root ns).length := by
  have := pathOf_length hns
  unfold absOf
  split_ifs <;> simp <;> omega

theorem Spec.Visible.examined {O : Os} {follow : Bool} {root : Str} {ns : List Str} {d : Bool} (h : Visible O follow root ns d) : ∃ s, Examined O follow (absOf root ns) s := by
  cases h with
  | top _ hx => exact ⟨_, hx⟩
  | deeper _ _ hx => exact ⟨_, hx⟩

/-- The entries on the path to a visible entry are never further than the number of letters in a path. -/
theorem Spec.Visible.short {O : Os} (hO : O.Proper) {follow : Bool} {root : Str} (hr : root ≠ []) {ns : List Str} {d : Bool} (h : Visible O follow root ns d) :
    ns.length ≤ 4095 := by
  cases h with
  | top => simp
  | @deeper ns n s hv hl _ =>
    obtain ⟨names, err, h1, _⟩ := hl
    have := absOf_length hr (hv.names hO)
    have h3 : (absOf root ns).length < 4096 := by
      rcases Nat.lt_or_ge (absOf root ns).length 4096 with h | h
      · exact h
      · obtain ⟨e, he⟩ := hO.limit _ h
        rw [he] at h1; exact absurd h1 (by simp)
    simp; omega

theorem Os.mem_kids {O : Os} {follow : Bool} {root : Str} {depth : Nat} {rel : Str} {m : FNode} :
    m ∈ O.kids follow root (depth + 1) rel ↔ ∃ n s, Listed O (pathJoin root rel) n ∧ Examined O follow (pathJoin (pathJoin root rel) n) s ∧
      m = .mk n s.isDir (if s.isDir then O.kids follow root depth (pathJoin rel n) else []) := by
  simp only [Os.kids, List.mem_map, Prod.exists, Os.mem_scan]
  constructor
  · rintro ⟨n, s, ⟨h1, h2⟩, rfl⟩; exact ⟨n, s, h1, h2, rfl⟩
  · rintro ⟨n, s, h1, h2, rfl⟩; exact ⟨n, s, ⟨h1, h2⟩, rfl⟩

theorem chain_visible {O : Os} (hO : O.Proper) {follow : Bool} {root : Str} (hr : root ≠ []) (depth : Nat) {ns : List Str} (hns : ∀ x ∈ ns, IsFileName x)
    (hv : ns = [] ∨ Visible O follow root ns true) {p : List FNode} (hp : Chain (O.kids follow root depth (pathOf ns)) p) :
    Visible O follow root (ns ++ p.map FNode.name) ((p.getLast?.map FNode.isDir).getD false) := by
  induction depth generalizing ns p with
  | zero =>
    unfold Os.kids at hp
    cases p with
    | nil => exact absurd hp (by simp [Chain])
    | cons n p => cases p with
      | nil => simp [Chain] at hp
      | cons m p => simp [Chain] at hp
  | succ depth ih =>
    have key : ∀ m ∈ O.kids follow root (depth + 1) (pathOf ns), IsFileName m.name ∧ Visible O follow root (ns ++ [m.name]) m.isDir ∧
        (m.isDir = true → m.kids = O.kids follow root depth (pathOf (ns ++ [m.name]))) := by
      intro m hm
      obtain ⟨n, s, hl, hx, rfl⟩ := Os.mem_kids.1 hm
      have hn : IsFileName n := by obtain ⟨names, err, h1, h2⟩ := hl; exact (hO.names _ _ _ h1).1 _ h2
      rw [pathJoin_join hr hns hn] at hx
      rw [dirPath_eq hr hns] at hl
      refine ⟨hn, ?_, ?_⟩
      · show Visible O follow root (ns ++ [n]) s.isDir
        rcases hv with rfl | hv
        · rw [if_pos rfl] at hl; exact .top hl hx
        · have : ns ≠ [] := by
            rintro rfl
            generalize hns0 : ([] : List Str) = ns0 at hv
            generalize hd0 : true = d0 at hv
            cases hv with
            | top => simp at hns0
            | deeper => simp at hns0
          rw [if_neg this] at hl
          exact .deeper hv hl hx
      · intro hd
        have hd : s.isDir = true := hd
        show (if s.isDir = true then O.kids follow root depth (pathJoin (pathOf ns) n) else []) = _
        rw [if_pos hd, pathJoin_pathOf hns hn]; rfl
    cases p with
    | nil => exact absurd hp (by simp [Chain])
    | cons n p =>
      cases p with
      | nil =>
        obtain ⟨_, h, _⟩ := key n hp
        simpa using h
      | cons m p =>
        obtain ⟨hn, hd, hch⟩ := hp
        obtain ⟨h1, h2, h3⟩ := key n hn
        rw [h3 hd] at hch
        have := ih (ns := ns ++ [n.name]) (by
          intro x hx; rcases List.mem_append.1 hx with hx | hx
          · exact hns x hx
          · simp at hx; subst hx; exact h1) (.inr (hd ▸ h2)) hch
        simpa [List.getLast?_cons_cons] using this

theorem chain_snoc {kids p : List FNode} (hp : Chain kids p) {l m : FNode} (hl : p.getLast? = some l) (hd : l.isDir = true) (hm : m ∈ l.kids) : Chain kids (p ++ [m]) := by
  induction p generalizing kids with
  | nil => exact absurd hp (by simp [Chain])
  | cons n p ih =>
    cases p with
    | nil =>
      simp at hl; subst hl
      exact ⟨hp, hd, hm⟩
    | cons k p =>
      obtain ⟨h1, h2, h3⟩ := hp
      exact ⟨h1, h2, ih h3 (by simpa [List.getLast?_cons_cons] using hl)⟩

theorem visible_chain {O : Os} (hO : O.Proper) {follow : Bool} {root : Str} (hr : root ≠ []) (depth : Nat) {ns : List Str} {d : Bool}
    (h : Visible O follow root ns d) (hlen : ns.length ≤ depth) :
    ∃ p, Chain (O.kids follow root depth []) p ∧ p.map FNode.name = ns ∧ ∃ l, p.getLast? = some l ∧ l.isDir = d ∧
      (d = true → l.kids = O.kids follow root (depth - ns.length) (pathOf ns)) := by
  induction h with
  | @top n s hl hx =>
    obtain ⟨names, err, h1, h2⟩ := id hl
    have hn := (hO.names _ _ _ h1).1 _ h2
    cases depth with
    | zero => simp at hlen
    | succ depth =>
      refine ⟨[.mk n s.isDir (if s.isDir then O.kids follow root depth (pathJoin [] n) else [])], ?_, rfl, _, rfl, rfl, ?_⟩
      · refine Os.mem_kids.2 ⟨n, s, ?_, ?_, rfl⟩
        · simpa [pathJoin, hr] using hl
        · have := pathJoin_join hr (ns := []) (by simp) hn
          simp only [pathOf, List.nil_append] at this
          rw [show (pathJoin root [] : Str) = pathJoin root (pathOf []) from rfl]
          simpa [pathOf] using this ▸ hx
      · intro hd
        show (if s.isDir = true then _ else _) = _
        rw [if_pos hd]
        simp [pathJoin, pathOf]
  | @deeper ns n s hv hl hx ih =>
    obtain ⟨p, hp, hpn, l, hlast, hld, hlk⟩ := ih (by simp at hlen; omega)
    obtain ⟨names, err, h1, h2⟩ := id hl
    have hn := (hO.names _ _ _ h1).1 _ h2
    have hns := hv.names hO
    have hne : ns ≠ [] := by
      rintro rfl
      simp at hpn; subst hpn; exact absurd hp (by simp [Chain])
    obtain ⟨k, hk⟩ : ∃ k, depth - ns.length = k + 1 := ⟨depth - ns.length - 1, by simp at hlen; omega⟩
    have hk' : depth - (ns ++ [n]).length = k := by simp; omega
    have hkids := hlk rfl
    rw [hk] at hkids
    refine ⟨p ++ [.mk n s.isDir (if s.isDir then O.kids follow root k (pathJoin (pathOf ns) n) else [])], ?_, by simp [hpn, FNode.name],
      .mk n s.isDir (if s.isDir then O.kids follow root k (pathJoin (pathOf ns) n) else []), by simp, rfl, ?_⟩
    · refine chain_snoc hp hlast hld ?_
      rw [hkids]
      refine Os.mem_kids.2 ⟨n, s, ?_, ?_, rfl⟩
      · rw [pathJoin_root hr hns hne]; exact hl
      · rw [pathJoin_join hr hns hn]; exact hx
    · intro hd
      show (if s.isDir = true then _ else _) = _
      rw [if_pos hd, hk', pathJoin_pathOf hns hn]

/-- C100 (the tree): below a start directory a search meets exactly the entries that can be reached through directories that can be listed and that can be examined themselves. -/
theorem C100_tree {O : Os} (hO : O.Proper) (follow : Bool) {root : Str} (hr : root ≠ []) (names : List Str) (d : Bool) :
    (∃ p, Chain (O.tree follow root) p ∧ p.map FNode.name = names ∧ (p.getLast?.map FNode.isDir).getD false = d) ↔ Visible O follow root names d := by
  unfold Os.tree
  constructor
  · rintro ⟨p, hp, rfl, rfl⟩
    simpa using chain_visible hO hr 4096 (ns := []) (by simp) (.inl rfl) hp
  · intro h
    obtain ⟨p, hp, hn, l, hl, hd, _⟩ := visible_chain hO hr 4096 h (by have := h.short hO hr; omega)
    exact ⟨p, hp, hn, by simp [hl, hd]⟩

theorem Os.kids_good {O : Os} (hO : O.Proper) (follow : Bool) (root : Str) (depth : Nat) (rel : Str) : GoodTree (O.kids follow root depth rel) := by
  induction depth generalizing rel with
  | zero => exact .mk (by simp [Os.kids]) (by simp [Os.kids]) (by simp [Os.kids])
  | succ depth ih =>
    refine .mk ?_ ?_ ?_
    · intro m hm
      obtain ⟨n, s, ⟨names, err, h1, h2⟩, hx, rfl⟩ := Os.mem_kids.1 hm
      exact (hO.names _ _ _ h1).1 _ h2
    · unfold Os.kids Os.scan
      cases h : O.scandir (pathJoin root rel) with
      | error e => simp
      | ok r =>
        obtain ⟨names, err⟩ := r
        have hnd := (hO.names _ _ _ h).2
        simp only [Os.scanLoop_fst, List.nil_append, List.map_map]
        refine List.Nodup.sublist ?_ hnd
        clear hnd h
        induction names with
        | nil => simp
        | cons n ns ih' =>
          simp only [List.filterMap_cons]
          cases he : O.entry follow (pathJoin (pathJoin root rel) n) with
          | error e => simpa using ih'.trans (List.sublist_cons_self _ _)
          | ok s => simpa [FNode.name] using ih'
    · intro m hm
      obtain ⟨n, s, hl, hx, rfl⟩ := Os.mem_kids.1 hm
      show GoodTree (if s.isDir = true then _ else _)
      split_ifs
      · exact ih _
      · exact .mk (by simp) (by simp) (by simp)

/-! ### Searches -/

/-- The start directories of a search, with what can be seen below them. -/
def Os.roots (O : Os) (follow : Bool) (base : Start → List Str) (starts : List Start) : List Root := starts.map (fun s => ⟨s, base s, O.tree follow s.root⟩)

theorem Os.roots_ok {O : Os} (hO : O.Proper) (follow : Bool) (base : Start → List Str) {starts : List Start} (hs : ∀ s ∈ starts, s.root ≠ [] ∧ s.absroot ≠ []) :
    ∀ r ∈ O.roots follow base starts, r.Ok := by
  intro r hr
  obtain ⟨s, h, rfl⟩ := List.mem_map.1 hr
  exact ⟨(hs s h).1, (hs s h).2, O.kids_good hO follow _ _ _⟩

theorem Os.roots_start (O : Os) (follow : Bool) (base : Start → List Str) (starts : List Start) : (O.roots follow base starts).map Root.start = starts := by
  simp [Os.roots, Function.comp_def]

/-- C100: whatever the tests are, no search ever reports something that cannot be examined or that is only reached through directories that cannot be listed, and nothing is
reported twice. -/
theorem C100_only {O : Os} (hO : O.Proper) (follow : Bool) (base : Start → List Str) {starts : List Start} (hs : ∀ s ∈ starts, s.root ≠ [] ∧ s.absroot ≠ [])
    (hnd : starts.Nodup) (cfg : WalkCfg) (fair : Fair) (n : Nat) {s : PState} (h : PSteps cfg fair (initState ((O.roots follow base starts).map Root.dir) n) s) :
    s.handed.Nodup ∧ ∀ i ∈ s.handed, i.start ∈ starts ∧ ∃ names, i.relpath = pathOf names ∧ Visible O follow i.start.root names i.isDir := by
  obtain ⟨h1, h2⟩ := C07_sound cfg fair (O.roots_ok hO follow base hs) (by rw [O.roots_start]; exact hnd) n h
  refine ⟨h1, fun i hi => ?_⟩
  obtain ⟨r, hr, p, hp, rfl, _⟩ := h2 i hi
  obtain ⟨st, hst, rfl⟩ := List.mem_map.1 hr
  exact ⟨hst, p.map FNode.name, rfl, (C100_tree hO follow (hs st hst).1 _ _).1 ⟨p, hp, rfl, rfl⟩⟩

/-- C100: a search without tests and exclusions finds everything that can be seen, no matter which other files and directories cannot be read. As in C07 this is about executions
in which no worker misses the directories that are still to be searched. -/
theorem C100_all_partial {O : Os} (hO : O.Proper) (follow : Bool) (base : Start → List Str) {starts : List Start} (hs : ∀ s ∈ starts, s.root ≠ [] ∧ s.absroot ≠ [])
    (hnd : starts.Nodup) {cfg : WalkCfg} (hk : ∀ i, cfg.keep i = true) (he : ∀ i, cfg.excl i = false) (fair : Fair) (ht : fair.timely = true) {n : Nat} (hn : 0 < n)
    {s : PState} (h : PSteps cfg fair (initState ((O.roots follow base starts).map Root.dir) n) s) (hfin : s.main = .finished)
    (start : Start) (names : List Str) (d : Bool) :
    (∃ i ∈ s.handed, i.start = start ∧ i.relpath = pathOf names ∧ i.isDir = d ∧ (∀ x ∈ names, IsFileName x)) ↔ start ∈ starts ∧ Visible O follow start.root names d := by
  have hok := O.roots_ok hO follow base hs
  obtain ⟨_, h2⟩ := C07_complete_partial cfg fair ht hok (by rw [O.roots_start]; exact hnd) hn h hfin
  constructor
  · rintro ⟨i, hi, rfl, hrel, rfl, hnames⟩
    obtain ⟨_, h3⟩ := C100_only hO follow base hs hnd cfg fair n h
    obtain ⟨hst, names', h4, h5⟩ := h3 i hi
    have := pathOf_inj hnames (h5.names hO) (hrel.symm.trans h4)
    subst this
    exact ⟨hst, h5⟩
  · rintro ⟨hst, hv⟩
    obtain ⟨p, hp, hpn, hpd⟩ := (C100_tree hO follow (hs start hst).1 names d).2 hv
    refine ⟨entryAt cfg.isIgnoreFile start (base start) (O.tree follow start.root) p, (h2 _).2 ⟨_, List.mem_map.2 ⟨start, hst, rfl⟩, p, hp, rfl, hk _, fun q _ _ => he _⟩,
      rfl, by simp only [entryAt, hpn], hpd, hv.names hO⟩

/-- C100: what is in a directory whose path has 4096 bytes or more is not found; ff warns about it ("File name too long"). -/
theorem C100_deep_false {O : Os} (hO : O.Proper) (follow : Bool) {root : Str} {names : List Str} (n : Str) (d : Bool) (hne : names ≠ [])
    (hlen : 4096 ≤ (absOf root names).length) : ¬ Visible O follow root (names ++ [n]) d := by
  intro h
  generalize hns : names ++ [n] = ns at h
  cases h with
  | top => have := congrArg List.length hns; simp at this; exact hne this
  | @deeper ns m s hv hl hx =>
    obtain ⟨rfl, _⟩ := List.append_inj' hns rfl
    obtain ⟨names', err, h1, _⟩ := hl
    obtain ⟨e, h2⟩ := hO.limit _ hlen
    rw [h2] at h1; exact absurd h1 (by simp)

/-- A directory `/w` with a directory `x` that may not be listed, a file `f`, something that has vanished, a file with an input/output error and a directory `d` with a file `g`. -/
def demoOs : Os :=
  { stat := fun _ p =>
      if p = "/w".toList ∨ p = "/w/x".toList ∨ p = "/w/d".toList then .ok ⟨true, false, 1⟩
      else if p = "/w/f".toList ∨ p = "/w/d/g".toList then .ok ⟨false, false, 1⟩
      else if p = "/w/bad".toList then .error (.other "EIO".toList)
      else .error .notFound
    readlink := fun _ => .error .notFound
    scandir := fun p =>
      if p = "/w".toList then .ok (["x".toList, "f".toList, "gone".toList, "bad".toList, "d".toList], none)
      else if p = "/w/d".toList then .ok (["g".toList], none)
      else if p = "/w/x".toList then .error .permission
      else .error .notFound }

theorem demoOs_proper : demoOs.Proper := by
  refine ⟨?_, ?_⟩
  · intro dir names err h
    unfold demoOs at h
    simp only at h
    split at h
    · simp only [Except.ok.injEq, Prod.mk.injEq] at h; obtain ⟨rfl, _⟩ := h
      exact ⟨by unfold IsFileName; decide, by decide⟩
    · split at h
      · simp only [Except.ok.injEq, Prod.mk.injEq] at h; obtain ⟨rfl, _⟩ := h
        exact ⟨by unfold IsFileName; decide, by decide⟩
      · split at h <;> exact absurd h (by simp)
  · intro dir h
    have h1 : dir ≠ "/w".toList := by rintro rfl; simp at h
    have h2 : dir ≠ "/w/d".toList := by rintro rfl; simp at h
    by_cases h3 : dir = "/w/x".toList
    · exact ⟨.permission, by subst h3; decide⟩
    · exact ⟨.notFound, by simp only [demoOs, h1, h2, h3, if_false]⟩

/-- The file in `d` is seen, in spite of the other errors; ff warns about the file with the input/output error only. -/
example : demoOs.Proper ∧ Visible demoOs false "/w".toList ["d".toList, "g".toList] false ∧ (demoOs.scan false "/w".toList).2 = [.other "EIO".toList] ∧
    (demoOs.tree false "/w".toList).map FNode.name = ["x".toList, "f".toList, "d".toList] := by
  refine ⟨demoOs_proper, ?_, by decide, by decide⟩
  have h1 : Visible demoOs false "/w".toList ["d".toList] true :=
    .top (s := ⟨true, false, 1⟩) ⟨_, _, rfl, by decide⟩ ⟨by decide, by decide⟩
  exact .deeper (s := ⟨false, false, 1⟩) h1 ⟨_, _, rfl, by decide⟩ ⟨by decide, by decide⟩

/-- The hypotheses of `C100_only` and `C100_all_partial` hold for the start directory `/w`. -/
example : demoOs.Proper ∧ (∀ s ∈ [(⟨"/w".toList, "/w".toList⟩ : Start)], s.root ≠ [] ∧ s.absroot ≠ []) ∧ [(⟨"/w".toList, "/w".toList⟩ : Start)].Nodup :=
  ⟨demoOs_proper, by decide, by decide⟩

/-! ### C101: symbolic links -/

/-- `os.lstat` says of no symbolic link that it is a directory; `os.stat` says of nothing that it is a symbolic link. -/
structure Spec.Links (O : Os) : Prop where
  lstat : ∀ path s, O.stat false path = .ok s → s.isLink = true → s.isDir = false
  stat : ∀ path s, O.stat true path = .ok s → s.isLink = false

/-- C101: without `-L` no symbolic link is entered: no directory between the start directory and an entry that is found is a symbolic link. -/
theorem C101_not_entered {O : Os} (hL : Links O) {root : Str} {names : List Str} {d : Bool} (h : Visible O false root names d) {q : List Str} (hq : q ≠ [])
    (hpre : q <+: names) (hlt : q ≠ names) : ∃ s, O.stat false (absOf root q) = .ok s ∧ s.isLink = false := by
  induction h with
  | @top n s _ _ =>
    obtain ⟨t, ht⟩ := hpre
    cases q with
    | nil => exact absurd rfl hq
    | cons a q =>
      simp only [List.cons_append, List.cons.injEq, List.append_eq_nil_iff] at ht
      obtain ⟨rfl, rfl, rfl⟩ := ht
      exact absurd rfl hlt
  | @deeper ns n s hv hl hx ih =>
    rcases List.prefix_concat_iff.1 (by simpa using hpre) with h | h
    · exact absurd h (by simpa using hlt)
    · by_cases he : q = ns
      · subst he
        generalize hd : true = d at hv
        have : ∃ s, O.stat false (absOf root q) = .ok s ∧ s.isDir = d := by
          cases hv with
          | top _ hx' => exact ⟨_, hx'.1, rfl⟩
          | deeper _ _ hx' => exact ⟨_, hx'.1, rfl⟩
        obtain ⟨s', h1, h2⟩ := this
        refine ⟨s', h1, ?_⟩
        cases hk : s'.isLink with
        | false => rfl
        | true => rw [hL.lstat _ _ h1 hk] at h2; rw [← h2] at hd; exact absurd hd (by simp)
      · exact ih h he

/-- C101: with `-L` an entry is found iff every directory on the way can be listed and `stat`, which follows symbolic links, succeeds; a symbolic link counts as what it leads
to. -/
theorem C101_examined {O : Os} (hL : Links O) (path : Str) (s : OsStat) : Examined O true path s ↔ O.stat true path = .ok s :=
  ⟨fun h => h.1, fun h => ⟨h, fun hl => by rw [hL.stat _ _ h] at hl; exact absurd hl (by simp)⟩⟩

/-- With `-L` a symbolic link that leads nowhere is passed over without a word, so that `-L broken=yes` finds nothing. -/
theorem C101_broken_false {O : Os} {root : Str} {names : List Str} (h : O.stat true (absOf root names) = .error .notFound) (d : Bool) : ¬ Visible O true root names d := by
  intro hv
  cases hv with
  | top _ hx => rw [hx.1] at h; exact absurd h (by simp)
  | deeper _ _ hx => rw [hx.1] at h; exact absurd h (by simp)

/-- The hypotheses of `C101_not_entered` hold for the directory `d` on the way to the file `g`, those of `C101_broken_false` for a file that has vanished, and those of
`C63_device_partial` on the files for `/w`. -/
example : Visible demoOs false "/w".toList ["d".toList, "g".toList] false ∧ ["d".toList] <+: ["d".toList, "g".toList] ∧
    demoOs.stat true (absOf "/w".toList ["gone".toList]) = .error .notFound ∧ demoOs.stat true "/w".toList = .ok ⟨true, false, 1⟩ ∧
    demoOs.stat false "/w".toList = demoOs.stat true "/w".toList := by
  have h1 : Visible demoOs false "/w".toList ["d".toList] true :=
    .top (s := ⟨true, false, 1⟩) ⟨_, _, rfl, by decide⟩ ⟨by decide, by decide⟩
  exact ⟨.deeper (s := ⟨false, false, 1⟩) h1 ⟨_, _, rfl, by decide⟩ ⟨by decide, by decide⟩, by decide, by decide, by decide, by decide⟩

/-- The number of links to be followed in what follows `/w` in a path, if all names are `a` or `b`. -/
def loopDepth : Str → Option Nat
  | [] => some 0
  | '/' :: 'a' :: l => (loopDepth l).map (· + 1)
  | '/' :: 'b' :: l => (loopDepth l).map (· + 1)
  | _ => none

/-- A directory `/w` that holds two symbolic links `a` and `b` to `/w` and nothing else. Linux follows at most 40 links in a path. -/
def loopOs : Os :=
  { stat := fun follow p => match p with
      | '/' :: 'w' :: l => match loopDepth l with
        | none => .error .notFound
        | some k => if follow then if k ≤ 40 then .ok ⟨true, false, 1⟩ else .error (.other "ELOOP".toList)
          else if k = 0 then .ok ⟨true, false, 1⟩ else if k ≤ 41 then .ok ⟨false, true, 1⟩ else .error (.other "ELOOP".toList)
      | _ => .error .notFound
    readlink := fun p => match p with
      | '/' :: 'w' :: l => match loopDepth l with
        | none => .error .notFound
        | some k => if 0 < k ∧ k ≤ 41 then .ok () else .error (.other "EINVAL".toList)
      | _ => .error .notFound
    scandir := fun p => match p with
      | '/' :: 'w' :: l => match loopDepth l with
        | none => .error .notFound
        | some k => if k ≤ 40 then .ok ([['a'], ['b']], none) else .error (.other "ELOOP".toList)
      | _ => .error .notFound }

theorem loopDepth_length {l : Str} {k : Nat} (h : loopDepth l = some k) : l.length = 2 * k := by
  fun_induction loopDepth l generalizing k with
  | case1 => simp at h; subst h; rfl
  | case2 l ih =>
    simp only [Option.map_eq_some_iff] at h; obtain ⟨m, hm, rfl⟩ := h
    have := ih hm; simp; omega
  | case3 l ih =>
    simp only [Option.map_eq_some_iff] at h; obtain ⟨m, hm, rfl⟩ := h
    have := ih hm; simp; omega
  | case4 => simp at h

theorem loopOs_proper : loopOs.Proper := by
  constructor
  · intro dir names err h
    simp only [loopOs] at h
    split at h
    · split at h
      · exact absurd h (by simp)
      · split at h
        · simp only [Except.ok.injEq, Prod.mk.injEq] at h; obtain ⟨rfl, _⟩ := h
          exact ⟨by unfold IsFileName; decide, by decide⟩
        · exact absurd h (by simp)
    · exact absurd h (by simp)
  · intro dir h
    simp only [loopOs]
    split
    · rename_i l
      split
      · exact ⟨_, rfl⟩
      · rename_i k hk
        have := loopDepth_length hk
        simp only [List.length_cons] at h
        rw [if_neg (by omega)]
        exact ⟨_, rfl⟩
    · exact ⟨_, rfl⟩

theorem loopOs_links : Links loopOs := by
  constructor
  · intro path s h hl
    simp only [loopOs] at h
    split at h
    · split at h
      · exact absurd h (by simp)
      · simp only [Bool.false_eq_true, if_false] at h
        split at h
        · simp only [Except.ok.injEq] at h; subst h; exact absurd hl (by simp)
        · split at h
          · simp only [Except.ok.injEq] at h; subst h; rfl
          · exact absurd h (by simp)
    · exact absurd h (by simp)
  · intro path s h
    simp only [loopOs] at h
    split at h
    · split at h
      · exact absurd h (by simp)
      · simp only [if_true] at h
        split at h
        · simp only [Except.ok.injEq] at h; subst h; rfl
        · exact absurd h (by simp)
    · exact absurd h (by simp)

theorem loopDepth_pathOf {ns : List Str} (hne : ns ≠ []) (h : ∀ x ∈ ns, x = ['a'] ∨ x = ['b']) : loopDepth ('/' :: pathOf ns) = some ns.length := by
  induction ns with
  | nil => exact absurd rfl hne
  | cons n ns ih =>
    cases ns with
    | nil => rcases h n (by simp) with rfl | rfl <;> simp [pathOf, loopDepth]
    | cons m ns =>
      have := ih (by simp) (fun x hx => h x (by simp [hx]))
      rcases h n (by simp) with rfl | rfl <;> simp [pathOf, loopDepth, this]

theorem loop_visible {ns : List Str} (hne : ns ≠ []) (h : ∀ x ∈ ns, x = ['a'] ∨ x = ['b']) (hl : ns.length ≤ 40) : Visible loopOs true ['/', 'w'] ns true := by
  have hstat : ∀ ns : List Str, ns ≠ [] → (∀ x ∈ ns, x = ['a'] ∨ x = ['b']) → ns.length ≤ 40 → Examined loopOs true (absOf ['/', 'w'] ns) ⟨true, false, 1⟩ := by
    intro ns hne h hl
    refine (C101_examined loopOs_links _ _).2 ?_
    have := loopDepth_pathOf hne h
    simp only [loopOs, absOf, show (['/', 'w'] : Str) ≠ ['/'] by decide, if_false, List.cons_append, List.nil_append, this, if_true, hl]
  obtain ⟨k, hk⟩ : ∃ k, ns.length = k := ⟨_, rfl⟩
  induction k generalizing ns with
  | zero => exact absurd (List.length_eq_zero_iff.1 hk) hne
  | succ k ih =>
    rcases List.eq_nil_or_concat ns with rfl | ⟨ms, n, rfl⟩
    · exact absurd rfl hne
    · rw [List.concat_eq_append] at *
      by_cases hms : ms = []
      · subst hms
        exact .top (s := ⟨true, false, 1⟩) ⟨_, _, rfl, by simpa using h n (by simp)⟩ (hstat _ hne h hl)
      · have hms' : ∀ x ∈ ms, x = ['a'] ∨ x = ['b'] := fun x hx => h x (by simp [hx])
        simp only [List.length_append, List.length_cons, List.length_nil] at hl hk
        refine .deeper (s := ⟨true, false, 1⟩) (ih hms hms' (by omega) (by omega)) ⟨[['a'], ['b']], none, ?_, by simpa using h n (by simp)⟩
          (hstat _ (by simp) h (by simpa using hl))
        have := loopDepth_pathOf hms hms'
        simp only [loopOs, absOf, show (['/', 'w'] : Str) ≠ ['/'] by decide, if_false, List.cons_append, List.nil_append, this]
        rw [if_pos (by omega)]

/-- All lists of `a` and `b` of a given length. -/
def abWords : Nat → List (List Str)
  | 0 => [[]]
  | k + 1 => (abWords k).flatMap (fun w => [['a'] :: w, ['b'] :: w])

theorem abWords_spec (k : Nat) : (abWords k).length = 2 ^ k ∧ (abWords k).Nodup ∧ ∀ w ∈ abWords k, w.length = k ∧ ∀ x ∈ w, x = ['a'] ∨ x = ['b'] := by
  induction k with
  | zero => simp [abWords]
  | succ k ih =>
    obtain ⟨h1, h2, h3⟩ := ih
    refine ⟨?_, ?_, ?_⟩
    · simp only [abWords, List.length_flatMap, List.length_cons, List.length_nil]
      have : ∀ l : List (List Str), (l.map (fun _ => 0 + 1 + 1)).sum = l.length * 2 := by
        intro l
        induction l with
        | nil => rfl
        | cons a l ih => simp only [List.map_cons, List.sum_cons, ih, List.length_cons]; omega
      rw [this, h1, Nat.pow_succ]
    · unfold abWords
      generalize abWords k = l at h2
      induction l with
      | nil => simp
      | cons w l ih =>
        obtain ⟨h4, h5⟩ := List.nodup_cons.1 h2
        have := ih h5
        simp only [List.flatMap_cons, List.cons_append, List.nil_append, List.nodup_cons, List.mem_cons, List.mem_flatMap, List.cons.injEq, List.not_mem_nil, or_false]
        refine ⟨?_, ?_, this⟩
        · rintro (⟨h, _⟩ | ⟨v, hv, ⟨_, rfl⟩ | ⟨h, _⟩⟩)
          · exact absurd h (by decide)
          · exact h4 hv
          · exact absurd h (by decide)
        · rintro ⟨v, hv, ⟨h, _⟩ | ⟨_, rfl⟩⟩
          · exact absurd h (by decide)
          · exact h4 hv
    · intro w hw
      simp only [abWords, List.mem_flatMap, List.mem_cons, List.not_mem_nil, or_false] at hw
      obtain ⟨v, hv, rfl | rfl⟩ := hw
      · obtain ⟨h4, h5⟩ := h3 v hv
        exact ⟨by simp [h4], fun x hx => by exact (List.mem_cons.1 hx).elim .inl (h5 x)⟩
      · obtain ⟨h4, h5⟩ := h3 v hv
        exact ⟨by simp [h4], fun x hx => by exact (List.mem_cons.1 hx).elim .inr (h5 x)⟩

/-- C101 fails with `-L` for links to directories that are searched anyway: a directory with nothing but two links to itself has more than 2^40 entries, so that the search does
not end within years. Directories that have been visited are not remembered. -/
theorem C101_loop_false : loopOs.Proper ∧ Links loopOs ∧ loopOs.scandir ['/', 'w'] = .ok ([['a'], ['b']], none) ∧
    ∃ l : List (List Str), l.length = 2 ^ 40 ∧ l.Nodup ∧ ∀ ns ∈ l, Visible loopOs true ['/', 'w'] ns true := by
  obtain ⟨h1, h2, h3⟩ := abWords_spec 40
  refine ⟨loopOs_proper, loopOs_links, rfl, abWords 40, h1, h2, fun ns hns => ?_⟩
  obtain ⟨h4, h5⟩ := h3 ns hns
  exact loop_visible (by rintro rfl; simp at h4) h5 (by omega)

/-- Without `-L` the same directory has two entries. -/
example : (loopOs.tree false ['/', 'w']).map (fun n => (n.name, n.isDir)) = [(['a'], false), (['b'], false)] := by decide

/-! ### C63: the device of the start directory -/

/-- C63, with the devices: if the start directory is no symbolic link, or symbolic links are followed, `--one-file-system` leaves out exactly the entries that are on another
device than the directory that is searched, and what is below them. -/
theorem C63_device_partial {S : SearchEnv} (hS : S.Ok) (a : FArgs) (hex : GoodExclude S a) (hr : GoodRanges a.depth) (isIgn : Str → Bool) (jobs : Nat) (slow : Bool)
    {O : Os} (hO : O.Proper) (follow : Bool) (start : Start) (hroot : start.root ≠ []) {r : OsStat} (hdir : O.stat true start.root = .ok r) (hsame : O.stat follow start.root = O.stat true start.root)
    (hst : ∀ j, S.stat j "samedev".toList = (O.samedev follow j.start.root (pathJoin j.start.root j.relpath)).map .bool) (base : List Str) (i : EntInfo) :
    Selected (S.search isIgn jobs slow { a with oneFileSystem := true }) start base (O.tree follow start.root) i ↔
      SelectedBut (S.search isIgn jobs slow { a with oneFileSystem := false }) start base (O.tree follow start.root) i
        (fun j => ∃ s, O.stat follow (pathJoin start.root j.relpath) = .ok s ∧ s.dev ≠ r.dev) := by
  rw [C63_one_file_system hS a hex hr]
  unfold SelectedBut
  constructor
  · rintro ⟨p, hp, rfl, hk, hall⟩
    refine ⟨p, hp, rfl, hk, fun q hq hpre => ⟨(hall q hq hpre).1, ?_⟩⟩
    rintro ⟨s, h1, h2⟩
    apply (hall q hq hpre).2
    have hc := chain_prefix hp hq hpre
    have hv := (C100_tree hO follow hroot _ _).1 ⟨q, hc, rfl, rfl⟩
    obtain ⟨s', h3⟩ := hv.examined
    rw [hst]
    show Option.map Val.bool (O.samedev follow start.root (pathJoin start.root (pathOf (q.map FNode.name)))) = _
    rw [pathJoin_root hroot (hv.names hO) (by simpa using hq)]
    have h1 : O.stat follow (pathJoin start.root (pathOf (q.map FNode.name))) = .ok s := h1
    rw [pathJoin_root hroot (hv.names hO) (by simpa using hq)] at h1
    have : s' = s := by have := h3.1; rw [h1] at this; simpa using this.symm
    subst this
    unfold Os.samedev
    rw [hsame, hdir, Os.entry_ok.2 h3]
    simp [h2]
  · rintro ⟨p, hp, rfl, hk, hall⟩
    refine ⟨p, hp, rfl, hk, fun q hq hpre => ⟨(hall q hq hpre).1, ?_⟩⟩
    intro h
    apply (hall q hq hpre).2
    rw [hst] at h
    have h : Option.map Val.bool (O.samedev follow start.root (pathJoin start.root (pathOf (q.map FNode.name)))) = some (.bool false) := h
    unfold Os.samedev at h
    rw [hsame, hdir] at h
    cases he : O.entry follow (pathJoin start.root (pathOf (q.map FNode.name))) with
    | error e => rw [he] at h; simp at h
    | ok s =>
      rw [he] at h
      simp only [Option.map_some, Option.some.injEq, Val.bool.injEq, decide_eq_false_iff_not] at h
      exact ⟨s, (Os.entry_ok.1 he).1, h⟩

/-- A symbolic link `l`, on device 1, to a directory on device 2 with a file `f`. -/
def linkOs : Os :=
  { stat := fun follow p =>
      if p = ['l'] then if follow then .ok ⟨true, false, 2⟩ else .ok ⟨false, true, 1⟩
      else if p = ['l', '/', 'f'] then .ok ⟨false, false, 2⟩
      else .error .notFound
    readlink := fun p => if p = ['l'] then .ok () else .error .notFound
    scandir := fun p => if p = ['l'] then .ok ([['f']], none) else .error .notFound }

theorem linkOs_proper : linkOs.Proper := by
  constructor
  · intro dir names err h
    simp only [linkOs] at h
    split at h
    · simp only [Except.ok.injEq, Prod.mk.injEq] at h; obtain ⟨rfl, _⟩ := h
      exact ⟨by unfold IsFileName; decide, by decide⟩
    · exact absurd h (by simp)
  · intro dir h
    exact ⟨.notFound, by simp only [linkOs]; rw [if_neg]; rintro rfl; simp at h⟩

/-- C63 fails for a start directory that is a symbolic link to a directory on another device (`ff --one-file-system l`): the device of the link is taken for that of the
directory, and nothing is found although all files are on the device of the directory. -/
theorem C63_link_false {S : SearchEnv} (hS : S.Ok) (a : FArgs) (hex : GoodExclude S a) (hr : GoodRanges a.depth) (isIgn : Str → Bool) (jobs : Nat) (slow : Bool)
    (start : Start) (hstart : start.root = ['l'])
    (hst : ∀ j, S.stat j "samedev".toList = (linkOs.samedev false j.start.root (pathJoin j.start.root j.relpath)).map .bool) (base : List Str) :
    (∃ r s, linkOs.stat true start.root = .ok r ∧ linkOs.stat false (pathJoin start.root ['f']) = .ok s ∧ s.dev = r.dev) ∧ Visible linkOs false start.root [['f']] false ∧
    ¬ ∃ i, Selected (S.search isIgn jobs slow { a with oneFileSystem := true }) start base (linkOs.tree false start.root) i := by
  rw [hstart]
  refine ⟨⟨⟨true, false, 2⟩, ⟨false, false, 2⟩, by decide, by decide, rfl⟩, .top (s := ⟨false, false, 2⟩) ⟨_, _, rfl, by decide⟩ ⟨by decide, by decide⟩, ?_⟩
  rintro ⟨i, hi⟩
  rw [C63_one_file_system hS a hex hr] at hi
  obtain ⟨p, hp, rfl, hk, hall⟩ := hi
  have hv := (C100_tree linkOs_proper false (root := ['l']) (by simp) _ _).1 ⟨p, hp, rfl, rfl⟩
  have hp0 := chain_ne_nil hp
  obtain ⟨n, q, rfl⟩ : ∃ n q, p = n :: q := by
    cases p with
    | nil => exact absurd rfl hp0
    | cons n q => exact ⟨n, q, rfl⟩
  have hc := chain_prefix hp (q := [n]) (by simp) (by simp)
  have hn : n.name = ['f'] := by
    have h1 := (C100_tree linkOs_proper false (root := ['l']) (by simp) _ _).1 ⟨[n], hc, rfl, rfl⟩
    generalize hns : List.map FNode.name [n] = ns at h1
    generalize hd : (Option.map FNode.isDir [n].getLast?).getD false = d at h1
    cases h1 with
    | top hl hx =>
      obtain ⟨names, err, h2, h3⟩ := hl
      have h2 : (Except.ok ([['f']], none) : Except OsErr (List Str × Option OsErr)) = .ok (names, err) := h2
      simp only [Except.ok.injEq, Prod.mk.injEq] at h2
      obtain ⟨rfl, _⟩ := h2
      simp at h3
      subst h3
      simpa using hns
    | @deeper ns m s hv' _ _ =>
      have hv0 : ns ≠ [] := by
        rintro rfl
        generalize hns0 : ([] : List Str) = ns0 at hv'
        generalize hd0 : true = d0 at hv'
        cases hv' with
        | top => simp at hns0
        | deeper => simp at hns0
      have := congrArg List.length hns
      simp at this
      exact absurd this hv0
  apply (hall [n] (by simp) (by simp)).2
  rw [hst]
  show Option.map Val.bool (linkOs.samedev false start.root (pathJoin start.root (pathOf [n.name]))) = _
  rw [hstart, hn]
  decide

/-- There are searches as in `C63_link_false` and `C63_device_partial`. -/
example : ∃ S : SearchEnv, S.Ok ∧ ∀ j, S.stat j "samedev".toList = (linkOs.samedev false j.start.root (pathJoin j.start.root j.relpath)).map .bool :=
  ⟨{ demoSearch with stat := fun j n => if n = "samedev".toList then (linkOs.samedev false j.start.root (pathJoin j.start.root j.relpath)).map .bool else none },
    ⟨demoSearch_ok.file, demoSearch_ok.regular, demoSearch_ok.low⟩, fun j => by simp only [if_true]⟩

end FF
