import Verif.Spec.Cache
import Verif.Lemmas.PyInt
import Verif.Spec.Arguments
/-! The metadata cache: C45 to C48. -/
namespace FF
open Spec

/-! ### C46 -/

theorem utf8Char_inj {c d : Nat} {r s : Bytes} (h : utf8Char c ++ r = utf8Char d ++ s) : c = d ∧ r = s := by
  unfold utf8Char at h
  split at h <;> split at h <;> (try split at h) <;> (try split at h) <;> (try split at h) <;> (try split at h) <;>
    simp only [List.cons_append, List.nil_append, List.cons.injEq] at h <;> first | omega | (refine ⟨by omega, ?_⟩; simp_all)

theorem utf8Char_ne_nil (c : Nat) : utf8Char c ≠ [] := by
  unfold utf8Char; repeat' split
  all_goals simp

theorem flatMap_inj {α β : Type} (P : α → Prop) (f : α → List β) (hne : ∀ a, f a ≠ [])
    (hf : ∀ a b r s, P a → P b → f a ++ r = f b ++ s → a = b ∧ r = s) :
    ∀ l m : List α, (∀ a ∈ l, P a) → (∀ a ∈ m, P a) → l.flatMap f = m.flatMap f → l = m := by
  intro l
  induction l with
  | nil =>
    intro m _ _ h
    cases m with
    | nil => rfl
    | cons b m =>
      rw [List.flatMap_nil, List.flatMap_cons] at h
      exact absurd (List.append_eq_nil_iff.1 h.symm).1 (hne b)
  | cons a l ih =>
    intro m hl hm h
    cases m with
    | nil =>
      rw [List.flatMap_nil, List.flatMap_cons] at h
      exact absurd (List.append_eq_nil_iff.1 h).1 (hne a)
    | cons b m =>
      rw [List.flatMap_cons, List.flatMap_cons] at h
      obtain ⟨hab, hlm⟩ := hf a b _ _ (hl a (by simp)) (hm b (by simp)) h
      rw [hab, ih m (fun x hx => hl x (by simp [hx])) (fun x hx => hm x (by simp [hx])) hlm]

theorem utf8_inj {s t : UStr} (h : s.flatMap utf8Char = t.flatMap utf8Char) : s = t :=
  flatMap_inj (fun _ => True) utf8Char utf8Char_ne_nil (fun _ _ _ _ _ _ h => utf8Char_inj h) s t (by simp) (by simp) h

theorem backslashReplace_plain {s : UStr} (h : s.any isSurrogate = false) : backslashReplace s = s := by
  induction s with
  | nil => rfl
  | cons c s ih =>
    simp only [List.any_cons, Bool.or_eq_false_iff] at h
    unfold backslashReplace at ih ⊢
    rw [List.flatMap_cons, ih h.2, backslashChar, h.1]
    rfl

/-- C46: different path names whose bytes are valid UTF-8 have different keys. -/
theorem C46_partial (s t : UStr) (hs : s.any isSurrogate = false) (ht : t.any isSurrogate = false) (h : cacheKey s = cacheKey t) : s = t := by
  have := utf8_inj h
  rwa [backslashReplace_plain hs, backslashReplace_plain ht] at this

theorem baseDigit_inj16 : ∀ a < 16, ∀ b < 16, (baseDigit a).toNat = (baseDigit b).toNat → a = b := by decide

theorem backslashChar_inj {c d : Nat} {r s : UStr} (hc : c ≠ 92) (hd : d ≠ 92) (h : backslashChar c ++ r = backslashChar d ++ s) : c = d ∧ r = s := by
  unfold backslashChar at h
  by_cases h1 : isSurrogate c = true <;> by_cases h2 : isSurrogate d = true <;> simp only [h1, h2, if_true, Bool.false_eq_true, if_false] at h
  · simp only [hex4, List.map_cons, List.map_nil, List.cons_append, List.nil_append, List.cons.injEq, true_and] at h
    obtain ⟨e1, e2, e3, e4, e5⟩ := h
    have e1 := baseDigit_inj16 _ (by omega) _ (by omega) e1
    have e2 := baseDigit_inj16 _ (by omega) _ (by omega) e2
    have e3 := baseDigit_inj16 _ (by omega) _ (by omega) e3
    have e4 := baseDigit_inj16 _ (by omega) _ (by omega) e4
    simp only [isSurrogate, Bool.and_eq_true, decide_eq_true_eq] at h1 h2
    exact ⟨by omega, e5⟩
  · simp at h; exact absurd h.1.symm hd
  · simp at h; exact absurd h.1 hc
  · simpa using h

/-- C46: different path names without backslashes have different keys. -/
theorem C46_backslash_partial (s t : UStr) (hs : 92 ∉ s) (ht : 92 ∉ t) (h : cacheKey s = cacheKey t) : s = t := by
  have := utf8_inj h
  refine flatMap_inj (fun c => c ≠ 92) backslashChar ?_ (fun _ _ _ _ h1 h2 h => backslashChar_inj h1 h2 h) s t ?_ ?_ this
  · intro c; unfold backslashChar; split <;> simp
  · intro c hc e; exact hs (e ▸ hc)
  · intro c hc e; exact ht (e ▸ hc)

/-- C46 fails: a file name that is the byte 0xFF and one that consists of the six characters `\udcff` have the same key. -/
theorem C46_false : ¬ ∀ s t : UStr, cacheKey s = cacheKey t → s = t := by
  intro h
  exact absurd (h [0xDCFF] [92, 117, 100, 99, 102, 102] (by decide)) (by decide)

/-- The hypotheses of C46 hold for "é" and a character beyond the first plane, and for an undecodable name without a backslash. -/
example : [0xE9].any isSurrogate = false ∧ [0x1F600].any isSurrogate = false ∧ cacheKey [0x1F600] = [0xF0, 0x9F, 0x98, 0x80] ∧ 92 ∉ [0xDCFF, 97] := by decide

/-! ### C48 -/

theorem fsEncode_plain {s : UStr} (h : s.any isSurrogate = false) : cacheKey s = fsEncode s := by
  unfold cacheKey
  rw [backslashReplace_plain h]
  unfold fsEncode
  induction s with
  | nil => rfl
  | cons c s ih =>
    simp only [List.any_cons, Bool.or_eq_false_iff] at h
    rw [List.flatMap_cons, List.flatMap_cons, ih h.2, if_neg]
    have := h.1
    simp only [isSurrogate, Bool.and_eq_false_iff, decide_eq_false_iff_not] at this
    omega

theorem deletes_conn (ds : List (Str × Bytes)) : ∀ c : Conn, (ds.foldl Conn.delete c).file = c.file ∧ (ds.foldl Conn.delete c).work = ds.foldl deleteRow c.work ∧
    (ds.foldl Conn.delete c).inTransaction = (c.inTransaction || !ds.isEmpty) := by
  induction ds with
  | nil => intro c; simp
  | cons d ds ih =>
    intro c
    obtain ⟨h1, h2, h3⟩ := ih (c.delete d)
    simp only [List.foldl_cons]
    exact ⟨h1, h2, by rw [h3]; simp [Conn.delete]⟩

theorem cleanCache_eq (pathExists : Bytes → Bool) (db : Db) : cleanCache pathExists db = (db, (cleanDeletes pathExists db).isEmpty) := by
  obtain ⟨h1, h2, h3⟩ := deletes_conn (cleanDeletes pathExists db) ⟨db, db, false⟩
  unfold cleanCache
  simp only [Conn.vacuum, h3]
  cases h : cleanDeletes pathExists db with
  | nil => simp [Conn.commit]
  | cons x xs => rw [h] at h1; simpa using h1

/-- C48: cleaning never removes the entry of a file that exists. -/
theorem C48_keeps_partial (pathExists : Bytes → Bool) (db : Db) (name : Str) (rows : List Row) (h : (name, rows) ∈ db) (r : Row) (hr : r ∈ rows) :
    ∃ rows', (name, rows') ∈ (cleanCache pathExists db).1 ∧ r ∈ rows' := by
  rw [cleanCache_eq]
  exact ⟨rows, h, hr⟩

theorem cleanDeletes_nil {pathExists : Bytes → Bool} {db : Db} : cleanDeletes pathExists db = [] ↔ ∀ t ∈ db, ∀ r ∈ t.2, pathExists r.path = true := by
  unfold cleanDeletes
  rw [List.flatMap_eq_nil_iff]
  simp only [List.map_eq_nil_iff, List.filter_eq_nil_iff, Bool.not_eq_true', Bool.not_eq_false]

/-- C48 holds exactly if there is nothing to remove; that is also exactly when there is no error. -/
theorem C48_partial (pathExists : Bytes → Bool) (db : Db) :
    (Cleaned pathExists db (cleanCache pathExists db).1 ↔ ∀ t ∈ db, ∀ r ∈ t.2, pathExists r.path = true) ∧
    ((cleanCache pathExists db).2 = true ↔ ∀ t ∈ db, ∀ r ∈ t.2, pathExists r.path = true) := by
  constructor
  · rw [cleanCache_eq]
    constructor
    · rintro ⟨_, h⟩ ⟨name, rows⟩ ht r hr
      exact ((h name r).1 ⟨rows, ht, hr⟩).2
    · intro h
      refine ⟨rfl, fun name r => ⟨fun ⟨rows, h1, h2⟩ => ⟨⟨rows, h1, h2⟩, h _ h1 r h2⟩, fun h => h.1⟩⟩
  · rw [← cleanDeletes_nil, cleanCache_eq]
    simp

/-- C48 fails: the entry of a file that does not exist stays. -/
theorem C48_false : ¬ ∀ (pathExists : Bytes → Bool) (db : Db), Cleaned pathExists db (cleanCache pathExists db).1 := by
  intro h
  have := (C48_partial (fun _ => false) [("plugin_tar_0".toList, [⟨[47, 97], [], []⟩])]).1.1 (h _ _)
  simp at this

theorem deleteRow_names (db : Db) (d : Str × Bytes) : (deleteRow db d).map (·.1) = db.map (·.1) := by
  unfold deleteRow
  rw [List.map_map]
  apply List.map_congr_left
  intro t _
  simp only [Function.comp]
  split <;> rfl

theorem deletes_spec (ds : List (Str × Bytes)) : ∀ db : Db, ds.foldl deleteRow db =
    db.map (fun t => (t.1, t.2.filter (fun r => (t.1, r.path) ∉ ds))) := by
  induction ds with
  | nil =>
    intro db
    have e : (fun t : Str × List Row => (t.1, t.2.filter (fun r => (t.1, r.path) ∉ ([] : List (Str × Bytes))))) = id := by
      funext t
      rw [List.filter_eq_self.2 (by simp)]
      rfl
    rw [e, List.map_id, List.foldl_nil]
  | cons d ds ih =>
    intro db
    rw [List.foldl_cons, ih, deleteRow, List.map_map]
    apply List.map_congr_left
    rintro ⟨name, rows⟩ _
    simp only [Function.comp]
    by_cases hn : name = d.1
    · simp only [hn, if_true, Prod.mk.injEq, true_and]
      rw [List.filter_filter]
      apply List.filter_congr
      intro r _
      obtain ⟨dn, dp⟩ := d
      simp only at hn
      subst hn
      by_cases h : r.path = dp <;> simp [h]
    · simp only [hn, if_false, Prod.mk.injEq, true_and]
      apply List.filter_congr
      intro r _
      have : (name, r.path) ≠ d := by intro e; exact hn (by rw [← e])
      simp [this]

/-- C48: the statements up to the one that fails remove the right rows; what is missing is that they are committed. -/
theorem C48_uncommitted_partial (pathExists : Bytes → Bool) (db : Db) : Cleaned pathExists db (cleanWork pathExists db) := by
  unfold cleanWork
  rw [(deletes_conn _ _).2.1, deletes_spec]
  constructor
  · rw [List.map_map]; rfl
  · intro name r
    have hmem : ∀ rows, (name, rows) ∈ db → r ∈ rows → ((name, r.path) ∉ cleanDeletes pathExists db ↔ pathExists r.path = true) := by
      intro rows h1 h2
      unfold cleanDeletes
      constructor
      · intro h
        cases hp : pathExists r.path with
        | true => rfl
        | false =>
          refine absurd ?_ h
          rw [List.mem_flatMap]
          exact ⟨_, h1, List.mem_map.2 ⟨r, List.mem_filter.2 ⟨h2, by rw [hp]; rfl⟩, rfl⟩⟩
      · intro hp h
        obtain ⟨t, _, h⟩ := List.mem_flatMap.1 h
        obtain ⟨r', hr', e⟩ := List.mem_map.1 h
        have := (List.mem_filter.1 hr').2
        rw [(Prod.mk.inj e).2, hp] at this
        simp at this
    constructor
    · rintro ⟨rows, h1, h2⟩
      obtain ⟨⟨n, rows'⟩, h3, h4⟩ := List.mem_map.1 h1
      obtain ⟨rfl, rfl⟩ := Prod.mk.inj h4
      obtain ⟨h5, h6⟩ := List.mem_filter.1 h2
      exact ⟨⟨rows', h3, h5⟩, (hmem rows' h3 h5).1 (by simpa using h6)⟩
    · rintro ⟨⟨rows, h1, h2⟩, h3⟩
      exact ⟨_, List.mem_map.2 ⟨_, h1, rfl⟩, List.mem_filter.2 ⟨h2, by simpa using (hmem rows h1 h2).2 h3⟩⟩

/-- C48: the key of a file is its name in the file system if this is valid UTF-8. -/
theorem C48_name_partial (path : UStr) (h : path.any isSurrogate = false) (pathExists : Bytes → Bool) : pathExists (cacheKey path) = pathExists (fsEncode path) := by
  rw [fsEncode_plain h]

/-- Otherwise the entry of a file that exists is taken for stale. -/
theorem C48_name_false : ¬ ∀ (path : UStr) (pathExists : Bytes → Bool), pathExists (cacheKey path) = pathExists (fsEncode path) := by
  intro h
  exact absurd (h [47, 0xDCFF] (fun b => b == [47, 0xFF])) (by decide)

/-- The statements of cleaning remove one of two rows here. -/
example : cleanWork (fun p => p == [1]) [("plugin_tar_0".toList, [⟨[1], [], []⟩, ⟨[2], [], []⟩])] = [("plugin_tar_0".toList, [⟨[1], [], []⟩])] := by decide

/-! ### C47 -/

theorem isDigit_cases {c : Char} : decide ('0' ≤ c ∧ c ≤ '9') = isDigit c := by
  unfold isDigit
  simp

theorem rstripDigits_table (name : Str) (n : Nat) : rstripDigits (sqlTableName name n) = "plugin_".toList ++ name ++ ['_'] := by
  have key : ∀ (a : Str) (ds : Str), (∀ c ∈ ds, isDigit c = true) → ((a ++ '_' :: ds).reverse.dropWhile (fun c => '0' ≤ c ∧ c ≤ '9')).reverse = a ++ ['_'] := by
    intro a ds hds
    have h1 : (a ++ '_' :: ds).reverse = ds.reverse ++ '_' :: a.reverse := by simp
    rw [h1]
    have h2 : ∀ l : Str, (∀ c ∈ l, isDigit c = true) → (l ++ '_' :: a.reverse).dropWhile (fun c => '0' ≤ c ∧ c ≤ '9') = '_' :: a.reverse := by
      intro l
      induction l with
      | nil => intro _; rw [List.nil_append, List.dropWhile_cons_of_neg]; decide
      | cons c l ih =>
        intro hl
        rw [List.cons_append, List.dropWhile_cons_of_pos, ih (fun x hx => hl x (by simp [hx]))]
        simp only [isDigit_cases]
        exact hl c (by simp)
    rw [h2 _ (by simpa using hds)]
    simp
  exact key _ _ (natStr_digits n)

/-- A character of a pattern matches a character. -/
def LikeChar (p c : Char) : Prop := p = '_' ∨ asciiLower p = asciiLower c

theorem like_end (s : Str) : like ['%'] s = true := by
  induction s with
  | nil => simp [like]
  | cons c s ih => rw [like]; simp [ih]

theorem like_percent (ps : Str) (hp : '%' ∉ ps) : ∀ s : Str, like (ps ++ ['%']) s = true ↔ ∃ a b, s = a ++ b ∧ All2 LikeChar ps a := by
  induction ps with
  | nil => intro s; simp only [List.nil_append, like_end, true_iff]; exact ⟨[], s, rfl, .nil⟩
  | cons p ps ih =>
    intro s
    have hp' : p ≠ '%' := by intro e; exact hp (by simp [e])
    have hps : '%' ∉ ps := by intro e; exact hp (by simp [e])
    rw [List.cons_append]
    cases s with
    | nil =>
      rw [like]
      simp only [beq_iff_eq, hp', Bool.and_eq_true, false_and, false_iff]
      rintro ⟨a, b, h, h'⟩
      cases h'
      simp at h
    | cons c s =>
      rw [like, if_neg hp']
      constructor
      · intro h
        by_cases hu : p = '_'
        · rw [if_pos hu] at h
          obtain ⟨a, b, rfl, h2⟩ := (ih hps s).1 h
          exact ⟨c :: a, b, rfl, .cons (.inl hu) h2⟩
        · rw [if_neg hu, Bool.and_eq_true, beq_iff_eq] at h
          obtain ⟨a, b, rfl, h2⟩ := (ih hps s).1 h.2
          exact ⟨c :: a, b, rfl, .cons (.inr h.1) h2⟩
      · rintro ⟨a, b, h, h'⟩
        cases h' with
        | cons h1 h2 =>
          rename_i x xs
          rw [List.cons_append, List.cons.injEq] at h
          obtain ⟨rfl, h⟩ := h
          have h3 := (ih hps s).2 ⟨xs, b, h, h2⟩
          by_cases hu : p = '_'
          · rw [if_pos hu]; exact h3
          · rw [if_neg hu, Bool.and_eq_true, beq_iff_eq]
            exact ⟨h1.resolve_left hu, h3⟩

theorem all2_like_self (s : Str) : All2 LikeChar s s := by
  induction s with
  | nil => exact .nil
  | cons c s ih => exact .cons (.inr rfl) ih

/-- The name of a plugin, Python's `cls.__name__.lower()`; here without underscores, which are wildcards. -/
def PlainName (name : Str) : Prop := ∀ c ∈ name, c ≠ '%' ∧ c ≠ '_' ∧ asciiLower c = c

theorem all2_like_plain {ps : Str} (hp : PlainName ps) {a : Str} (hlow : ∀ c ∈ a, asciiLower c = c) (h : All2 LikeChar ps a) : ps = a := by
  induction h with
  | nil => rfl
  | @cons p c ps cs h1 _ ih =>
    have hpc := hp p (by simp)
    rcases h1 with h1 | h1
    · exact absurd h1 hpc.2.1
    · rw [hpc.2.2, hlow c (by simp)] at h1
      rw [h1, ih (fun x hx => hp x (by simp [hx])) (fun x hx => hlow x (by simp [hx]))]

theorem all2_append_left {α β : Type} {P : α → β → Prop} : ∀ {as as' : List α} {bs : List β}, All2 P (as ++ as') bs →
    ∃ b1 b2, bs = b1 ++ b2 ∧ All2 P as b1 ∧ All2 P as' b2 := by
  intro as
  induction as with
  | nil => intro as' bs h; exact ⟨[], bs, rfl, .nil, h⟩
  | cons a as ih =>
    intro as' bs h
    cases h with
    | @cons _ b _ bs h1 h2 =>
      obtain ⟨b1, b2, rfl, h3, h4⟩ := ih h2
      exact ⟨b :: b1, b2, rfl, .cons h1 h3, h4⟩

theorem all2_app {α β : Type} {P : α → β → Prop} {as as' : List α} {bs bs' : List β} (h : All2 P as bs) (h' : All2 P as' bs') : All2 P (as ++ as') (bs ++ bs') := by
  induction h with
  | nil => exact h'
  | cons h1 _ ih => exact .cons h1 ih

theorem all2_len {α β : Type} {P : α → β → Prop} {as : List α} {bs : List β} (h : All2 P as bs) : as.length = bs.length := by
  induction h with
  | nil => rfl
  | cons _ _ ih => simp [ih]

theorem natStr_plain (n : Nat) : PlainName (natStr n) := by
  intro c hc
  have h := natStr_digits n c hc
  refine ⟨?_, ?_, ?_⟩
  · rintro rfl; revert h; decide
  · rintro rfl; revert h; decide
  · unfold asciiLower
    rw [if_neg]
    simp only [isDigit, Bool.and_eq_true, decide_eq_true_eq] at h
    intro h'
    have h1 := Char.le_def.1 h.2
    have h2 := Char.le_def.1 h'.1
    have : (57 : UInt32) < 65 := by decide
    exact absurd (UInt32.le_trans h2 h1) (by decide)

theorem like_prefix (ps : Str) (hp : '%' ∉ ps) (rest : Str) : like (ps ++ ['%']) (ps ++ rest) = true :=
  (like_percent ps hp _).2 ⟨ps, rest, rfl, all2_like_self ps⟩

theorem like_prefix_any (ps : Str) (hp : '%' ∉ ps) (x : Char) (rest : Str) : like (ps ++ ['_'] ++ ['%']) (ps ++ x :: rest) = true :=
  (like_percent (ps ++ ['_']) (by simpa using hp) _).2 ⟨ps ++ [x], rest, by simp, all2_app (all2_like_self ps) (.cons (.inl rfl) .nil)⟩

theorem plugin_percent {name : Str} (h : '%' ∉ name) : '%' ∉ "plugin_".toList ++ name := by
  intro h'
  rcases List.mem_append.1 h' with h' | h'
  · revert h'; decide
  · exact h h'

/-- Tables of which plugins match the pattern. -/
theorem like_tables {name name' : Str} (hn : PlainName name) (hn' : PlainName name') (n n' : Nat) :
    like (rstripDigits (sqlTableName name n) ++ ['%']) (sqlTableName name' n') = true ↔ name <+: name' := by
  rw [rstripDigits_table]
  have hper := plugin_percent (fun h => (hn _ h).1 rfl)
  constructor
  · · intro h
      obtain ⟨a, b, h, h2⟩ := (like_percent _ (by simpa using hper) _).1 h
      rw [List.append_assoc] at h2
      obtain ⟨a1, a2, rfl, h3, h4⟩ := all2_append_left h2
      obtain ⟨a3, a4, rfl, h5, h6⟩ := all2_append_left h4
      unfold sqlTableName at h
      rw [List.append_assoc, List.append_assoc] at h
      obtain ⟨_, h⟩ := List.append_inj h (all2_len h3)
      have hlow : ∀ c ∈ name' ++ '_' :: natStr n', asciiLower c = c := by
        intro c hc
        rcases List.mem_append.1 hc with hc | hc
        · exact (hn' c hc).2.2
        · rcases List.mem_cons.1 hc with rfl | hc
          · decide
          · exact (natStr_plain n' c hc).2.2
      have e : name = a3 := all2_like_plain hn (fun c hc => hlow c (by rw [h]; simp [hc])) h5
      subst e
      rw [List.append_assoc] at h
      rcases List.append_eq_append_iff.1 h with ⟨c, h7, h8⟩ | ⟨c, h7, h8⟩
      · cases c with
        | nil => rw [List.append_nil] at h7; exact ⟨[], by rw [h7, List.append_nil]⟩
        | cons x xs =>
          rw [List.cons_append, List.cons.injEq] at h8
          exact absurd h8.1.symm (hn x (by rw [h7]; simp)).2.1
      · exact ⟨c, h7.symm⟩
  · rintro ⟨c, rfl⟩
    cases c with
    | nil =>
      have e : sqlTableName (name ++ []) n' = "plugin_".toList ++ name ++ '_' :: natStr n' := by unfold sqlTableName; rw [List.append_nil]
      rw [e]
      exact like_prefix_any _ hper _ _
    | cons x xs =>
      have e : sqlTableName (name ++ x :: xs) n' = "plugin_".toList ++ name ++ x :: (xs ++ '_' :: natStr n') := by
        unfold sqlTableName; rw [List.append_assoc, List.append_assoc, List.append_assoc]; rfl
      rw [e]
      exact like_prefix_any _ hper _ _

theorem sqlTableName_inj {name name' : Str} {n n' : Nat} (h : sqlTableName name n = sqlTableName name' n') : name = name' ∧ n = n' := by
  unfold sqlTableName at h
  rw [List.append_assoc, List.append_assoc] at h
  have h := List.append_cancel_left h
  have hno : ∀ n, '_' ∉ natStr n := fun n h => (natStr_plain n _ h).2.1 rfl
  rcases List.append_eq_append_iff.1 h with ⟨c, h1, h2⟩ | ⟨c, h1, h2⟩
  · cases c with
    | nil =>
      rw [List.nil_append, List.cons.injEq] at h2
      rw [List.append_nil] at h1
      exact ⟨h1.symm, natStr_injective h2.2⟩
    | cons x xs =>
      rw [List.cons_append, List.cons.injEq] at h2
      exact absurd (by rw [h2.2]; simp) (hno n)
  · cases c with
    | nil =>
      rw [List.nil_append, List.cons.injEq] at h2
      rw [List.append_nil] at h1
      exact ⟨h1, (natStr_injective h2.2).symm⟩
    | cons x xs =>
      rw [List.cons_append, List.cons.injEq] at h2
      exact absurd (by rw [h2.2]; simp) (hno n')

theorem like_skip (ps s : Str) (h : like ps s = true) : like ('%' :: ps) s = true := by
  cases s with
  | nil => rw [like]; simp [h]
  | cons c s => rw [like]; simp [h]

theorem like_refl (ps : Str) : ∀ rest : Str, like (ps ++ ['%']) (ps ++ rest) = true := by
  induction ps with
  | nil => intro rest; exact like_end rest
  | cons p ps ih =>
    intro rest
    rw [List.cons_append, List.cons_append, like]
    have h := ih rest
    by_cases hp : p = '%'
    · subst hp
      rw [if_pos rfl, like_skip _ _ h, Bool.or_true]
    · rw [if_neg hp]
      split
      · exact h
      · rw [h]; simp

theorem rstripDigits_append (s : Str) : ∃ rest, s = rstripDigits s ++ rest := by
  unfold rstripDigits
  refine ⟨(s.reverse.takeWhile (fun c => '0' ≤ c ∧ c ≤ '9')).reverse, ?_⟩
  rw [← List.reverse_append, List.takeWhile_append_dropWhile, List.reverse_reverse]

/-- A table matches its own pattern. -/
theorem like_table (table : Str) : like (rstripDigits table ++ ['%']) table = true := by
  obtain ⟨rest, h⟩ := rstripDigits_append table
  have := like_refl (rstripDigits table) rest
  rwa [← h] at this

theorem like_version (name : Str) (n n' : Nat) : like (rstripDigits (sqlTableName name n) ++ ['%']) (sqlTableName name n') = true := by
  have := like_table (sqlTableName name n')
  rw [rstripDigits_table] at this ⊢
  exact this

/-- The tables after `init_table`. -/
theorem initTable_mem (db : Db) (table : Str) (x : Str × List Row) :
    x ∈ initTable db table ↔ (x ∈ db ∧ ¬ (like (rstripDigits table ++ ['%']) x.1 = true ∧ x.1 ≠ table)) ∨ (x = (table, []) ∧ table ∉ db.map (·.1)) := by
  have hown := like_table table
  unfold initTable
  generalize like (rstripDigits table ++ ['%']) = f at hown ⊢
  have hmem : ∀ t, t ∈ (db.map (·.1)).filter f ↔ t ∈ db.map (·.1) ∧ f t = true := by
    intro t; rw [List.mem_filter]
  simp only
  rw [List.mem_filter]
  have hcond : (!(decide (x.1 ∈ (db.map (·.1)).filter f) && decide (x.1 ≠ table))) = true ↔
      ¬ ((x.1 ∈ db.map (·.1) ∧ f x.1 = true) ∧ x.1 ≠ table) := by
    rw [← hmem]
    simp only [Bool.not_eq_true', Bool.and_eq_false_iff, decide_eq_false_iff_not, Classical.not_and_iff_not_or_not]
  rw [hcond]
  by_cases ht : table ∈ db.map (·.1)
  · rw [if_pos ((hmem table).2 ⟨ht, hown⟩)]
    constructor
    · rintro ⟨h1, h2⟩
      exact .inl ⟨h1, fun h => h2 ⟨⟨List.mem_map_of_mem h1, h.1⟩, h.2⟩⟩
    · rintro (⟨h1, h2⟩ | ⟨_, h⟩)
      · exact ⟨h1, fun h => h2 ⟨h.1.2, h.2⟩⟩
      · exact absurd ht h
  · rw [if_neg (fun h => ht ((hmem table).1 h).1), List.mem_append, List.mem_singleton]
    constructor
    · rintro ⟨h1 | h1, h2⟩
      · exact .inl ⟨h1, fun h => h2 ⟨⟨List.mem_map_of_mem h1, h.1⟩, h.2⟩⟩
      · exact .inr ⟨h1, ht⟩
    · rintro (⟨h1, h2⟩ | ⟨h1, _⟩)
      · exact ⟨.inl h1, fun h => h2 ⟨h.1.2, h.2⟩⟩
      · refine ⟨.inr h1, ?_⟩
        rw [h1]; simp

/-- C47: setting up a plugin keeps the tables of all plugins whose names do not begin with its name; these keep their data. Tables that are not made by
ff are not considered. -/
theorem C47_partial {name name' : Str} (hn : PlainName name) (hn' : PlainName name') (hp : ¬ name <+: name') (n n' : Nat) (db : Db) (rows : List Row) :
    (sqlTableName name' n', rows) ∈ initTable db (sqlTableName name n) ↔ (sqlTableName name' n', rows) ∈ db := by
  have hne : sqlTableName name' n' ≠ sqlTableName name n := by
    intro e
    rw [(sqlTableName_inj e).1] at hp
    exact hp ⟨[], by simp⟩
  rw [initTable_mem]
  constructor
  · rintro (h | h)
    · exact h.1
    · exact absurd (congrArg Prod.fst h.1) hne
  · intro h
    exact .inl ⟨h, fun h' => hp ((like_tables hn hn' n n').1 h'.1)⟩

/-- C47: the tables of older versions of the plugin are dropped, its own table keeps its data, and is created if it is missing. -/
theorem C47_versions (name : Str) (n n' : Nat) (db : Db) (rows : List Row) :
    ((sqlTableName name n', rows) ∈ initTable db (sqlTableName name n) ↔
      n' = n ∧ ((sqlTableName name n, rows) ∈ db ∨ (rows = [] ∧ sqlTableName name n ∉ db.map (·.1)))) := by
  rw [initTable_mem]
  have hlike : like (rstripDigits (sqlTableName name n) ++ ['%']) (sqlTableName name n') = true := like_version name n n'
  constructor
  · rintro (⟨h1, h2⟩ | ⟨h1, h2⟩)
    · have e : sqlTableName name n' = sqlTableName name n := Classical.byContradiction (fun h => h2 ⟨hlike, h⟩)
      rw [e] at h1
      exact ⟨(sqlTableName_inj e).2, .inl h1⟩
    · obtain ⟨e, e'⟩ := Prod.mk.inj h1
      exact ⟨(sqlTableName_inj e).2, .inr ⟨e', h2⟩⟩
  · rintro ⟨rfl, h | ⟨rfl, h⟩⟩
    · exact .inl ⟨h, fun h' => h'.2 rfl⟩
    · exact .inr ⟨rfl, h⟩

/-- C47 fails for every plugin whose name begins with the name of the plugin that is set up: its tables are dropped. -/
theorem C47_false {name name' : Str} (hn : PlainName name) (hn' : PlainName name') (hp : name <+: name') (hne : name ≠ name') (n n' : Nat) (db : Db) (rows : List Row) :
    (sqlTableName name' n', rows) ∉ initTable db (sqlTableName name n) := by
  rw [initTable_mem]
  have hne : sqlTableName name' n' ≠ sqlTableName name n := fun e => hne (sqlTableName_inj e).1.symm
  rintro (h | h)
  · exact h.2 ⟨(like_tables hn hn' n n').2 hp, hne⟩
  · exact hne (congrArg Prod.fst h.1)

/-- If both plugins are used at once, the second one to be set up makes the first one fail: its table does not exist any more. -/
theorem C47_crash_false (path tag : Bytes) :
    (initTable (initTable [] (sqlTableName "target".toList 1)) (sqlTableName "tar".toList 1)).get (sqlTableName "target".toList 1) path tag = none := by
  have h := C47_false (name := "tar".toList) (name' := "target".toList) (by unfold PlainName; decide) (by unfold PlainName; decide) (by decide) (by decide) 1 1
    (initTable [] (sqlTableName "target".toList 1))
  unfold Db.get Db.table
  rw [List.find?_eq_none.2]
  · rfl
  · rintro ⟨t, rows⟩ hx hd
    have hd : t = sqlTableName "target".toList 1 := by simpa using hd
    rw [hd] at hx
    exact h rows hx

/-- The hypotheses of C47 hold for the plugins media and mime; those of C47_false for tar and target. -/
example : PlainName "media".toList ∧ PlainName "mime".toList ∧ ¬ "media".toList <+: "mime".toList ∧ "tar".toList <+: "target".toList := by
  refine ⟨?_, ?_, by decide, by decide⟩ <;> unfold PlainName <;> decide

/-! ### C45 -/

theorem Spec.LastWrite.append {path : Bytes} {a b : List Row} {x : Row} : LastWrite path (a ++ b) x ↔ LastWrite path b x ∨ (LastWrite path a x ∧ ∀ y ∈ b, y.path ≠ path) := by
  constructor
  · intro h
    generalize hc : a ++ b = c at h
    cases h with
    | @here before after _ h1 h2 =>
      rcases List.append_eq_append_iff.1 hc with ⟨l, h3, h4⟩ | ⟨l, h3, h4⟩
      · rw [h4]
        exact .inl (.here h1 h2)
      · cases l with
        | nil =>
          rw [List.nil_append] at h4
          rw [← h4]
          exact .inl (.here (before := []) h1 h2)
        | cons y ys =>
          rw [List.cons_append, List.cons.injEq] at h4
          rw [h3, ← h4.1]
          rw [h4.2] at h2
          exact .inr ⟨.here h1 (fun z hz => h2 z (by simp [hz])), fun z hz => h2 z (by simp [hz])⟩
  · rintro (h | ⟨h, h'⟩)
    · cases h with
      | @here before after _ h1 h2 => rw [← List.append_assoc]; exact .here h1 h2
    · cases h with
      | @here before after _ h1 h2 =>
        rw [List.append_assoc, List.cons_append]
        refine .here h1 (fun z hz => ?_)
        rcases List.mem_append.1 hz with hz | hz
        · exact h2 z hz
        · exact h' z hz

theorem Spec.LastWrite.single {path : Bytes} {r x : Row} : LastWrite path [r] x ↔ x = r ∧ r.path = path := by
  constructor
  · intro h
    generalize hc : [r] = c at h
    cases h with
    | @here before after _ h1 h2 =>
      cases before with
      | nil => simp at hc; rw [hc.1]; exact ⟨rfl, h1⟩
      | cons y ys => simp at hc
  · rintro ⟨rfl, h⟩
    exact .here (before := []) h (by simp)

theorem Spec.LastWrite.path_eq {path : Bytes} {a : List Row} {x : Row} (h : LastWrite path a x) : x.path = path ∧ x ∈ a := by
  cases h with
  | here h1 _ => exact ⟨h1, by simp⟩

theorem Spec.LastWrite.unique {path : Bytes} : ∀ {a : List Row} {x y : Row}, LastWrite path a x → LastWrite path a y → x = y := by
  intro a
  induction a with
  | nil => intro x y h _; have := h.path_eq.2; simp at this
  | cons r a ih =>
    intro x y hx hy
    rw [← List.singleton_append, LastWrite.append] at hx hy
    rcases hx with hx | ⟨hx, hx'⟩ <;> rcases hy with hy | ⟨hy, hy'⟩
    · exact ih hx hy
    · exact absurd hx.path_eq.1 (hy' x hx.path_eq.2)
    · exact absurd hy.path_eq.1 (hx' y hy.path_eq.2)
    · rw [(LastWrite.single.1 hx).1, (LastWrite.single.1 hy).1]

theorem Spec.LastWrite.exists {path : Bytes} : ∀ {a : List Row}, (∃ x ∈ a, x.path = path) → ∃ x, LastWrite path a x := by
  intro a
  induction a with
  | nil => rintro ⟨x, h, _⟩; simp at h
  | cons r a ih =>
    rintro ⟨x, hx, hp⟩
    by_cases h : ∃ y ∈ a, y.path = path
    · obtain ⟨y, hy⟩ := ih h
      exact ⟨y, by rw [← List.singleton_append, LastWrite.append]; exact .inl hy⟩
    · rcases List.mem_cons.1 hx with rfl | hx
      · exact ⟨x, .here (before := []) hp (fun z hz e => h ⟨z, hz, e⟩)⟩
      · exact absurd ⟨x, hx, hp⟩ h

/-- `path` is a primary key. -/
def Keyed (rows : List Row) : Prop := (rows.map (·.path)).Nodup

theorem Keyed.lastWrite {rows : List Row} (h : Keyed rows) (x : Row) : x ∈ rows ↔ LastWrite x.path rows x := by
  constructor
  · intro hx
    obtain ⟨a, b, rfl⟩ := List.append_of_mem hx
    refine .here rfl (fun y hy e => ?_)
    unfold Keyed at h
    rw [List.map_append, List.map_cons, List.nodup_append] at h
    have := (List.nodup_cons.1 h.2.1).1
    exact this (by rw [← e]; exact List.mem_map_of_mem hy)
  · intro h; exact h.path_eq.2

theorem mem_insertOrReplace {rows : List Row} {r x : Row} : x ∈ insertOrReplace rows r ↔ x = r ∨ (x ∈ rows ∧ x.path ≠ r.path) := by
  unfold insertOrReplace
  rw [List.mem_append, List.mem_filter, List.mem_singleton]
  simp [or_comm]

theorem Keyed.insert {rows : List Row} (h : Keyed rows) (r : Row) : Keyed (insertOrReplace rows r) := by
  unfold Keyed insertOrReplace
  rw [List.map_append, List.nodup_append]
  refine ⟨List.Nodup.sublist (List.filter_sublist.map _) h, by simp, ?_⟩
  intro a ha b hb
  obtain ⟨x, hx, rfl⟩ := List.mem_map.1 ha
  simp only [List.map_cons, List.map_nil, List.mem_singleton] at hb
  rw [hb]
  simpa using (List.mem_filter.1 hx).2

theorem Keyed.inserts {rows : List Row} (h : Keyed rows) (ws : List Row) : Keyed (ws.foldl insertOrReplace rows) := by
  induction ws generalizing rows with
  | nil => exact h
  | cons w ws ih => exact ih (h.insert w)

theorem mem_inserts {ws : List Row} : ∀ {rows : List Row}, Keyed rows → ∀ {x : Row}, x ∈ ws.foldl insertOrReplace rows ↔ LastWrite x.path (rows ++ ws) x := by
  induction ws with
  | nil => intro rows h x; rw [List.foldl_nil, List.append_nil]; exact h.lastWrite x
  | cons w ws ih =>
    intro rows h x
    rw [List.foldl_cons, ih (h.insert w), LastWrite.append, ← List.singleton_append (l := ws), ← List.append_assoc, LastWrite.append (b := ws)]
    have : LastWrite x.path (insertOrReplace rows w) x ↔ LastWrite x.path (rows ++ [w]) x := by
      rw [← (h.insert w).lastWrite, mem_insertOrReplace, LastWrite.append, LastWrite.single, ← h.lastWrite]
      constructor
      · rintro (rfl | ⟨h1, h2⟩)
        · exact .inl ⟨rfl, rfl⟩
        · exact .inr ⟨h1, by simpa using fun e => h2 e.symm⟩
      · rintro (⟨h1, _⟩ | ⟨h1, h2⟩)
        · exact .inl h1
        · exact .inr ⟨h1, fun e => h2 w (by simp) e.symm⟩
    rw [this]

theorem find_map_fst (f : Str × List Row → Str × List Row) (hf : ∀ t, (f t).1 = t.1) (name : Str) (db : Db) :
    (db.map f).find? (fun t => t.1 = name) = (db.find? (fun t => t.1 = name)).map f := by
  induction db with
  | nil => rfl
  | cons t db ih =>
    rw [List.map_cons, List.find?_cons, List.find?_cons, hf]
    split
    · rfl
    · exact ih

theorem insertMany_table {db db' : Db} {name : Str} {rows : List Row} (h : db.insertMany name rows = some db') (m : Str) :
    db'.table m = (db.table m).map (fun old => if m = name then rows.foldl insertOrReplace old else old) := by
  unfold Db.insertMany at h
  obtain ⟨_, _, rfl⟩ := Option.map_eq_some_iff.1 h
  unfold Db.table
  rw [find_map_fst]
  · cases hf : db.find? (fun t => t.1 = m) with
    | none => rfl
    | some t =>
      have : t.1 = m := by simpa using List.find?_some hf
      simp only [Option.map_some, this]
      split <;> rfl
  · intro t; split <;> rfl

/-- Transactions, one after the other. -/
def Db.insertAll (db : Db) : List (Str × List Row) → Option Db
  | [] => some db
  | t :: ts => (db.insertMany t.1 t.2).bind (fun db' => db'.insertAll ts)

/-- The rows that transactions write to a table. -/
def writes (name : Str) (txs : List (Str × List Row)) : List Row := (txs.filter (fun t => t.1 = name)).flatMap (·.2)

theorem insertAll_table {txs : List (Str × List Row)} : ∀ {db db' : Db}, db.insertAll txs = some db' → ∀ m,
    db'.table m = (db.table m).map (fun old => (writes m txs).foldl insertOrReplace old) := by
  induction txs with
  | nil =>
    intro db db' h m
    cases h
    cases h : Db.table db m <;> rfl
  | cons t txs ih =>
    intro db db' h m
    obtain ⟨db1, h1, h2⟩ := Option.bind_eq_some_iff.1 h
    rw [ih h2 m, insertMany_table h1 m]
    unfold writes
    cases db.table m with
    | none => rfl
    | some old =>
      simp only [Option.map_some, List.filter_cons]
      by_cases e : m = t.1
      · subst e; simp
      · rw [if_neg e, if_neg (by simpa using fun h => e h.symm)]

theorem get_iff {db : Db} {name : Str} {rows : List Row} (h : db.table name = some rows) (hk : Keyed rows) (path tag data : Bytes) :
    db.get name path tag = some (some data) ↔ ∃ r ∈ rows, r.path = path ∧ r.tag = tag ∧ r.data = data := by
  unfold Db.get
  rw [h, Option.map_some, Option.some.injEq, Option.map_eq_some_iff]
  constructor
  · rintro ⟨r, h1, h2⟩
    have h3 := List.find?_some h1
    simp only [decide_eq_true_eq] at h3
    exact ⟨r, List.mem_of_find?_eq_some h1, h3.1, h3.2, h2⟩
  · rintro ⟨r, h1, h2, h3, h4⟩
    cases hf : rows.find? (fun r => r.path = path ∧ r.tag = tag) with
    | none => exact absurd (List.find?_eq_none.1 hf r h1) (by simp [h2, h3])
    | some r' =>
      have h5 := List.find?_some hf
      simp only [decide_eq_true_eq] at h5
      have h6 := (hk.lastWrite r).1 h1
      have h7 := (hk.lastWrite r').1 (List.mem_of_find?_eq_some hf)
      rw [h2] at h6
      rw [h5.1] at h7
      exact ⟨r', rfl, by rw [LastWrite.unique h7 h6]; exact h4⟩

/-- C45: after any sequence of transactions a lookup is a hit iff the last row that was written for the table and the path has this tag; it returns the
data of this row. -/
theorem C45_latest {db db' : Db} {txs : List (Str × List Row)} (h : db.insertAll txs = some db') {name : Str} {rows : List Row}
    (ht : db.table name = some rows) (hk : Keyed rows) (path tag data : Bytes) :
    db'.get name path tag = some (some data) ↔ ∃ r, LastWrite path (rows ++ writes name txs) r ∧ r.tag = tag ∧ r.data = data := by
  have h1 := insertAll_table h name
  rw [ht, Option.map_some] at h1
  rw [get_iff h1 (hk.inserts _)]
  constructor
  · rintro ⟨r, h2, h3, h4⟩
    have := (mem_inserts hk).1 h2
    rw [h3] at this
    exact ⟨r, this, h4⟩
  · rintro ⟨r, h2, h4⟩
    refine ⟨r, (mem_inserts hk).2 ?_, h2.path_eq.1, h4⟩
    rw [h2.path_eq.1]
    exact h2

/-! #### Histories -/

variable {E T V D : Type}

/-- A row was stored for a table during a history: by a call of `get_data` for an entry, with the object that the plugin produced. -/
def Stored (abspath : E → UStr) (tags : Pickle T) (objs : Pickle (Obj V)) (es : List (Event E T V D)) (table : Str) (r : Row) : Prop :=
  ∃ p pl e timeUp d, Event.lookup p pl e timeUp (some d) ∈ es ∧ pl.asks e = true ∧ pl.table = table ∧ r = pl.row abspath tags objs e (pl.object e)

theorem Stored.mono {abspath : E → UStr} {tags : Pickle T} {objs : Pickle (Obj V)} {es : List (Event E T V D)} {table : Str} {r : Row} (x : Event E T V D)
    (h : Stored abspath tags objs es table r) : Stored abspath tags objs (es ++ [x]) table r := by
  obtain ⟨p, pl, e, t, d, h1, h2⟩ := h
  exact ⟨p, pl, e, t, d, by simp [h1], h2⟩

theorem getData_cases {pl : CPlugin E T V D} {objs : Pickle (Obj V)} {cached : Option Bytes} {e : E} {d : D} {o : Option (Obj V)}
    (h : pl.getData objs cached e = (d, o)) :
    (pl.asks e = true ∧ cached = none ∧ o = some (pl.object e) ∧ d = pl.finish e (pl.object e)) ∨
    (pl.asks e = true ∧ ∃ b, cached = some b ∧ o = none ∧ d = pl.finish e (objs.loads b)) ∨
    (pl.asks e = false ∧ o = none ∧ d = plainData pl e) := by
  unfold CPlugin.getData at h
  unfold CPlugin.asks plainData
  cases hc : pl.canHandle e <;> cases hu : pl.useCache <;> simp only [hc, hu, Bool.false_eq_true, if_true, if_false, Bool.and_true, Bool.and_false] at h ⊢
  · right; right; cases h; simp
  · right; right; cases h; simp
  · right; right; cases h; simp
  · cases cached with
    | none => left; cases h; simp
    | some b => right; left; cases h; simp

theorem plain_finish (pl : CPlugin E T V D) (e : E) (h : pl.asks e = true) : pl.finish e (pl.object e) = plainData pl e := by
  unfold CPlugin.asks at h
  simp only [Bool.and_eq_true] at h
  unfold plainData
  rw [h.1, h.2, if_neg (by simp), if_neg (by simp)]
  unfold CPlugin.object CPlugin.finish
  cases pl.cache e <;> rfl

theorem mem_addRow {rows : List (Str × List Row)} {name : Str} {r : Row} {t : Str × List Row} (h : t ∈ addRow rows name r) :
    ∀ x ∈ t.2, (∃ t' ∈ rows, t'.1 = t.1 ∧ x ∈ t'.2) ∨ (t.1 = name ∧ x = r) := by
  induction rows with
  | nil =>
    rw [addRow, List.mem_singleton] at h
    subst h
    intro x hx
    exact .inr ⟨rfl, by simpa using hx⟩
  | cons y ys ih =>
    obtain ⟨n, rs⟩ := y
    rw [addRow] at h
    split at h
    · rename_i hn
      rcases List.mem_cons.1 h with rfl | h
      · intro x hx
        rcases List.mem_append.1 hx with hx | hx
        · exact .inl ⟨(n, rs), by simp, rfl, hx⟩
        · exact .inr ⟨hn, by simpa using hx⟩
      · intro x hx
        exact .inl ⟨t, by simp [h], rfl, hx⟩
    · rcases List.mem_cons.1 h with rfl | h
      · intro x hx
        exact .inl ⟨(n, rs), by simp, rfl, hx⟩
      · intro x hx
        rcases ih h x hx with ⟨t', h1, h2⟩ | h1
        · exact .inl ⟨t', by simp [h1], h2⟩
        · exact .inr h1

theorem mem_inserts_weak {ws : List Row} : ∀ {rows : List Row} {x : Row}, x ∈ ws.foldl insertOrReplace rows → x ∈ rows ∨ x ∈ ws := by
  induction ws with
  | nil => intro rows x h; exact .inl h
  | cons w ws ih =>
    intro rows x h
    rcases ih h with h | h
    · rcases mem_insertOrReplace.1 h with rfl | h
      · exact .inr (by simp)
      · exact .inl h.1
    · exact .inr (by simp [h])

theorem initTable_sub {db : Db} {table : Str} {x : Str × List Row} (h : x ∈ initTable db table) : x ∈ db ∨ x = (table, []) := by
  rcases (initTable_mem db table x).1 h with h | h
  · exact .inl h.1
  · exact .inr h.1

/-- All rows, in the database and in the memories, satisfy a property of the table and the row. -/
def AllRows (P : Str → Row → Prop) (s : CacheSys) : Prop :=
  (∀ t ∈ s.db, ∀ r ∈ t.2, P t.1 r) ∧ ∀ p, (∀ t ∈ (s.mem p).rows, ∀ r ∈ t.2, P t.1 r) ∧ (∀ t ∈ (s.mem p).committing, ∀ r ∈ t.2, P t.1 r)

theorem AllRows.setMem {P : Str → Row → Prop} {s : CacheSys} (h : AllRows P s) (p : Nat) (m : CacheMem) (h1 : ∀ t ∈ m.rows, ∀ r ∈ t.2, P t.1 r)
    (h2 : ∀ t ∈ m.committing, ∀ r ∈ t.2, P t.1 r) : AllRows P (s.setMem p m) := by
  refine ⟨h.1, fun q => ?_⟩
  simp only [CacheSys.setMem]
  by_cases e : q = p
  · rw [if_pos e]; exact ⟨h1, h2⟩
  · rw [if_neg e]; exact h.2 q

theorem AllRows.insertMany {P : Str → Row → Prop} {db db' : Db} {name : Str} {rows : List Row} (h : ∀ t ∈ db, ∀ r ∈ t.2, P t.1 r) (hr : ∀ r ∈ rows, P name r)
    (e : db.insertMany name rows = some db') : ∀ t ∈ db', ∀ r ∈ t.2, P t.1 r := by
  unfold Db.insertMany at e
  obtain ⟨_, _, rfl⟩ := Option.map_eq_some_iff.1 e
  intro t ht r hx
  obtain ⟨t', ht', rfl⟩ := List.mem_map.1 ht
  split at hx
  · rename_i hn
    rw [if_pos hn]
    rcases mem_inserts_weak hx with hx | hx
    · exact h t' ht' r hx
    · rw [hn]; exact hr r hx
  · rename_i hn
    rw [if_neg hn]
    exact h t' ht' r hx

theorem run_stored {abspath : E → UStr} {tags : Pickle T} {objs : Pickle (Obj V)} {es : List (Event E T V D)} {s0 s : CacheSys}
    (h : CacheRun abspath tags objs s0 es s) (h0 : s0 = .init) : AllRows (Stored abspath tags objs es) s := by
  induction h with
  | nil => subst h0; refine ⟨by simp [CacheSys.init], fun p => ⟨by simp [CacheSys.init, CacheMem.init], by simp [CacheSys.init, CacheMem.init]⟩⟩
  | @snoc t u es x _ hs ih =>
    have ih' : AllRows (Stored abspath tags objs (es ++ [x])) t :=
      ⟨fun a ha r hr => (ih.1 a ha r hr).mono x, fun p => ⟨fun a ha r hr => ((ih.2 p).1 a ha r hr).mono x, fun a ha r hr => ((ih.2 p).2 a ha r hr).mono x⟩⟩
    cases hs with
    | register =>
      refine ⟨fun a ha r hr => ?_, ih'.2⟩
      rcases initTable_sub ha with ha | rfl
      · exact ih'.1 a ha r hr
      · simp at hr
    | noTable => exact ih'
    | lookup => exact ih'
    | @store p pl e timeUp cached d o hc hr hg =>
      have hrow : ∀ y ∈ addRow (t.mem p).rows pl.table (pl.row abspath tags objs e o), ∀ r ∈ y.2,
          Stored abspath tags objs (es ++ [Event.lookup p pl e timeUp (some d)]) y.1 r := by
        intro y hy r hr'
        rcases mem_addRow hy r hr' with ⟨t', h1, h2, h3⟩ | ⟨h1, h2⟩
        · rw [← h2]; exact (ih'.2 p).1 t' h1 r h3
        · rcases getData_cases hg with ⟨h3, _, h4, _⟩ | ⟨_, _, _, h4, _⟩ | ⟨_, h4, _⟩
          · cases h4
            exact ⟨p, pl, e, timeUp, d, by simp, h3, h1.symm, h2⟩
          · cases h4
          · cases h4
      apply ih'.setMem
      · unfold CacheMem.set
        simp only
        split <;> exact hrow
      · unfold CacheMem.set
        simp only
        split
        · exact hrow
        · simp
    | @flush p m db hf =>
      unfold CacheMem.flush at hf
      cases hc : (t.mem p).committing with
      | nil =>
        rw [hc] at hf
        cases hf
        exact AllRows.setMem (s := t) ih' p _ (ih'.2 p).1 (ih'.2 p).2
      | cons y ys =>
        obtain ⟨name, rows⟩ := y
        rw [hc] at hf
        obtain ⟨db', h1, h2⟩ := Option.map_eq_some_iff.1 hf
        cases h2
        have hcm := (ih'.2 p).2
        rw [hc] at hcm
        have hdb : ∀ t' ∈ db, ∀ r ∈ t'.2, Stored abspath tags objs (es ++ [Event.flush p]) t'.1 r :=
          AllRows.insertMany ih'.1 (fun r hr => hcm (name, rows) (by simp) r hr) h1
        apply AllRows.setMem (s := { t with db := db }) ⟨hdb, ih'.2⟩
        · split
          · simp [CacheMem.init]
          · exact (ih'.2 p).1
        · split
          · simp [CacheMem.init]
          · exact fun a ha => hcm a (by simp [ha])
    | @close p hc =>
      apply ih'.setMem
      · unfold CacheMem.close
        split
        · exact (ih'.2 p).1
        · exact (ih'.2 p).1
      · unfold CacheMem.close
        split
        · exact (ih'.2 p).1
        · exact (ih'.2 p).2
    | @crash p => exact ih'.setMem p _ (by simp [CacheMem.init]) (by simp [CacheMem.init])

theorem get_mem {db : Db} {name : Str} {path tag data : Bytes} (h : db.get name path tag = some (some data)) :
    ∃ t ∈ db, t.1 = name ∧ ∃ r ∈ t.2, r.path = path ∧ r.tag = tag ∧ r.data = data := by
  unfold Db.get Db.table at h
  obtain ⟨rows, h1, h2⟩ := Option.map_eq_some_iff.1 h
  obtain ⟨t, h3, rfl⟩ := Option.map_eq_some_iff.1 h1
  obtain ⟨r, h4, h5⟩ := Option.map_eq_some_iff.1 h2
  have h6 := List.find?_some h4
  simp only [decide_eq_true_eq] at h6
  exact ⟨t, List.mem_of_find?_eq_some h3, by simpa using List.find?_some h3, r, List.mem_of_find?_eq_some h4, h6.1, h6.2, h5⟩

theorem dumps_inj {α : Type} (p : Pickle α) {a b : α} (h : p.dumps a = p.dumps b) : a = b := by
  rw [← p.loads_dumps a, h, p.loads_dumps]

/-- C45: after any history of any number of processes with commits, crashes and restarts at any point, what is read from the cache is what was stored
earlier for the same table, key and tag. -/
theorem C45_hit {abspath : E → UStr} {tags : Pickle T} {objs : Pickle (Obj V)} {es : List (Event E T V D)} {s : CacheSys}
    (h : CacheRun abspath tags objs .init es s) {pl : CPlugin E T V D} {e : E} {b : Bytes} (hr : pl.read abspath tags s.db e = some (some b)) :
    ∃ p pl' e' timeUp d, Event.lookup p pl' e' timeUp (some d) ∈ es ∧ pl'.name = pl.name ∧ pl'.cacheTag = pl.cacheTag ∧
      cacheKey (abspath e') = cacheKey (abspath e) ∧ pl'.tag e' = pl.tag e ∧ objs.loads b = pl'.object e' := by
  unfold CPlugin.read at hr
  by_cases ha : pl.asks e = true
  · rw [if_pos ha] at hr
    obtain ⟨t, h1, h2, r, h3, h4, h5, h6⟩ := get_mem hr
    obtain ⟨p, pl', e', tu, d, h7, h8, h9, h10⟩ := (run_stored h rfl).1 t h1 r h3
    rw [h2] at h9
    obtain ⟨h11, h12⟩ := sqlTableName_inj h9
    rw [h10] at h4 h5 h6
    exact ⟨p, pl', e', tu, d, h7, h11, h12, h4, dumps_inj tags h5, by rw [← h6]; exact objs.loads_dumps _⟩
  · rw [if_neg ha] at hr
    cases hr

/-- The data of a plugin of one version only depends on path and tag. -/
def Determined (abspath : E → UStr) (es : List (Event E T V D)) : Prop :=
  ∀ p pl e t r p' pl' e' t' r', Event.lookup p pl e t r ∈ es → Event.lookup p' pl' e' t' r' ∈ es → pl.name = pl'.name → pl.cacheTag = pl'.cacheTag →
    abspath e = abspath e' → pl.tag e = pl'.tag e' → pl.object e = pl'.object e'

/-- C45: in any history every lookup that returns gives what it would give without a cache. It may fail, see `C47_crash_false`. What is missing: path
names that are not valid UTF-8, see `C45_false`. -/
theorem C45_partial {abspath : E → UStr} {tags : Pickle T} {objs : Pickle (Obj V)} {es : List (Event E T V D)} {s : CacheSys}
    (h : CacheRun abspath tags objs .init es s) (hd : Determined abspath es)
    (hu : ∀ p pl e t r, Event.lookup p pl e t r ∈ es → (abspath e).any isSurrogate = false) :
    ∀ p pl e t d, Event.lookup p pl e t (some d) ∈ es → d = plainData pl e := by
  generalize hs0 : CacheSys.init = s0 at h
  induction h with
  | nil => intro p pl e t d hm; simp at hm
  | @snoc t u es x hrun hs ih =>
    subst hs0
    have ih := ih (fun p pl e t r p' pl' e' t' r' h1 h2 => hd p pl e t r p' pl' e' t' r' (by simp [h1]) (by simp [h2]))
      (fun p pl e t r h1 => hu p pl e t r (by simp [h1]))
    intro p pl e tu d hm
    rcases List.mem_append.1 hm with hm | hm
    · exact ih p pl e tu d hm
    · rw [List.mem_singleton] at hm
      have final : ∀ cached o, pl.read abspath tags t.db e = some cached → pl.getData objs cached e = (d, o) → d = plainData pl e := by
        intro cached o hr hg
        rcases getData_cases hg with ⟨h1, _, _, h4⟩ | ⟨h1, b, h2, _, h4⟩ | ⟨_, _, h4⟩
        · rw [h4, plain_finish pl e h1]
        · subst h2
          obtain ⟨p', pl', e', tu', d', h5, h6, h7, h8, h9, h10⟩ := C45_hit hrun hr
          have h11 : Event.lookup p pl e tu (some d) ∈ es ++ [x] := by rw [hm]; simp
          have h12 : Event.lookup p' pl' e' tu' (some d') ∈ es ++ [x] := by simp [h5]
          have hpath := C46_partial _ _ (hu _ _ _ _ _ h12) (hu _ _ _ _ _ h11) h8
          rw [h4, h10, hd _ _ _ _ _ _ _ _ _ _ h12 h11 h6 h7 hpath h9, plain_finish pl e h1]
        · exact h4
      subst hm
      cases hs with
      | lookup _ hr hg => exact final _ _ hr hg
      | store _ hr hg => exact final _ _ hr hg

/-! #### Nothing is lost when a process ends in an orderly manner -/

/-- So many rounds of the loop of `commit`. -/
def flushes : Nat → CacheMem → Db → Option (CacheMem × Db)
  | 0, m, db => some (m, db)
  | n + 1, m, db => (m.flush db).bind (fun x => flushes n x.1 x.2)

theorem flushes_all : ∀ (l : List (Str × List Row)) (m m' : CacheMem) (db db' : Db), m.committing = l → l ≠ [] → flushes l.length m db = some (m', db') →
    m' = .init ∧ db.insertAll l = some db' := by
  intro l
  induction l with
  | nil => intro m m' db db' _ h; exact absurd rfl h
  | cons y ys ih =>
    intro m m' db db' hc _ h
    obtain ⟨name, rows⟩ := y
    rw [List.length_cons, flushes] at h
    obtain ⟨⟨m1, db1⟩, h1, h2⟩ := Option.bind_eq_some_iff.1 h
    unfold CacheMem.flush at h1
    rw [hc] at h1
    obtain ⟨db2, h3, h4⟩ := Option.map_eq_some_iff.1 h1
    obtain ⟨h5, h6⟩ := Prod.mk.inj h4
    subst h6
    cases ys with
    | nil =>
      simp only [List.isEmpty_nil, if_true] at h5
      simp only [List.length_nil, flushes, Option.some.injEq, Prod.mk.injEq] at h2
      obtain ⟨rfl, rfl⟩ := h2
      exact ⟨h5.symm, by simp [Db.insertAll, h3]⟩
    | cons z zs =>
      simp only [List.isEmpty_cons, Bool.false_eq_true, if_false] at h5
      obtain ⟨h7, h8⟩ := ih m1 m' db2 db' (by rw [← h5]) (by simp) h2
      exact ⟨h7, by rw [Db.insertAll, h3]; exact h8⟩

/-- The memory of a process: something is pending iff the number is positive, and each table occurs once. -/
def MemOk (m : CacheMem) : Prop := (m.num = 0 ↔ m.rows = []) ∧ (m.rows.map (·.1)).Nodup

theorem addRow_ne (rows : List (Str × List Row)) (name : Str) (r : Row) : addRow rows name r ≠ [] := by
  cases rows with
  | nil => simp [addRow]
  | cons y ys => obtain ⟨n, rs⟩ := y; rw [addRow]; split <;> simp

theorem addRow_names (rows : List (Str × List Row)) (name : Str) (r : Row) :
    (addRow rows name r).map (·.1) = if name ∈ rows.map (·.1) then rows.map (·.1) else rows.map (·.1) ++ [name] := by
  induction rows with
  | nil => simp [addRow]
  | cons y ys ih =>
    obtain ⟨n, rs⟩ := y
    rw [addRow]
    by_cases h : n = name
    · simp [h]
    · have h' : name ≠ n := fun e => h e.symm
      rw [if_neg h, List.map_cons, ih]
      simp only [List.map_cons, List.mem_cons, h', false_or]
      split <;> simp

theorem run_memOk {abspath : E → UStr} {tags : Pickle T} {objs : Pickle (Obj V)} {es : List (Event E T V D)} {s : CacheSys}
    (h : CacheRun abspath tags objs .init es s) : ∀ p, MemOk (s.mem p) := by
  generalize hs0 : CacheSys.init = s0 at h
  have hinit : MemOk .init := ⟨by simp [CacheMem.init], by simp [CacheMem.init]⟩
  induction h with
  | nil => subst hs0; intro p; exact hinit
  | @snoc t u es x hrun hs ih =>
    have set : ∀ (db : Db) (p : Nat) (m : CacheMem), MemOk m → ∀ q, MemOk (({ t with db := db }.setMem p m).mem q) := by
      intro db p m hm q
      simp only [CacheSys.setMem]
      split
      · exact hm
      · exact ih q
    cases hs with
    | register => exact ih
    | noTable => exact ih
    | lookup => exact ih
    | @store p pl e timeUp cached d o hc hr hg =>
      refine set t.db p _ ?_
      have : ((addRow (t.mem p).rows pl.table (pl.row abspath tags objs e o)).map (·.1)).Nodup := by
        rw [addRow_names]
        split
        · exact (ih p).2
        · rename_i hno
          rw [List.nodup_append]
          refine ⟨(ih p).2, by simp, ?_⟩
          intro a ha b hb e
          rw [List.mem_singleton] at hb
          rw [e, hb] at ha
          exact hno ha
      unfold CacheMem.set
      simp only
      split
      · exact ⟨⟨fun h => by simp at h, fun h => absurd h (addRow_ne _ _ _)⟩, this⟩
      · exact ⟨⟨fun h => by simp at h, fun h => absurd h (addRow_ne _ _ _)⟩, this⟩
    | @flush p m db hf =>
      refine set db p m ?_
      unfold CacheMem.flush at hf
      cases hc : (t.mem p).committing with
      | nil => rw [hc] at hf; cases hf; exact ih p
      | cons y ys =>
        rw [hc] at hf
        obtain ⟨db', h1, h2⟩ := Option.map_eq_some_iff.1 hf
        cases h2
        split
        · exact hinit
        · exact ih p
    | @close p hc =>
      refine set t.db p _ ?_
      unfold CacheMem.close
      split
      · exact ih p
      · exact ih p
    | @crash p => exact set t.db p _ hinit

/-- All tables are keyed by the path. -/
theorem run_keyed {abspath : E → UStr} {tags : Pickle T} {objs : Pickle (Obj V)} {es : List (Event E T V D)} {s : CacheSys}
    (h : CacheRun abspath tags objs .init es s) : ∀ t ∈ s.db, Keyed t.2 := by
  generalize hs0 : CacheSys.init = s0 at h
  induction h with
  | nil => subst hs0; intro t ht; simp [CacheSys.init] at ht
  | @snoc t u es x hrun hs ih =>
    cases hs with
    | register =>
      intro y hy
      rcases initTable_sub hy with hy | rfl
      · exact ih y hy
      · exact List.nodup_nil
    | noTable => exact ih
    | lookup => exact ih
    | store => exact ih
    | @flush p m db hf =>
      unfold CacheMem.flush at hf
      cases hc : (t.mem p).committing with
      | nil => rw [hc] at hf; cases hf; exact ih
      | cons y ys =>
        obtain ⟨name, rows⟩ := y
        rw [hc] at hf
        obtain ⟨db', h1, h2⟩ := Option.map_eq_some_iff.1 hf
        cases h2
        unfold Db.insertMany at h1
        obtain ⟨_, _, rfl⟩ := Option.map_eq_some_iff.1 h1
        intro z hz
        obtain ⟨w, hw, rfl⟩ := List.mem_map.1 hz
        split
        · exact (ih w hw).inserts _
        · exact ih w hw
    | close => exact ih
    | crash => exact ih

theorem writes_nodup {txs : List (Str × List Row)} (h : (txs.map (·.1)).Nodup) {name : Str} {rows : List Row} (hm : (name, rows) ∈ txs) : writes name txs = rows := by
  induction txs with
  | nil => simp at hm
  | cons t ts ih =>
    rw [List.map_cons, List.nodup_cons] at h
    unfold writes at ih ⊢
    rcases List.mem_cons.1 hm with rfl | hm
    · have : ts.filter (fun t => t.1 = name) = [] := by
        rw [List.filter_eq_nil_iff]
        intro x hx
        simp only [decide_eq_true_eq]
        intro e
        exact h.1 (List.mem_map.2 ⟨x, hx, e⟩)
      rw [List.filter_cons, if_pos (by simp), this]
      simp
    · have hne : t.1 ≠ name := by
        intro e
        exact h.1 (by rw [e]; exact List.mem_map.2 ⟨_, hm, rfl⟩)
      rw [List.filter_cons, if_neg (by simpa using hne)]
      exact ih h.2 hm

/-- C45: when a process ends in an orderly manner after any history, and its commit comes to its end, all that it had stored is in the database: for every
path the row that it stored last. -/
theorem C45_saved {abspath : E → UStr} {tags : Pickle T} {objs : Pickle (Obj V)} {es : List (Event E T V D)} {s : CacheSys}
    (h : CacheRun abspath tags objs .init es s) (p : Nat) (m' : CacheMem) (db' : Db)
    (hf : flushes (s.mem p).rows.length (s.mem p).close s.db = some (m', db')) {name : Str} {rows : List Row} (hm : (name, rows) ∈ (s.mem p).rows)
    {r : Row} (hr : r ∈ rows) :
    m' = .init ∧ ∃ r', LastWrite r.path rows r' ∧ db'.get name r'.path r'.tag = some (some r'.data) := by
  obtain ⟨ok1, ok2⟩ := run_memOk h p
  have hne : (s.mem p).rows ≠ [] := by intro e; rw [e] at hm; simp at hm
  have hnum : (s.mem p).num > 0 := Nat.pos_of_ne_zero (fun e => hne (ok1.1 e))
  have hclose : (s.mem p).close.committing = (s.mem p).rows := by unfold CacheMem.close; rw [if_pos hnum]
  obtain ⟨h1, h2⟩ := flushes_all _ _ _ _ _ hclose hne hf
  obtain ⟨r', hr'⟩ := Spec.LastWrite.exists (path := r.path) ⟨r, hr, rfl⟩
  refine ⟨h1, r', hr', ?_⟩
  have htab : ∃ old, s.db.table name = some old := by
    have key : ∀ (l : List (Str × List Row)) (db : Db), db.insertAll l = some db' → ∀ t ∈ l, ∃ old, db.table t.1 = some old := by
      intro l
      induction l with
      | nil => intro db _ t ht; simp at ht
      | cons y ys ih =>
        intro db hall t ht
        obtain ⟨db1, h3, h4⟩ := Option.bind_eq_some_iff.1 hall
        rcases List.mem_cons.1 ht with rfl | ht
        · unfold Db.insertMany at h3
          obtain ⟨old, h5, _⟩ := Option.map_eq_some_iff.1 h3
          exact ⟨old, h5⟩
        · obtain ⟨old, h5⟩ := ih db1 h4 t ht
          rw [insertMany_table h3] at h5
          obtain ⟨old', h6, _⟩ := Option.map_eq_some_iff.1 h5
          exact ⟨old', h6⟩
    exact key _ _ h2 _ hm
  obtain ⟨old, hold⟩ := htab
  have hk : Keyed old := by
    unfold Db.table at hold
    obtain ⟨t, h3, rfl⟩ := Option.map_eq_some_iff.1 hold
    exact run_keyed h t (List.mem_of_find?_eq_some h3)
  rw [C45_latest h2 hold hk]
  refine ⟨r', ?_, rfl, rfl⟩
  rw [writes_nodup ok2 hm, hr'.path_eq.1]
  exact Spec.LastWrite.append.2 (.inl hr')

/-- C45: what a process stores is pending until it is committed, along with all that was pending before. -/
theorem C45_pending (m : CacheMem) (timeUp : Bool) (name : Str) (r : Row) :
    (∃ rows, (name, rows) ∈ (m.set timeUp name r).rows ∧ r ∈ rows) ∧
    (∀ n rows x, (n, rows) ∈ m.rows → x ∈ rows → ∃ rows', (n, rows') ∈ (m.set timeUp name r).rows ∧ x ∈ rows') ∧
    ((m.set timeUp name r).committing = [] ∨ (m.set timeUp name r).committing = (m.set timeUp name r).rows) := by
  have hr : (m.set timeUp name r).rows = addRow m.rows name r := by unfold CacheMem.set; simp only; split <;> rfl
  refine ⟨?_, ?_, ?_⟩
  · rw [hr]
    generalize m.rows = l
    induction l with
    | nil => exact ⟨[r], by simp [addRow], by simp⟩
    | cons y ys ih =>
      obtain ⟨n, rs⟩ := y
      rw [addRow]
      split
      · rename_i h; exact ⟨rs ++ [r], by simp [h], by simp⟩
      · obtain ⟨rows, h1, h2⟩ := ih; exact ⟨rows, by simp [h1], h2⟩
  · rw [hr]
    generalize m.rows = l
    intro n rows x
    induction l with
    | nil => intro h; simp at h
    | cons y ys ih =>
      obtain ⟨n', rs⟩ := y
      intro h hx
      rw [addRow]
      split
      · rcases List.mem_cons.1 h with h | h
        · cases h; exact ⟨rows ++ [r], by simp, by simp [hx]⟩
        · exact ⟨rows, by simp [h], hx⟩
      · rcases List.mem_cons.1 h with h | h
        · cases h; exact ⟨rows, by simp, hx⟩
        · obtain ⟨rows', h1, h2⟩ := ih h hx; exact ⟨rows', by simp [h1], h2⟩
  · unfold CacheMem.set; simp only; split
    · exact .inr rfl
    · exact .inl rfl

/-- The hypotheses of C45_latest and C45_saved hold for two rows with the same path: the second one is found afterwards. -/
example : (flushes 1 (((CacheMem.init.set false ['t'] ⟨[1], [7], [10]⟩).set false ['t'] ⟨[1], [8], [11]⟩).close) [(['t'], [⟨[1], [6], [9]⟩])]).map (·.2) =
      some [(['t'], [⟨[1], [8], [11]⟩])] ∧
    Db.get [(['t'], [⟨[1], [8], [11]⟩])] ['t'] [1] [8] = some (some [11]) ∧ Db.get [(['t'], [⟨[1], [8], [11]⟩])] ['t'] [1] [7] = some none := by decide

/-! #### Instances -/

def unitPickle : Pickle Unit := ⟨fun _ => [], fun _ => (), fun _ => rfl⟩

def objPickle : Pickle (Obj UStr) :=
  { dumps := fun o => match o with
      | .nodata => [0]
      | .val v => 1 :: v
    loads := fun b => match b with
      | 1 :: v => .val v
      | _ => .nodata
    loads_dumps := by intro o; cases o <;> rfl }

/-- A plugin whose data is the name of the file. -/
def demoPlugin : CPlugin UStr Unit UStr UStr :=
  { name := "tar".toList, cacheTag := 0, useCache := true, canHandle := fun _ => true, tag := fun _ => (), cache := some, process := fun _ v => v.getD [], empty := [] }

/-- A history: a plugin is set up, its data for a file is stored and committed, and then asked for again for a path with the same key. -/
theorem demoCache_run (a b : UStr) (h : cacheKey a = cacheKey b) : ∃ s, CacheRun id unitPickle objPickle .init
    [Event.register 0 demoPlugin, .lookup 0 demoPlugin a true (some a), .flush 0, .lookup 0 demoPlugin b false (some a)] s := by
  have h1 : CacheRun id unitPickle objPickle .init [Event.register 0 demoPlugin] ⟨[(demoPlugin.table, [])], fun _ => .init⟩ :=
    .snoc (es := []) .nil .register
  have h2 : CacheRun id unitPickle objPickle .init [Event.register 0 demoPlugin, .lookup 0 demoPlugin a true (some a)]
      (CacheSys.setMem ⟨[(demoPlugin.table, [])], fun _ => .init⟩ 0 ⟨[(demoPlugin.table, [⟨cacheKey a, [], 1 :: a⟩])], 1, [(demoPlugin.table, [⟨cacheKey a, [], 1 :: a⟩])]⟩) :=
    .snoc (es := [Event.register 0 demoPlugin]) h1 (.store (cached := none) (o := .val a) rfl
      (by simp [CPlugin.read, CPlugin.asks, demoPlugin, Db.get, Db.table]) rfl)
  have h3 : CacheRun id unitPickle objPickle .init [Event.register 0 demoPlugin, .lookup 0 demoPlugin a true (some a), .flush 0]
      (CacheSys.setMem ⟨[(demoPlugin.table, [⟨cacheKey a, [], 1 :: a⟩])], (CacheSys.setMem ⟨[(demoPlugin.table, [])], fun _ => .init⟩ 0
        ⟨[(demoPlugin.table, [⟨cacheKey a, [], 1 :: a⟩])], 1, [(demoPlugin.table, [⟨cacheKey a, [], 1 :: a⟩])]⟩).mem⟩ 0 .init) :=
    .snoc (es := [Event.register 0 demoPlugin, .lookup 0 demoPlugin a true (some a)]) h2 (.flush (by
      simp [CacheMem.flush, CacheSys.setMem, Db.insertMany, Db.table, insertOrReplace]))
  exact ⟨_, .snoc (es := [Event.register 0 demoPlugin, .lookup 0 demoPlugin a true (some a), .flush 0]) h3
    (.lookup (cached := some (1 :: a)) (by simp [CacheSys.setMem, CacheMem.init])
      (by simp [CPlugin.read, CPlugin.asks, demoPlugin, Db.get, Db.table, CacheSys.setMem, h, unitPickle]) rfl)⟩

/-- C45 fails for two files whose keys are equal, see `C46_false`: the second one gets the data of the first one. -/
theorem C45_false : ¬ ∀ (es : List (Event UStr Unit UStr UStr)) (s : CacheSys), CacheRun id unitPickle objPickle .init es s → Determined id es →
    ∀ p pl e t d, Event.lookup p pl e t (some d) ∈ es → d = plainData pl e := by
  intro h
  obtain ⟨s, hs⟩ := demoCache_run [0xDCFF] [92, 117, 100, 99, 102, 102] (by decide)
  have := h _ s hs (by
    intro p pl e t r p' pl' e' t' r' h1 h2 _ _ h3 _
    simp only [List.mem_cons, List.not_mem_nil, reduceCtorEq, Event.lookup.injEq, false_or, or_false] at h1 h2
    rcases h1 with ⟨_, rfl, rfl, _⟩ | ⟨_, rfl, rfl, _⟩ <;> rcases h2 with ⟨_, rfl, rfl, _⟩ | ⟨_, rfl, rfl, _⟩ <;> first | rfl | exact absurd h3 (by decide))
    0 demoPlugin [92, 117, 100, 99, 102, 102] false [0xDCFF] (by simp)
  exact absurd this (by decide)

/-- The hypotheses of C45 hold for a history with a hit. -/
example : ∃ (es : List (Event UStr Unit UStr UStr)) (s : CacheSys), CacheRun id unitPickle objPickle .init es s ∧ Determined id es ∧
    (∀ p pl e t r, Event.lookup p pl e t r ∈ es → (id e : UStr).any isSurrogate = false) ∧ Event.lookup 0 demoPlugin [97] false (some [97]) ∈ es := by
  obtain ⟨s, hs⟩ := demoCache_run [97] [97] rfl
  refine ⟨_, s, hs, ?_, ?_, by simp⟩
  · intro p pl e t r p' pl' e' t' r' h1 h2 _ _ _ _
    simp only [List.mem_cons, List.not_mem_nil, reduceCtorEq, Event.lookup.injEq, false_or, or_false] at h1 h2
    rcases h1 with ⟨_, rfl, rfl, _⟩ | ⟨_, rfl, rfl, _⟩ <;> rcases h2 with ⟨_, rfl, rfl, _⟩ | ⟨_, rfl, rfl, _⟩ <;> rfl
  · intro p pl e t r h1
    simp only [List.mem_cons, List.not_mem_nil, reduceCtorEq, Event.lookup.injEq, false_or, or_false] at h1
    rcases h1 with ⟨_, _, rfl, _⟩ | ⟨_, _, rfl, _⟩ <;> decide

end FF
