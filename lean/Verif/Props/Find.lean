import Verif.Model.Find
import Verif.Spec.Find
import Verif.Lemmas.Count
/-! C78, C79: the Python interface. -/
namespace FF
open Spec

theorem shlexSpace_iff (c : Char) : shlexSpace c = true ↔ c ∈ blanks := by
  simp [shlexSpace, blanks, or_assoc]

/-! ### Words -/

theorem loop_inQuotes {s v : Str} (h : InQuotes s v) (tok : Str) (q : Bool) (rest : Str) :
    shlexLoop (.quote '"') tok q (s ++ '"' :: rest) = shlexLoop .word (tok ++ v) true rest := by
  induction h generalizing tok q with
  | nil => simp [shlexLoop]
  | char h1 h2 _ ih =>
    rw [List.cons_append, shlexLoop, if_neg h1, if_neg (by simp [h2]), ih]; simp
  | @escaped c s v h _ ih =>
    rw [List.cons_append, List.cons_append, shlexLoop, if_neg (by decide), if_pos (by simp), shlexLoop, if_neg (by rcases h with rfl | rfl <;> simp), ih]; simp
  | @backslash c s v h1 h2 _ ih =>
    rw [List.cons_append, List.cons_append, shlexLoop, if_neg (by decide), if_pos (by simp), shlexLoop, if_pos ⟨h2, h1⟩, ih]; simp

theorem loop_single {s : Str} (h : '\'' ∉ s) (tok : Str) (q : Bool) (rest : Str) :
    shlexLoop (.quote '\'') tok q (s ++ '\'' :: rest) = shlexLoop .word (tok ++ s) true rest := by
  induction s generalizing tok q with
  | nil => simp [shlexLoop]
  | cons c s ih =>
    have hc : c ≠ '\'' := by rintro rfl; simp at h
    rw [List.cons_append, shlexLoop, if_neg hc, if_neg (by simp), ih (fun x => h (by simp [x]))]; simp

/-- There are quotes in the piece. -/
theorem loop_piece {s v : Str} (h : Piece s v) : ∃ qs : Bool, (v ≠ [] ∨ qs = true) ∧ ∀ (tok : Str) (q : Bool) (rest : Str),
    shlexLoop .word tok q (s ++ rest) = shlexLoop .word (tok ++ v) (q || qs) rest := by
  cases h with
  | @plain c h1 h2 h3 h4 =>
    refine ⟨false, .inl (by simp), fun tok q rest => ?_⟩
    have : shlexSpace c = false := by simpa using fun e => h1 ((shlexSpace_iff c).1 e)
    simp [shlexLoop, this, h2, h3, h4]
  | escaped =>
    refine ⟨false, .inl (by simp), fun tok q rest => ?_⟩
    have : shlexSpace '\\' = false := by decide
    simp [shlexLoop, this]
  | single hs =>
    refine ⟨true, .inr rfl, fun tok q rest => ?_⟩
    have : shlexSpace '\'' = false := by decide
    rw [List.append_assoc, List.cons_append, List.singleton_append, shlexLoop]
    simp [this, loop_single hs]
  | double hs =>
    refine ⟨true, .inr rfl, fun tok q rest => ?_⟩
    have : shlexSpace '"' = false := by decide
    rw [List.append_assoc, List.cons_append, List.singleton_append, shlexLoop]
    simp [this, loop_inQuotes hs]

theorem loop_shellWord {s v : Str} (h : ShellWord s v) : ∃ qs : Bool, (v ≠ [] ∨ qs = true) ∧ ∀ (tok : Str) (q : Bool) (rest : Str),
    shlexLoop .word tok q (s ++ rest) = shlexLoop .word (tok ++ v) (q || qs) rest := by
  induction h with
  | piece h => exact loop_piece h
  | cons h1 _ ih =>
    obtain ⟨a, ha, h1⟩ := loop_piece h1
    obtain ⟨b, hb, h2⟩ := ih
    refine ⟨a || b, ?_, fun tok q rest => ?_⟩
    · rcases ha with ha | ha
      · exact .inl (by simp [ha])
      · exact .inr (by simp [ha])
    · rw [List.append_assoc, h1, h2]; simp [Bool.or_assoc]

/-- Before a word the state does not matter. -/
theorem loop_space (s : Str) : shlexLoop .space [] false s = shlexLoop .word [] false s := by
  cases s with
  | nil => rfl
  | cons c s =>
    rw [shlexLoop, shlexLoop]
    by_cases h : shlexSpace c = true
    · simp [h]
    · by_cases h2 : c = '\\'
      · subst h2; simp [h]
      · simp [h, h2]

theorem loop_shellWords {s : Str} {vs : List Str} (h : ShellWords s vs) : shlexLoop .space [] false s = some vs := by
  induction h with
  | nil => rfl
  | blank hc _ ih => rw [shlexLoop, if_pos ((shlexSpace_iff _).2 hc), if_neg (by simp), ih]
  | @last w v hw =>
    obtain ⟨qs, hq, h⟩ := loop_shellWord hw
    have := h [] false []
    rw [List.append_nil] at this
    rw [loop_space, this]
    simp [shlexLoop]
    rcases hq with hq | hq
    · intro e; exact absurd e hq
    · intro _; exact hq
  | @word w v c s vs hw hc _ ih =>
    obtain ⟨qs, hq, h⟩ := loop_shellWord hw
    rw [loop_space, h, shlexLoop, if_pos ((shlexSpace_iff _).2 hc), ih, if_pos (by simpa using hq)]
    simp

theorem quote_split {q : Char} (hq : q = '\'') {tok : Str} {b : Bool} {s : Str} {ws : List Str} (h : shlexLoop (.quote q) tok b s = some ws) :
    ∃ body rest, s = body ++ '\'' :: rest ∧ '\'' ∉ body ∧ shlexLoop .word (tok ++ body) true rest = some ws := by
  subst hq
  induction s generalizing tok b with
  | nil => simp [shlexLoop] at h
  | cons c s ih =>
    rw [shlexLoop] at h
    by_cases hc : c = '\''
    · subst hc
      exact ⟨[], s, rfl, by simp, by simpa using h⟩
    · rw [if_neg hc, if_neg (by simp)] at h
      obtain ⟨body, rest, rfl, h1, h2⟩ := ih h
      exact ⟨c :: body, rest, rfl, by simp [h1, Ne.symm hc], by simpa using h2⟩

theorem dquote_split (n : Nat) {tok : Str} {b : Bool} {s : Str} (hn : s.length ≤ n) {ws : List Str} (h : shlexLoop (.quote '"') tok b s = some ws) :
    ∃ body v rest, s = body ++ '"' :: rest ∧ InQuotes body v ∧ shlexLoop .word (tok ++ v) true rest = some ws := by
  induction n generalizing tok b s with
  | zero =>
    have : s = [] := by simpa using hn
    subst this
    simp [shlexLoop] at h
  | succ n ih =>
    cases s with
    | nil => simp [shlexLoop] at h
    | cons c s =>
      rw [shlexLoop] at h
      by_cases hc : c = '"'
      · subst hc
        exact ⟨[], [], s, rfl, .nil, by simpa using h⟩
      · rw [if_neg hc] at h
        by_cases hb : c = '\\'
        · subst hb
          rw [if_pos (by simp)] at h
          cases s with
          | nil => simp [shlexLoop] at h
          | cons d s =>
            rw [shlexLoop] at h
            obtain ⟨body, v, rest, rfl, h1, h2⟩ := ih (by simp at hn ⊢; omega) h
            by_cases hd : d ≠ '\\' ∧ d ≠ '"'
            · rw [if_pos hd] at h2
              exact ⟨'\\' :: d :: body, '\\' :: d :: v, rest, rfl, .backslash hd.2 hd.1 h1, by simpa using h2⟩
            · rw [if_neg hd] at h2
              exact ⟨'\\' :: d :: body, d :: v, rest, rfl, .escaped (by by_cases e : d = '"' <;> simp_all) h1, by simpa using h2⟩
        · rw [if_neg (by simp [hb])] at h
          obtain ⟨body, v, rest, rfl, h1, h2⟩ := ih (by simpa using hn) h
          exact ⟨c :: body, c :: v, rest, rfl, .char hc hb h1, by simpa using h2⟩

/-- Zero or more pieces. -/
def WordPieces (s v : Str) : Prop := (s = [] ∧ v = []) ∨ ShellWord s v

theorem WordPieces.cons {s v t w : Str} (h1 : Piece s v) (h2 : WordPieces t w) : WordPieces (s ++ t) (v ++ w) := by
  rcases h2 with ⟨rfl, rfl⟩ | h2
  · simpa using .inr (.piece h1)
  · exact .inr (.cons h1 h2)

/-- What is left of the text in the middle of a word. -/
def WordsFrom (tok : Str) (b : Bool) (s : Str) (ws : List Str) : Prop :=
  ∃ w v rest vs, s = w ++ rest ∧ WordPieces w v ∧ ((rest = [] ∧ vs = []) ∨ ∃ c r, rest = c :: r ∧ c ∈ blanks ∧ ShellWords r vs) ∧
    ws = if tok ++ v ≠ [] ∨ b = true ∨ w ≠ [] then (tok ++ v) :: vs else vs

theorem WordsFrom.words {s : Str} {ws : List Str} (h : WordsFrom [] false s ws) : ShellWords s ws := by
  obtain ⟨w, v, rest, vs, rfl, hp, hr, rfl⟩ := h
  rcases hp with ⟨rfl, rfl⟩ | hp
  · rcases hr with ⟨rfl, rfl⟩ | ⟨c, r, rfl, hc, hr⟩
    · exact .nil
    · simpa using ShellWords.blank hc hr
  · have hw : w ≠ [] := by
      have : ∀ {s v}, Piece s v → s ≠ [] := by intro s v h; cases h <;> simp
      cases hp with
      | piece h => exact this h
      | cons h _ => simp [this h]
    rw [if_pos (.inr (.inr hw)), List.nil_append]
    rcases hr with ⟨rfl, rfl⟩ | ⟨c, r, rfl, hc, hr⟩
    · simpa using ShellWords.last hp
    · exact .word hp hc hr

theorem WordsFrom.piece {tok : Str} {b b' : Bool} {p v s : Str} {ws : List Str} (hp : Piece p v) (hv : v ≠ [] ∨ b' = true)
    (h : WordsFrom (tok ++ v) b' s ws) : WordsFrom tok b (p ++ s) ws := by
  obtain ⟨w, v', rest, vs, rfl, hp', hr, rfl⟩ := h
  refine ⟨p ++ w, v ++ v', rest, vs, by simp, .cons hp hp', hr, ?_⟩
  have hne : p ≠ [] := by cases hp <;> simp
  rw [if_pos, if_pos]
  · simp
  · exact .inr (.inr (by simp [hne]))
  · rcases hv with hv | hv
    · exact .inl (by simp [hv])
    · exact .inr (.inl hv)

theorem word_split (n : Nat) : ∀ {tok : Str} {b : Bool} {s : Str} {ws : List Str}, s.length ≤ n → shlexLoop .word tok b s = some ws → WordsFrom tok b s ws := by
  induction n with
  | zero =>
    intro tok b s ws hn h
    have : s = [] := by simpa using hn
    subst this
    rw [shlexLoop] at h
    refine ⟨[], [], [], [], rfl, .inl ⟨rfl, rfl⟩, .inl ⟨rfl, rfl⟩, ?_⟩
    rw [Option.some.injEq] at h
    rw [← h]; simp
  | succ n ih =>
    intro tok b s ws hn h
    cases s with
    | nil =>
      rw [shlexLoop] at h
      refine ⟨[], [], [], [], rfl, .inl ⟨rfl, rfl⟩, .inl ⟨rfl, rfl⟩, ?_⟩
      rw [Option.some.injEq] at h
      rw [← h]; simp
    | cons c s =>
      have hs : s.length ≤ n := by simpa using hn
      rw [shlexLoop] at h
      by_cases hc : shlexSpace c = true
      · rw [if_pos hc] at h
        have hc' := (shlexSpace_iff c).1 hc
        by_cases ht : tok ≠ [] ∨ b = true
        · rw [if_pos ht, loop_space] at h
          obtain ⟨vs, hv, rfl⟩ := Option.map_eq_some_iff.1 h
          refine ⟨[], [], c :: s, vs, rfl, .inl ⟨rfl, rfl⟩, .inr ⟨c, s, rfl, hc', (ih hs hv).words⟩, ?_⟩
          rw [if_pos (by simpa using ht)]; simp
        · rw [if_neg ht] at h
          have ht' : tok = [] ∧ b = false := by
            constructor
            · exact Classical.byContradiction (fun e => ht (.inl e))
            · simpa using fun e => ht (.inr e)
          obtain ⟨rfl, rfl⟩ := ht'
          rw [loop_space] at h
          exact ⟨[], [], c :: s, ws, rfl, .inl ⟨rfl, rfl⟩, .inr ⟨c, s, rfl, hc', (ih hs h).words⟩, by simp⟩
      · rw [if_neg hc] at h
        have hc' : c ∉ blanks := fun e => hc ((shlexSpace_iff c).2 e)
        by_cases h1 : c = '\''
        · subst h1
          rw [if_pos (by simp)] at h
          obtain ⟨body, rest, rfl, h2, h3⟩ := quote_split rfl h
          have := WordsFrom.piece (.single h2) (.inr rfl) (b := b) (ih (by simp at hs; omega) h3)
          simpa using this
        · by_cases h1' : c = '"'
          · subst h1'
            rw [if_pos (by simp)] at h
            obtain ⟨body, v, rest, rfl, h2, h3⟩ := dquote_split _ (Nat.le_refl _) h
            have := WordsFrom.piece (.double h2) (.inr rfl) (b := b) (ih (by simp at hs; omega) h3)
            simpa using this
          · rw [if_neg (by simp [h1, h1'])] at h
            by_cases h2 : c = '\\'
            · subst h2
              rw [if_pos rfl] at h
              cases s with
              | nil => simp [shlexLoop] at h
              | cons d s =>
                rw [shlexLoop] at h
                have := WordsFrom.piece (.escaped (c := d)) (.inl (by simp)) (b := b) (ih (by simp at hs; omega) h)
                simpa using this
            · rw [if_neg h2] at h
              have := WordsFrom.piece (.plain hc' h1 h1' h2) (.inl (by simp)) (b := b) (ih hs h)
              simpa using this

/-- C79: the tests in a query given as a text are its words, as in the shell; texts that are no words, for instance without closing quotes, are refused. -/
theorem C79_words (s : Str) (ws : List Str) : (Query.text s).tests = some ws ↔ ShellWords s ws := by
  constructor
  · intro h
    have h' : shlexLoop .space [] false s = some ws := h
    rw [loop_space] at h'
    exact (word_split _ (Nat.le_refl _) h').words
  · exact loop_shellWords

/-- C79: hence a text cannot be read in two ways. -/
theorem C79_unique {s : Str} {vs ws : List Str} (h1 : ShellWords s vs) (h2 : ShellWords s ws) : vs = ws := by
  rw [← C79_words] at h1 h2
  rw [h1] at h2
  exact Option.some.inj h2

example : (Query.text "type=f name~'a b' \\( size+1M or path=\"\\\"x\" \\)".toList).tests =
    some ["type=f".toList, "name~a b".toList, "(".toList, "size+1M".toList, "or".toList, "path=\"x".toList, ")".toList] := by decide

theorem quoted_pieces (w : Str) : ∀ {pre : Str}, '\'' ∉ pre →
    ShellWord ('\'' :: pre ++ w.flatMap (fun c => if c = '\'' then "'\"'\"'".toList else [c]) ++ ['\'']) (pre ++ w) := by
  induction w with
  | nil => intro pre h; simpa using ShellWord.piece (.single h)
  | cons c w ih =>
    intro pre h
    by_cases hc : c = '\''
    · subst hc
      have h1 : InQuotes ['\''] ['\''] := .char (by decide) (by decide) .nil
      have h2 := ShellWord.cons (.double h1) (ih (pre := []) (by simp))
      have h3 := ShellWord.cons (.single h) h2
      simpa using h3
    · have := ih (pre := pre ++ [c]) (by simp [h, Ne.symm hc])
      simpa [hc] using this

theorem quote_word (w : Str) : ShellWord (shlexQuote w) w := by
  unfold shlexQuote
  have pl : ∀ c, shlexSafe c = true → Piece [c] [c] := by
    intro c hc
    refine .plain ?_ ?_ ?_ ?_
    · intro h
      simp only [blanks, List.mem_cons, List.not_mem_nil, or_false] at h
      rcases h with rfl | rfl | rfl | rfl <;> revert hc <;> decide
    all_goals rintro rfl; revert hc; decide
  by_cases h0 : w = []
  · subst h0
    rw [if_pos rfl]
    exact .piece (.single (s := []) (by simp))
  · rw [if_neg h0]
    by_cases hs : w.all shlexSafe = true
    · rw [if_pos hs]
      rw [List.all_eq_true] at hs
      induction w with
      | nil => exact absurd rfl h0
      | cons c w ih =>
        by_cases hw : w = []
        · subst hw; exact .piece (pl c (hs c (by simp)))
        · exact .cons (pl c (hs c (by simp))) (ih hw (fun x hx => hs x (by simp [hx])))
    · rw [if_neg hs]
      simpa using quoted_pieces w (pre := []) (by simp)

/-- C79: quoted words are read as they are: a text made of the words of a list with `shlex.quote` gives the same query as the list. -/
theorem C79_quoted (ws : List Str) : (Query.text (joinWith ' ' (ws.map shlexQuote))).tests = (Query.words ws).tests := by
  rw [show (Query.words ws).tests = some ws from rfl, C79_words]
  induction ws with
  | nil => exact .nil
  | cons w ws ih =>
    cases ws with
    | nil => exact .last (quote_word w)
    | cons x ws =>
      have : joinWith ' ' ((w :: x :: ws).map shlexQuote) = shlexQuote w ++ ' ' :: joinWith ' ' ((x :: ws).map shlexQuote) := rfl
      rw [this]
      exact .word (quote_word w) (by decide) ih

/-! ### Records -/

/-- field.py:38: dots become underscores. -/
def underscored (name : Str) : Str := name.map (fun c => if c = '.' then '_' else c)

theorem lookup_map_nodup {α κ ν : Type} [BEq κ] [LawfulBEq κ] (k : α → κ) (v : α → ν) {l : List α} (hn : (l.map k).Nodup) {x : α} (hx : x ∈ l) :
    (l.map (fun x => (k x, v x))).lookup (k x) = some (v x) := by
  induction l with
  | nil => simp at hx
  | cons y l ih =>
    rw [List.map_cons, List.nodup_cons] at hn
    rw [List.map_cons, List.lookup_cons]
    rcases List.mem_cons.1 hx with rfl | hx
    · simp
    · have : k x ≠ k y := fun e => hn.1 (e ▸ List.mem_map_of_mem hx)
      have h : (k x == k y) = false := by simpa using this
      rw [h]
      exact ih hn.2 hx

theorem nodup_of_map {α β : Type} (f : α → β) {l : List α} (h : (l.map f).Nodup) : l.Nodup := by
  induction l with
  | nil => exact List.nodup_nil
  | cons x l ih =>
    rw [List.map_cons, List.nodup_cons] at h
    exact List.nodup_cons.2 ⟨fun hx => h.1 (List.mem_map_of_mem hx), ih h.2⟩

theorem attrNames_eq {fields : List Str} (h : (fields.map underscored).Nodup) : attrNames fields = fields.map (fun f => (underscored f, f)) := by
  have := foldl_dictSet underscored id fields [] (by simpa using h)
  rw [List.nil_append] at this
  exact this

theorem toDict_eq (R : RenderEnv) (i : EntInfo) {fields : List Field} (h : (fields.map Field.label).Nodup) :
    R.toDict fields i = fields.map (fun f => (f.label, R.recordValue i f)) := by
  have := foldl_dictSet Field.label (R.recordValue i) fields [] (by simpa using h)
  rw [List.nil_append] at this
  exact this

/-- C78, what is true: for every requested attribute the record of an entry has the value under the name of the attribute and, with an underscore for the dot,
as an attribute of the object. Missing: names that differ only in dots and underscores, and names of methods of dictionaries. -/
theorem C78_access_partial (R : RenderEnv) (i : EntInfo) {fields : List Field} (h : (fields.map (fun f => underscored f.label)).Nodup)
    {builtin : Str → Bool} {f : Field} (hf : f ∈ fields) (hb : builtin (underscored f.label) = false) :
    (R.toDict fields i).lookup f.label = some (R.recordValue i f) ∧
    recordAccess builtin (fields.map Field.label) (R.toDict fields i) (underscored f.label) = .value (R.recordValue i f) := by
  have h' : ((fields.map Field.label).map underscored).Nodup := by rw [List.map_map]; exact h
  have h2 := nodup_of_map underscored h'
  have e1 : (R.toDict fields i).lookup f.label = some (R.recordValue i f) := by rw [toDict_eq R i h2]; exact lookup_map_nodup Field.label (R.recordValue i) h2 hf
  refine ⟨e1, ?_⟩
  unfold recordAccess
  rw [hb, if_neg (by simp), attrNames_eq h', lookup_map_nodup underscored (fun f => f) h' (List.mem_map_of_mem hf)]
  simp only [e1]

example : (recordAccess (fun _ => false) ["size".toList, "git.repo_dir".toList] [("size".toList, 3), ("git.repo_dir".toList, 4)] "git_repo_dir".toList) = .value 4 := by decide

/-- C78: a name that was not asked for is an error. -/
theorem C78_other {α : Type} {builtin : Str → Bool} {fields : List Str} (h : (fields.map underscored).Nodup) (record : List (Str × α)) {name : Str}
    (hb : builtin name = false) (hn : name ∉ fields.map underscored) : recordAccess builtin fields record name = .keyError := by
  unfold recordAccess
  have : (attrNames fields).lookup name = none := by
    rw [attrNames_eq h, List.lookup_eq_none_iff]
    intro p hp
    obtain ⟨f, hf, rfl⟩ := List.mem_map.1 hp
    have : name ≠ underscored f := fun e => hn (e ▸ List.mem_map_of_mem hf)
    simpa using this
  rw [hb, if_neg (by simp), this]

/-- C78 fails for attributes that differ only in dots and underscores: attribute access gives the value of the wrong one. -/
theorem C78_false : recordAccess (fun _ => false) ["a.b_c".toList, "a_b.c".toList] [("a.b_c".toList, 1), ("a_b.c".toList, 2)] (underscored "a.b_c".toList) = .value 2 := by decide

end FF
