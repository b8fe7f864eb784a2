import Verif.Spec.Examples
import Verif.Props.PathGlob
import Verif.Props.Status
/-! C123: the examples of the documentation find what they are said to find. -/
namespace FF
open Spec

theorem attrName_literal {cc : CharClass} {s : Str} (h : s ≠ [] ∧ ∀ c ∈ s, c.isAlphanum = true) : AttrName cc s :=
  .inl ⟨h.1, fun x hx => cc.word_alnum _ (h.2 x hx)⟩

theorem plain_alnum {cc : CharClass} {c : Char} {s : Str} (h : c.isAlphanum = true) (hn : '\n' ∉ c :: s) (hc : c ≠ '{') :
    PlainValue cc (c :: s) ∧ ¬LooksLikeReference cc (c :: s) := by
  refine ⟨⟨⟨c, s, rfl, cc.word_not_space _ (cc.word_alnum _ h)⟩, hn⟩, ?_⟩
  rintro ⟨r, rest, _, _, e⟩
  injection e with e _
  exact hc e

/-- The test that a word stands for. -/
theorem parse_op {S : SearchEnv} {name op denoted text : Str} {a : Attr} {ty : Ty} {t : Test} (sp sp' : Str) (hb : Blank S.cc sp) (hb' : Blank S.cc sp')
    (hn : AttrName S.cc name) (ha : setupAttribute S.reg name = some a)
    (hty : attributeType S.reg a = some ty) (hop : (op, denoted) ∈ operators) (hp : PlainValue S.cc text ∧ ¬LooksLikeReference S.cc text) (heq : text.head? ≠ some '=')
    (ht : createTest S.tests S.case ty denoted none text = .ok t) : S.parseTest (name ++ sp ++ op ++ sp' ++ text) = .ok (a, t) := by
  have e := C05_roundtrip_partial (cc := S.cc) [] name sp op denoted sp' text (by intro x hx; cases hx) hn hb hop hb' hp.1 (fun _ _ => heq)
    (fun _ r rest h1 h2 h3 => hp.2 ⟨r, rest, h1, h2, h3⟩)
  rw [List.nil_append] at e
  unfold SearchEnv.parseTest
  simp only [e, ha, hty, Option.map_none, ht]

/-- The truth of a word. -/
theorem holds_op {S : SearchEnv} {w : Str} {a : Attr} {ty : Ty} {t : Test} (hty : attributeType S.reg a = some ty) (h : S.parseTest w = .ok (a, t)) (i : EntInfo) :
    holds S i w = true ↔ ∃ v, S.attr i a = some v ∧ ty.test S.tests.low t ⟨i.entry.name, i.isDir⟩ v = true := by
  rw [holds_iff]
  constructor
  · rintro ⟨t', h', ho⟩
    rw [h] at h'; cases h'
    unfold SearchEnv.outcome at ho
    cases hv : S.attr i a with
    | none => simp [hv] at ho
    | some v => simp only [hv, hty, Option.some.injEq] at ho; exact ⟨v, rfl, ho⟩
  · rintro ⟨v, hv, ho⟩
    refine ⟨_, h, ?_⟩
    unfold SearchEnv.outcome
    simp only [hv, hty, ho]

/-- A search with this expression finds what the formula is true for. -/
theorem kept_formula {S : SearchEnv} {ws : List Str} {f : Formula} (hd : Derives .disj ws f) (hw : ∀ w ∈ f.atoms, ∃ t, S.parseTest w = .ok t) (i : EntInfo) :
    S.kept ws i = true ↔ f.eval (holds S i) = true := by
  rw [kept_iff (.inr ⟨f, hd, hw⟩)]
  constructor
  · rintro (h | ⟨g, hg, h⟩)
    · exact absurd h (derives_ne_nil hd)
    · rw [C01_unambiguous _ _ _ hd hg]; exact h
  · intro h; exact .inr ⟨f, hd, h⟩

instance (w : Str) : Decidable (Word w) := by unfold Word Open Close Kw; infer_instance

/-- A comparison of numbers. -/
theorem holds_number {S : SearchEnv} {name op denoted text : Str} {a : Attr} {ty : Ty} (hnum : ty.numeric = true) (w sp sp' : Str)
    (hw : w = name ++ sp ++ op ++ sp' ++ text) (hb : Blank S.cc sp) (hb' : Blank S.cc sp')
    (hn : AttrName S.cc name) (ha : setupAttribute S.reg name = some a) (hty : attributeType S.reg a = some ty) (hop : (op, denoted) ∈ operators)
    (hden : denoted ∈ [['='], ['+'], ['-'], ['+', '='], ['-', '=']])
    (hp : PlainValue S.cc text ∧ ¬LooksLikeReference S.cc text) (heq : text.head? ≠ some '=') {b : Int} (hs : ty.input S.tests text = some (.int b)) :
    (∃ t, S.parseTest w = .ok t) ∧ ∀ i, holds S i w = true ↔ ∃ n, S.attr i a = some (.int n) ∧ cmp denoted n b := by
  subst hw
  obtain ⟨t, ht, hc⟩ := C19_order S.tests S.case hnum hs hden
  have hparse := parse_op sp sp' hb hb' hn ha hty hop hp heq ht
  refine ⟨⟨_, hparse⟩, fun i => ?_⟩
  rw [holds_op hty hparse]
  constructor
  · rintro ⟨v, hv, h⟩
    cases v with
    | int n => exact ⟨n, hv, (hc _ n).1 h⟩
    | str s => cases ty <;> first | (cases hnum; done) | (simp [Ty.test] at h)
    | strs s => cases ty <;> first | (cases hnum; done) | (simp [Ty.test] at h)
    | bool s => cases ty <;> first | (cases hnum; done) | (simp [Ty.test] at h)
  · rintro ⟨n, hv, h⟩
    exact ⟨_, hv, (hc _ n).2 h⟩

theorem blank_nil (cc : CharClass) : Blank cc [] := by intro x hx; cases hx

section
variable {S : SearchEnv} {st : EntInfo → Status}

theorem Spec.Everyday.typeWord (E : Everyday S st) :
    (∃ t, S.parseTest "type=f".toList = .ok t) ∧ ∀ i, holds S i "type=f".toList = true ↔ RegularFile (st i) := by
  obtain ⟨ha, hty⟩ := E.known "type".toList .fileType (by decide)
  have ht : createTest S.tests S.case .fileType ['='] none "f".toList = .ok ⟨['='], .fileType, .val (.str "f".toList), none⟩ := by
    unfold createTest
    rw [if_neg (by decide)]
    simp only [testInput, Ty.input]
    rw [if_neg (by rintro ⟨_, h⟩; exact h "f".toList (by decide) rfl), if_neg (by decide)]
  have hp := parse_op (S := S) [] [] (blank_nil _) (blank_nil _) (attrName_literal (s := "type".toList) (by decide)) ha hty (op := ['=']) (by decide)
    (plain_alnum (c := 'f') (s := []) (by decide) (by decide) (by decide)) (by decide) ht
  have hp' : S.parseTest "type=f".toList = .ok _ := hp
  refine ⟨⟨_, hp'⟩, fun i => ?_⟩
  rw [holds_op hty hp']
  obtain ⟨rest, hstat⟩ := E.stat
  have hv : S.attr i ("file".toList, "type".toList) = some (.str (st i).type) := by
    simp [SearchEnv.attr, SearchEnv.fileAttr, hstat, statAttr]
  rw [hv]
  have hreg := (C71_type (st i)).1 (8, "file".toList, '-') (by decide)
  simp only [Option.some.injEq, exists_eq_left']
  unfold RegularFile
  rw [← hreg]
  simp only [Ty.test, fileTypeTest, E.low]
  have e : ("f".toList).map Char.toLower = "f".toList := by decide
  rw [e]
  simp

/-- C123 "Find only regular files": `ff type=f` -/
theorem C123_files (E : Everyday S st) (i : EntInfo) : S.kept ["type=f".toList] i = true ↔ RegularFile (st i) := by
  rw [kept_formula (f := .atom "type=f".toList) (.single (.item (.prim (.atom (by decide +kernel))))) (by
    intro w hw; simp only [Formula.atoms, List.mem_singleton] at hw; subst hw; exact E.typeWord.1)]
  exact E.typeWord.2 i

/-- `type=f` and another test. -/
theorem Spec.Everyday.files_and (E : Everyday S st) {w : Str} (hw : Word w) (hp : ∃ t, S.parseTest w = .ok t) (i : EntInfo) :
    S.kept ["type=f".toList, w] i = true ↔ RegularFile (st i) ∧ holds S i w = true := by
  rw [kept_formula (ws := ["type=f".toList, w]) (f := .conj (.atom "type=f".toList) (.atom w))
    (.single (.conj (ts := ["type=f".toList]) (us := [w]) (.item (.prim (.atom (by decide +kernel)))) (.item (.prim (.atom hw))))) (by
      intro x hx
      simp only [Formula.atoms, List.mem_append, List.mem_singleton] at hx
      rcases hx with rfl | rfl
      · exact E.typeWord.1
      · exact hp)]
  simp only [Formula.eval, Bool.and_eq_true, E.typeWord.2]

/-- C123 "Find all files that were changed within the last one and a half hours": `ff type=f time+=1h30m` -/
theorem C123_recent {z : Zone} {now : Int} (E : Everyday S st) (hnow : S.tests.times = localTimes z now) (i : EntInfo) :
    S.kept ["type=f".toList, "time+=1h30m".toList] i = true ↔ RegularFile (st i) ∧ now - (st i).mtime ≤ 90 * 60 := by
  obtain ⟨ha, hty⟩ := E.known "time".toList .time (by decide)
  have hin : Ty.input S.tests .time "1h30m".toList = some (.int (now - 5400)) := by
    have h1 : (localTimes z now).float "1h30m".toList = none := by
      show floatInt "1h30m".toList = none
      decide +kernel
    have h2 : firstFormat (localTimes z now).formats "1h30m".toList = none := by
      have : ∀ kf ∈ timeFormats, strptime kf.2 "1h30m".toList = none := by decide +kernel
      unfold localTimes
      simp only
      generalize timeFormats = l at this ⊢
      induction l with
      | nil => rfl
      | cons kf l ih => simp only [List.map_cons, firstFormat, this kf (by simp), Option.map_none]; exact ih (fun x hx => this x (by simp [hx]))
    have h3 : parseDuration "1h30m".toList = some 5400 := by decide +kernel
    simp only [Ty.input, hnow, parseTime, h1, h2, h3]
    rfl
  obtain ⟨hp, hh⟩ := holds_number (S := S) (ty := .time) rfl "time+=1h30m".toList [] [] (by decide) (blank_nil _) (blank_nil _) (attrName_literal (s := "time".toList) (by decide)) ha hty
    (op := ['+', '=']) (denoted := ['+', '=']) (by decide) (by decide) (plain_alnum (c := '1') (s := "h30m".toList) (by decide) (by decide) (by decide)) (by decide) hin
  rw [E.files_and (by decide +kernel) hp, hh i]
  obtain ⟨rest, hstat⟩ := E.stat
  have hv : S.attr i ("file".toList, "time".toList) = some (.int (st i).mtime) := by
    simp [SearchEnv.attr, SearchEnv.fileAttr, hstat, statAttr]
  rw [hv]
  simp only [Option.some.injEq, Val.int.injEq, exists_eq_left', Spec.cmp]
  constructor
  · rintro ⟨h1, h2⟩; exact ⟨h1, by omega⟩
  · rintro ⟨h1, h2⟩; exact ⟨h1, by omega⟩

/-- C123 "List all files that have multiple hard links to their inode": `ff type=f links+1` -/
theorem C123_links (E : Everyday S st) (i : EntInfo) : S.kept ["type=f".toList, "links+1".toList] i = true ↔ RegularFile (st i) ∧ 1 < (st i).nlink := by
  obtain ⟨ha, hty⟩ := E.known "links".toList .number (by decide)
  have hin : Ty.input S.tests .number "1".toList = some (.int 1) := by
    show (numberInput "1".toList).map Val.int = _
    decide +kernel
  obtain ⟨hp, hh⟩ := holds_number (S := S) (ty := .number) rfl "links+1".toList [] [] (by decide) (blank_nil _) (blank_nil _) (attrName_literal (s := "links".toList) (by decide)) ha hty
    (op := ['+']) (denoted := ['+']) (by decide) (by decide) (plain_alnum (c := '1') (s := []) (by decide) (by decide) (by decide)) (by decide) hin
  rw [E.files_and (by decide +kernel) hp, hh i]
  obtain ⟨rest, hstat⟩ := E.stat
  have hv : S.attr i ("file".toList, "links".toList) = some (.int (st i).nlink) := by
    simp [SearchEnv.attr, SearchEnv.fileAttr, hstat, statAttr]
  rw [hv]
  simp only [Option.some.injEq, Val.int.injEq, exists_eq_left', Spec.cmp]
  constructor
  · rintro ⟨h1, h2⟩; exact ⟨h1, by omega⟩
  · rintro ⟨h1, h2⟩; exact ⟨h1, by omega⟩

/-- C123 "Find files executable by the user", second form: `ff type=f perm:u+x` -/
theorem C123_executable (E : Everyday S st) (i : EntInfo) : S.kept ["type=f".toList, "perm:u+x".toList] i = true ↔ RegularFile (st i) ∧ OwnerMayExecute (st i) := by
  obtain ⟨ha, hty⟩ := E.known "perm".toList .mode (by decide)
  have hm : parseMode "u+x".toList = some 0o100 := by decide +kernel
  obtain ⟨t, ht, hc⟩ := C20_bits S.tests S.case hm (op := [':']) (by decide)
  have hp := parse_op (S := S) [] [] (blank_nil _) (blank_nil _) (attrName_literal (s := "perm".toList) (by decide)) ha hty (op := [':']) (by decide)
    (plain_alnum (c := 'u') (s := "+x".toList) (by decide) (by decide) (by decide)) (by decide) ht
  have hp' : S.parseTest "perm:u+x".toList = .ok _ := hp
  rw [E.files_and (by decide +kernel) ⟨_, hp'⟩, holds_op hty hp']
  obtain ⟨rest, hstat⟩ := E.stat
  have hv : S.attr i ("file".toList, "perm".toList) = some (.int ((st i).perm : Nat)) := by
    simp [SearchEnv.attr, SearchEnv.fileAttr, hstat, statAttr]
  rw [hv]
  simp only [Option.some.injEq, exists_eq_left', hc, modeCmp]
  have hbits : ∀ k, k < 12 → ((0o100 : Nat).testBit k = true ↔ k = 6) := by decide
  have hperm : (st i).perm.testBit 6 = (st i).mode.testBit 6 := by
    unfold Status.perm
    rw [Nat.testBit_and]
    have : (0o7777 : Nat).testBit 6 = true := by decide
    rw [this, Bool.and_true]
  unfold OwnerMayExecute
  constructor
  · rintro ⟨h1, h2⟩; exact ⟨h1, by rw [← hperm]; exact h2 6 (by decide) (by decide)⟩
  · rintro ⟨h1, h2⟩
    refine ⟨h1, fun k hk hb => ?_⟩
    rw [(hbits k hk).1 hb, hperm]; exact h2

/-- C123 "Find files executable by the user", first form: `ff type=f perm:700` (partial: finds only those the user may read and write, too). -/
theorem C123_rwx_partial (E : Everyday S st) (i : EntInfo) : S.kept ["type=f".toList, "perm:700".toList] i = true ↔
    RegularFile (st i) ∧ OwnerMayExecute (st i) ∧ (st i).mode.testBit 7 = true ∧ (st i).mode.testBit 8 = true := by
  obtain ⟨ha, hty⟩ := E.known "perm".toList .mode (by decide)
  have hm : parseMode "700".toList = some 0o700 := by decide +kernel
  obtain ⟨t, ht, hc⟩ := C20_bits S.tests S.case hm (op := [':']) (by decide)
  have hp := parse_op (S := S) [] [] (blank_nil _) (blank_nil _) (attrName_literal (s := "perm".toList) (by decide)) ha hty (op := [':']) (by decide)
    (plain_alnum (c := '7') (s := "00".toList) (by decide) (by decide) (by decide)) (by decide) ht
  have hp' : S.parseTest "perm:700".toList = .ok _ := hp
  rw [E.files_and (by decide +kernel) ⟨_, hp'⟩, holds_op hty hp']
  obtain ⟨rest, hstat⟩ := E.stat
  have hv : S.attr i ("file".toList, "perm".toList) = some (.int ((st i).perm : Nat)) := by
    simp [SearchEnv.attr, SearchEnv.fileAttr, hstat, statAttr]
  rw [hv]
  simp only [Option.some.injEq, exists_eq_left', hc, modeCmp]
  have hbits : ∀ k, k < 12 → ((0o700 : Nat).testBit k = true ↔ k = 6 ∨ k = 7 ∨ k = 8) := by decide
  have hmask : ∀ k, k < 12 → (0o7777 : Nat).testBit k = true := by decide
  have hperm : ∀ k, k < 12 → (st i).perm.testBit k = (st i).mode.testBit k := by
    intro k hk
    unfold Status.perm
    rw [Nat.testBit_and, hmask k hk, Bool.and_true]
  unfold OwnerMayExecute
  constructor
  · rintro ⟨h1, h2⟩
    exact ⟨h1, by rw [← hperm 6 (by decide)]; exact h2 6 (by decide) (by decide), by rw [← hperm 7 (by decide)]; exact h2 7 (by decide) (by decide),
      by rw [← hperm 8 (by decide)]; exact h2 8 (by decide) (by decide)⟩
  · rintro ⟨h1, h2, h3, h4⟩
    refine ⟨h1, fun k hk hb => ?_⟩
    rw [hperm k hk]
    rcases (hbits k hk).1 hb with rfl | rfl | rfl <;> assumption

/-- C123 "Find files executable by the user", third form: `ff exec=yes` (partial: finds what the owner, the group or others may execute, and things that are
neither files nor directories nor links). -/
theorem C123_exec_partial (E : Everyday S st) (i : EntInfo) : S.kept ["exec=yes".toList] i = true ↔
    typeNumber (st i).mode ≠ 4 ∧ typeNumber (st i).mode ≠ 10 ∧ ((st i).mode / 64 % 2 = 1 ∨ (st i).mode / 8 % 2 = 1 ∨ (st i).mode % 2 = 1) := by
  obtain ⟨ha, hty⟩ := E.known "exec".toList .boolean (by decide)
  have hi : booleanInput S.tests.low S.tests.debug "yes".toList = some true := by
    rw [E.low]
    cases S.tests.debug <;> decide
  have ht : createTest S.tests S.case .boolean ['='] none "yes".toList = .ok ⟨['='], .boolean, .val (.bool true), none⟩ := by
    unfold createTest
    rw [if_neg (by decide)]
    simp only [testInput, Ty.input, hi, Option.map_some]
    rw [if_neg (by rintro ⟨h, _⟩; cases h), if_neg (by decide)]
  have hp := parse_op (S := S) [] [] (blank_nil _) (blank_nil _) (attrName_literal (s := "exec".toList) (by decide)) ha hty (op := ['=']) (by decide)
    (plain_alnum (c := 'y') (s := "es".toList) (by decide) (by decide) (by decide)) (by decide) ht
  have hp' : S.parseTest "exec=yes".toList = .ok _ := hp
  rw [kept_formula (f := .atom "exec=yes".toList) (.single (.item (.prim (.atom (by decide +kernel))))) (by
    intro w hw; simp only [Formula.atoms, List.mem_singleton] at hw; subst hw; exact ⟨_, hp'⟩)]
  show holds S i _ = true ↔ _
  rw [holds_op hty hp']
  obtain ⟨rest, hstat⟩ := E.stat
  have hv : S.attr i ("file".toList, "exec".toList) = some (.bool (st i).exec) := by
    simp [SearchEnv.attr, SearchEnv.fileAttr, hstat, statAttr]
  rw [hv]
  simp only [Option.some.injEq, exists_eq_left', Ty.test, decide_true, Bool.true_and, decide_eq_true_eq]
  rw [C71_exec]
  have h4 := (C71_type (st i)).1 (4, "directory".toList, 'd') (by decide)
  have h10 := (C71_type (st i)).1 (10, "symlink".toList, 'l') (by decide)
  simp only at h4 h10
  rw [ne_eq, h4, ne_eq, h10, perm_eq]
  have e1 : (st i).mode % 4096 / 64 % 2 = (st i).mode / 64 % 2 := by omega
  have e2 : (st i).mode % 4096 / 8 % 2 = (st i).mode / 8 % 2 := by omega
  have e3 : (st i).mode % 4096 % 2 = (st i).mode % 2 := by omega
  rw [e1, e2, e3]

/-- A test `ext=EXT` with a lower case extension. -/
theorem Spec.Everyday.extWord (E : Everyday S st) {w sp c s : _} (hw : w = "ext".toList ++ sp ++ ['='] ++ sp ++ c :: s) (hb : Blank S.cc sp) (hcase : S.case ≠ .sensitive)
    (hc : c.isAlphanum = true) (hn : '\n' ∉ c :: s) (hbr : c ≠ '{') (heq : c ≠ '=') (hlow : (c :: s).map Char.toLower = c :: s) :
    (∃ t, S.parseTest w = .ok t) ∧ ∀ i, holds S i w = true ↔ i.entry.ext.map Char.toLower = c :: s := by
  subst hw
  obtain ⟨ha, hty⟩ := E.known "ext".toList .string (by decide)
  have hin : insensitive S.tests.low S.case (c :: s) := by
    cases h : S.case with
    | smart => show _ = _; rw [E.low, hlow]
    | ignore => trivial
    | sensitive => exact absurd h hcase
  obtain ⟨t, ht⟩ : ∃ t, createTest S.tests S.case .string ['='] none (c :: s) = .ok t := ⟨_, rfl⟩
  have hp := parse_op (S := S) sp sp hb hb (attrName_literal (s := "ext".toList) (by decide)) ha hty (op := ['=']) (by decide)
    (plain_alnum (c := c) (s := s) hc hn hbr) (by simpa using heq) ht
  refine ⟨⟨_, hp⟩, fun i => ?_⟩
  rw [holds_op hty hp]
  have hv : S.attr i ("file".toList, "ext".toList) = some (.str i.entry.ext) := by
    simp [SearchEnv.attr, SearchEnv.fileAttr]
  rw [hv]
  simp only [Option.some.injEq, exists_eq_left']
  rw [C27_string S.tests S.case ht]
  have ef : ∀ v, fold S.tests.low S.case (c :: s) v = v.map Char.toLower := by intro v; unfold fold; rw [if_pos hin, E.low]
  simp only [strTest, ef, hlow]

/-- The extension is `mkv` or `mp4` in upper or lower case, and the height is between 720 and 1080. -/
def Spec.WantedVideo (S : SearchEnv) (height : Attr) (i : EntInfo) : Prop :=
  (i.entry.ext.map Char.toLower = "mkv".toList ∨ i.entry.ext.map Char.toLower = "mp4".toList) ∧ ∃ n, S.attr i height = some (.int n) ∧ 720 ≤ n ∧ n ≤ 1080

/-- C123 "Find files that end with .mkv or .mp4 and are between 720 and 1080 pixels high", both forms:
`ff {{ ext=mkv or ext=mp4 }} and {{ height+=720 and height-=1080 }}` and `ff \( 'ext = mkv' or 'ext = mp4' \) and \( 'height >= 720' and 'height <= 1080' \)` -/
theorem C123_video (E : Everyday S st) (hcase : S.case ≠ .sensitive) {height : Attr} (ha : setupAttribute S.reg "height".toList = some height)
    (hty : attributeType S.reg height = some .number) (hsp : S.cc.space ' ' = true) (i : EntInfo) :
    (S.kept (["{{", "ext=mkv", "or", "ext=mp4", "}}", "and", "{{", "height+=720", "and", "height-=1080", "}}"].map String.toList) i = true ↔ WantedVideo S height i) ∧
    (S.kept (["(", "ext = mkv", "or", "ext = mp4", ")", "and", "(", "height >= 720", "and", "height <= 1080", ")"].map String.toList) i = true ↔
      WantedVideo S height i) := by
  have hb : Blank S.cc [' '] := by intro x hx; simp at hx; subst hx; exact hsp
  have i1 : Ty.input S.tests .number "720".toList = some (.int 720) := by show (numberInput "720".toList).map Val.int = _; decide +kernel
  have i2 : Ty.input S.tests .number "1080".toList = some (.int 1080) := by show (numberInput "1080".toList).map Val.int = _; decide +kernel
  have key : ∀ (o c a b x y : Str), Open o → Close c → Word a → Word b → Word x → Word y →
      ((∃ t, S.parseTest a = .ok t) ∧ ∀ i, holds S i a = true ↔ i.entry.ext.map Char.toLower = "mkv".toList) →
      ((∃ t, S.parseTest b = .ok t) ∧ ∀ i, holds S i b = true ↔ i.entry.ext.map Char.toLower = "mp4".toList) →
      ((∃ t, S.parseTest x = .ok t) ∧ ∀ i, holds S i x = true ↔ ∃ n, S.attr i height = some (.int n) ∧ Spec.cmp ['+', '='] n 720) →
      ((∃ t, S.parseTest y = .ok t) ∧ ∀ i, holds S i y = true ↔ ∃ n, S.attr i height = some (.int n) ∧ Spec.cmp ['-', '='] n 1080) →
      (S.kept [o, a, "or".toList, b, c, "and".toList, o, x, "and".toList, y, c] i = true ↔ WantedVideo S height i) := by
    intro o c a b x y ho hc wa wb wx wy ⟨pa, ha⟩ ⟨pb, hb⟩ ⟨px, hx⟩ ⟨py, hy⟩
    have d1 : Derives .prim [o, a, "or".toList, b, c] (.disj (.atom a) (.atom b)) :=
      .group (ts := [a, "or".toList, b]) ho hc (.disj (ts := [a]) (us := [b]) (.single (.item (.prim (.atom wa)))) (by unfold Kw; decide) (.single (.item (.prim (.atom wb)))))
    have d2 : Derives .prim [o, x, "and".toList, y, c] (.conj (.atom x) (.atom y)) :=
      .group (ts := [x, "and".toList, y]) ho hc (.single (.conj (ts := [x]) (us := ["and".toList, y]) (.item (.prim (.atom wx)))
        (.andBefore (by unfold Kw; decide) (.item (.prim (.atom wy))))))
    have d : Derives .disj [o, a, "or".toList, b, c, "and".toList, o, x, "and".toList, y, c] (.conj (.disj (.atom a) (.atom b)) (.conj (.atom x) (.atom y))) :=
      .single (.conj (ts := [o, a, "or".toList, b, c]) (us := ["and".toList, o, x, "and".toList, y, c]) (.item (.prim d1))
        (.andBefore (by unfold Kw; decide) (.item (.prim d2))))
    rw [kept_formula d (by
      intro w hw
      simp only [Formula.atoms, List.mem_append, List.mem_singleton] at hw
      rcases hw with (rfl | rfl) | (rfl | rfl) <;> assumption)]
    simp only [Formula.eval, Bool.and_eq_true, Bool.or_eq_true, ha, hb, hx, hy, Spec.cmp]
    unfold WantedVideo
    constructor
    · rintro ⟨h1, ⟨n, h2, h3⟩, m, h4, h5⟩
      rw [h2] at h4; cases h4
      exact ⟨h1, n, h2, h3, h5⟩
    · rintro ⟨h1, n, h2, h3, h4⟩
      exact ⟨h1, ⟨n, h2, h3⟩, n, h2, h4⟩
  have hh : AttrName S.cc "height".toList := attrName_literal (by decide)
  have p1 := plain_alnum (cc := S.cc) (c := '7') (s := "20".toList) (by decide) (by decide) (by decide)
  have p2 := plain_alnum (cc := S.cc) (c := '1') (s := "080".toList) (by decide) (by decide) (by decide)
  constructor
  · exact key _ _ _ _ _ _ (.inr rfl) (.inr rfl) (by decide +kernel) (by decide +kernel) (by decide +kernel) (by decide +kernel)
      (E.extWord (sp := []) (c := 'm') (s := "kv".toList) (by decide) (blank_nil _) hcase (by decide) (by decide) (by decide) (by decide) (by decide))
      (E.extWord (sp := []) (c := 'm') (s := "p4".toList) (by decide) (blank_nil _) hcase (by decide) (by decide) (by decide) (by decide) (by decide))
      (holds_number (ty := .number) rfl _ [] [] (by decide) (blank_nil _) (blank_nil _) hh ha hty (op := ['+', '=']) (by decide) (by decide) p1 (by decide) i1)
      (holds_number (ty := .number) rfl _ [] [] (by decide) (blank_nil _) (blank_nil _) hh ha hty (op := ['-', '=']) (by decide) (by decide) p2 (by decide) i2)
  · exact key _ _ _ _ _ _ (.inl rfl) (.inl rfl) (by decide +kernel) (by decide +kernel) (by decide +kernel) (by decide +kernel)
      (E.extWord (sp := [' ']) (c := 'm') (s := "kv".toList) (by decide) hb hcase (by decide) (by decide) (by decide) (by decide) (by decide))
      (E.extWord (sp := [' ']) (c := 'm') (s := "p4".toList) (by decide) hb hcase (by decide) (by decide) (by decide) (by decide) (by decide))
      (holds_number (ty := .number) rfl _ [' '] [' '] (by decide) hb hb hh ha hty (op := ['>', '=']) (by decide) (by decide) p1 (by decide) i1)
      (holds_number (ty := .number) rfl _ [' '] [' '] (by decide) hb hb hh ha hty (op := ['<', '=']) (by decide) (by decide) p2 (by decide) i2)

/-- Texts that end in `.txt`, as a pattern. -/
theorem wild_txt {s : Str} (hs : '/' ∉ s) : Wild [.star, .lit '.', .lit 't', .lit 'x', .lit 't'] s ↔ ∃ a, s = a ++ ".txt".toList := by
  constructor
  · intro h
    generalize hl : [Item.star, .lit '.', .lit 't', .lit 'x', .lit 't'] = l at h
    induction h with
    | skip h _ =>
      injection hl with _ hl
      subst hl
      cases h with
      | lit _ h => cases h with
        | lit _ h => cases h with
          | lit _ h => cases h with
            | lit _ h => cases h; exact ⟨[], rfl⟩
    | eat c _ _ ih =>
      simp only [List.mem_cons, not_or] at hs
      obtain ⟨a, rfl⟩ := ih hs.2 hl
      exact ⟨c :: a, rfl⟩
    | _ => cases hl
  · rintro ⟨a, rfl⟩
    induction a with
    | nil => exact .skip (.lit _ (.lit _ (.lit _ (.lit _ .nil))))
    | cons c a ih =>
      simp only [List.cons_append, List.mem_cons, not_or] at hs
      exact .eat c (Ne.symm hs.1) (ih hs.2)

/-- C123 "Find files matching the glob pattern": `ff 'name%*.txt'` -/
theorem C123_txt (E : Everyday S st) (hg : S.tests.glob = testGlob) (hcase : S.case ≠ .sensitive) (hstar : S.cc.space '*' = false) {i : EntInfo}
    (hname : Names [i.entry.name.map Char.toLower]) :
    S.kept ["name%*.txt".toList] i = true ↔ ∃ a, i.entry.name.map Char.toLower = a ++ ".txt".toList := by
  obtain ⟨ha, hty⟩ := E.known "name".toList .string (by decide)
  have hin : insensitive S.tests.low S.case "*.txt".toList := by
    cases h : S.case with
    | smart => show _ = _; rw [E.low]; decide
    | ignore => trivial
    | sensitive => exact absurd h hcase
  have ef : ∀ v, fold S.tests.low S.case "*.txt".toList v = v.map Char.toLower := by intro v; unfold fold; rw [if_pos hin, E.low]
  have hv : S.attr i ("file".toList, "name".toList) = some (.str i.entry.name) := by
    simp [SearchEnv.attr, SearchEnv.fileAttr]
  have hok : (Comp.wild [.star, .lit '.', .lit 't', .lit 'x', .lit 't']).Ok ∧ (Comp.wild [.star, .lit '.', .lit 't', .lit 'x', .lit 't']).noSlash := by
    simp [Comp.Ok, Comp.noSlash, noDouble, Item.Ok, Item.noSlash, plainChar]
  have := C122_string_partial hg (attrName_literal (s := "name".toList) (by decide)) ha hty (text := "*.txt".toList) ⟨⟨_, _, rfl, hstar⟩, by decide⟩
    (by rintro ⟨r, rest, _, _, e⟩; cases e) (p := ⟨false, false, [.wild [.star, .lit '.', .lit 't', .lit 'x', .lit 't']], false⟩) rfl rfl rfl hok
    (by rw [ef]; decide) hv (by rw [ef]; exact hname)
  rw [show "name%*.txt".toList = likeGlob "name".toList "*.txt".toList by decide, this, ef, wild_txt (hname _ (by simp)).2.1]
  simp

end

/-! ### Where they do not -/

/-- The plugins that come with ff, as far as they occur here. -/
def examplePlugins : List PluginDef := [filePlugin, ignorePlugin, grepPlugin, mediumPlugin, mimePlugin, tarPlugin]

/-- The file `x` with the permissions 001 or others, with 100 megabytes and a modification time; the archive `x` has two members, and one line. -/
def exampleSearch (mode size : Nat) : SearchEnv :=
  { cc := asciiClass, reg := examplePlugins, tests := { demoEnv with glob := testGlob, times := localTimes (fun _ => 0) 10000 }, case := .smart,
    stat := statAttr (fun _ => { mode := mode, ino := 1, dev := 1, nlink := 2, uid := 0, gid := 0, size := size, atime := 5000, mtime := 5000, ctime := 5000 }) (fun _ _ => none),
    data := fun _ p _ => if p = "tar".toList then some (.strs ["xsetup.py.bak".toList]) else if p = "medium".toList then some (.int 720) else some (.strs ["FOO".toList]),
    refEntry := fun n => some (demoNamed n) }

set_option maxRecDepth 20000 in
/-- C123 is false for "executable by the user": the three forms differ; `perm:700` misses files, `exec=yes` finds others. -/
theorem C123_executable_false :
    (exampleSearch 0o100100 0).kept ["type=f".toList, "perm:u+x".toList] (demoNamed "x".toList) = true ∧
    (exampleSearch 0o100100 0).kept ["type=f".toList, "perm:700".toList] (demoNamed "x".toList) = false ∧
    (exampleSearch 0o100001 0).kept ["exec=yes".toList] (demoNamed "x".toList) = true ∧
    (exampleSearch 0o100001 0).kept ["type=f".toList, "perm:u+x".toList] (demoNamed "x".toList) = false := by
  refine ⟨?_, ?_, ?_, ?_⟩ <;> decide +kernel

set_option maxRecDepth 20000 in
/-- C123 is false for "newer than `foo`", which also finds files as old as `foo` and `foo` itself, and for "bigger than 100 megabytes", which also finds files
with just this size. -/
theorem C123_newer_false :
    (exampleSearch 0o100644 0).kept ["type=f".toList, "mtime+={}foo".toList] (demoNamed "foo".toList) = true ∧
    (exampleSearch 0o100644 104857600).kept ["ext=mp4".toList, "size+=100M".toList] (demoNamed "x.mp4".toList) = true := by
  refine ⟨?_, ?_⟩ <;> decide +kernel

set_option maxRecDepth 20000 in
/-- C123 is false for "contain a file called `setup.py`", which also finds archives with other names around this one, and for "contain the substring `'foo'`",
which also finds `FOO`. -/
theorem C123_substring_false :
    (exampleSearch 0o100644 0).kept ["members:setup.py".toList] (demoNamed "x".toList) = true ∧
    (exampleSearch 0o100644 0).attr (demoNamed "x".toList) ("tar".toList, "members".toList) = some (.strs ["xsetup.py.bak".toList]) ∧
    (exampleSearch 0o100644 0).kept ["lines:foo".toList] (demoNamed "x".toList) = true ∧
    (exampleSearch 0o100644 0).attr (demoNamed "x".toList) ("grep".toList, "lines".toList) = some (.strs ["FOO".toList]) := by
  refine ⟨?_, ?_, ?_, ?_⟩ <;> decide +kernel

/-! ### Examples -/

theorem everyday_example (mode size : Nat) : Everyday (exampleSearch mode size)
    (fun _ => { mode := mode, ino := 1, dev := 1, nlink := 2, uid := 0, gid := 0, size := size, atime := 5000, mtime := 5000, ctime := 5000 }) where
  stat := ⟨_, rfl⟩
  low := rfl
  known := by
    show ∀ name ty, (name, ty) ∈ filePlugin.attrs → setupAttribute examplePlugins name = some ("file".toList, name) ∧ attributeType examplePlugins ("file".toList, name) = some ty
    have : ∀ p ∈ filePlugin.attrs, setupAttribute examplePlugins p.1 = some ("file".toList, p.1) ∧ attributeType examplePlugins ("file".toList, p.1) = some p.2 := by
      decide +kernel
    exact fun name ty h => this (name, ty) h

set_option maxRecDepth 20000 in
example : (exampleSearch 0o100755 0).kept ["type=f".toList, "time+=1h30m".toList] (demoNamed "x".toList) = true ∧
    (exampleSearch 0o100755 0).kept ["type=f".toList, "links+1".toList] (demoNamed "x".toList) = true ∧
    (exampleSearch 0o040755 0).kept ["type=f".toList] (demoNamed "x".toList) = false ∧
    (exampleSearch 0o100755 0).kept ["type=f".toList, "perm:700".toList] (demoNamed "x".toList) = true ∧
    (exampleSearch 0o100755 0).kept ["name%*.txt".toList] (demoNamed "a.TXT".toList) = true := by
  refine ⟨?_, ?_, ?_, ?_, ?_⟩ <;> decide +kernel

set_option maxRecDepth 20000 in
example : setupAttribute examplePlugins "height".toList = some ("medium".toList, "height".toList) ∧ attributeType examplePlugins ("medium".toList, "height".toList) = some .number ∧
    asciiClass.space ' ' = true ∧ WantedVideo (exampleSearch 0o100644 0) ("medium".toList, "height".toList) (demoNamed "A.MKV".toList) :=
  ⟨by decide +kernel, by decide +kernel, by decide, .inl (by decide +kernel), 720, by decide +kernel, by decide, by decide⟩

end FF
