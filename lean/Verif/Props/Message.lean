import Verif.Lemmas.Message
/-! C106, C107: messages and the help are shown completely. -/
namespace FF
open Spec

theorem ink_intercalate {K : CharKinds} (h : K.Ascii) (lines : List Str) : ink K.space (['\n'].intercalate lines) = ink K.space lines.flatten := by
  have hn : K.space '\n' = true := h '\n' (by simp)
  cases lines with
  | nil => rfl
  | cons l lines =>
    induction lines generalizing l with
    | nil => simp [List.intercalate]
    | cons x lines ih =>
      have : ['\n'].intercalate (l :: x :: lines) = l ++ ('\n' :: ['\n'].intercalate (x :: lines)) := by simp [List.intercalate]
      rw [this, ink_append, List.flatten_cons, ink_append, ← ih x]
      simp [ink, hn]

theorem blanks_ink {K : CharKinds} (h : K.Ascii) (n : Nat) : ink K.space (blanks n) = [] :=
  ink_blank _ _ fun c hc => by rw [List.eq_of_mem_replicate hc]; exact h ' ' (by simp)

theorem wrap_ink {K : CharKinds} (h : K.Ascii) (width : Int) (first other text : Str) (h1 : ink K.space first = []) (h2 : ink K.space other = [])
    (lines : List Str) (hl : K.wrap width first other text = some lines) : ink K.space lines.flatten = ink K.space text := by
  unfold CharKinds.wrap at hl
  split at hl
  · exact absurd hl (by simp)
  · rw [wrapChunks_ink K width first other h1 h2 _ _ _ _ hl, split_flatten, ink_munge h]

theorem wrap_isSome {K : CharKinds} (h : K.Ascii) (width : Int) (first other text : Str) (hw : 0 < width)
    (hs : (first.length : Int) < width ∨ ∃ c t, text = c :: t ∧ K.space c = false) : (K.wrap width first other text).isSome = true := by
  unfold CharKinds.wrap
  rw [if_neg (by omega)]
  refine wrapChunks_isSome K width first other _ _ _ (Nat.le_refl _) (.inr ?_)
  rcases hs with hs | ⟨c, t, rfl, hc⟩
  · exact .inl ⟨by omega, split_ne_nil K _⟩
  · right
    intro d hd
    have hsp : isSpace c = false := by
      rw [Bool.eq_false_iff]
      intro he
      rw [ascii_space h he] at hc
      exact absurd hc (by simp)
    have hm : ∃ r, mungeWhitespace (c :: t) = c :: r := by
      have h1 : c ≠ '\t' := by rintro rfl; revert hsp; decide
      have h2 : ¬ (c = '\n' ∨ c = '\r') := by rintro (rfl | rfl) <;> revert hsp <;> decide
      simp [mungeWhitespace, expandTabs, h1, h2, hsp]
    obtain ⟨r, hr⟩ := hm
    have hf := split_flatten K (mungeWhitespace (c :: t))
    have hn := split_ne_nil K (mungeWhitespace (c :: t))
    generalize K.splitChunks (mungeWhitespace (c :: t)) = cs at hd hf hn
    cases cs with
    | nil => exact absurd hd (by simp)
    | cons e cs =>
      simp only [List.head?_cons, Option.some.injEq] at hd
      subst hd
      cases e with
      | nil => exact absurd rfl (hn [] List.mem_cons_self)
      | cons x e =>
        rw [hr] at hf
        simp only [List.flatten_cons, List.cons_append, List.cons.injEq] at hf
        simp [CharKinds.blank, hf.1, hc]

/-- **C106**. On a terminal with more than two columns each message is shown, and nothing of it is lost but blanks: what can be read is the category and the text, in
this order, whatever it contains and however long it is. -/
theorem C106_complete (K : CharKinds) (hK : K.Ascii) (width : Int) (hw : 0 < width) (m : Message) :
    ∃ lines, K.messageLines width m = some lines ∧ ink K.space (['\n'].intercalate lines) = ink K.space (m.category ++ [':', ' '] ++ m.text) := by
  have := wrap_isSome hK width [] (blanks (m.category.length + 2)) (m.category ++ ": ".toList ++ m.text) hw (.inl hw)
  obtain ⟨lines, hl⟩ := Option.isSome_iff_exists.1 this
  refine ⟨lines, hl, ?_⟩
  rw [ink_intercalate hK]
  exact wrap_ink hK _ _ _ _ rfl (blanks_ink hK _) _ hl

/-- **C106**. No line is longer than the terminal is wide, less two columns (or three more than the category is long); all lines but the first are indented by as
much as the category and its colon take. -/
theorem C106_lines (K : CharKinds) (width : Int) (m : Message) (lines : List Str) (h : K.messageLines width m = some lines) :
    (∀ l ∈ lines, (l.length : Int) ≤ max width (m.category.length + 3)) ∧
    ∀ i l, lines[i]? = some l → 0 < i → ∀ j, j < m.category.length + 2 → l[j]? = some ' ' := by
  unfold CharKinds.messageLines CharKinds.wrap at h
  split at h
  · exact absurd h (by simp)
  · constructor
    · intro l hl
      have := wrapChunks_length K width _ _ _ _ _ _ h l hl
      simp only [blanks, List.length_nil, List.length_replicate] at this
      push_cast at this
      omega
    · intro i l hl hi j hj
      have := wrapChunks_indent K width _ _ _ _ _ _ h i l hl
      rw [if_neg (by omega)] at this
      obtain ⟨t, rfl⟩ := this
      rw [List.getElem?_append_left (by simpa [blanks] using hj)]
      simp only [blanks, List.getElem?_replicate, hj, if_true]

/-- **C106** (partial: the words without a hyphen). A word that is shorter than a line, and has no hyphen, is on one line; so it can be copied from the terminal. -/
theorem C106_word_partial (K : CharKinds) (width : Int) (m : Message) (lines : List Str) (h : K.messageLines width m = some lines) (w : Str) (hw : WordOf m.text w)
    (hh : '-' ∉ w) (hb : ∃ c ∈ w, K.space c = false) (hl : ((m.category.length + 2 + w.length : Nat) : Int) ≤ width) : ∃ l ∈ lines, w <:+: l := by
  have hw' : WordOf (m.category ++ ": ".toList ++ m.text) w := by
    obtain ⟨hne, hs, pre, post, ht, hpre, hpost⟩ := hw
    refine ⟨hne, hs, m.category ++ ": ".toList ++ pre, post, by rw [ht]; simp, .inr ?_, hpost⟩
    rcases hpre with rfl | ⟨q, c, rfl, hc⟩
    · exact ⟨m.category ++ [':'], ' ', by simp, by simp [Whitespace]⟩
    · exact ⟨m.category ++ ": ".toList ++ q, c, by simp, hc⟩
  unfold CharKinds.messageLines CharKinds.wrap at h
  split at h
  · exact absurd h (by simp)
  · obtain ⟨pre, post, he, hpre, hpost⟩ := munge_word _ _ hw'
    have hmem : w ∈ K.splitChunks (mungeWhitespace (m.category ++ ": ".toList ++ m.text)) := by
      unfold CharKinds.splitChunks
      rw [he]
      refine splitFrom_word K _ [] pre w post (Nat.le_refl _) hw.nonempty ?_ hpre hpost
      intro c hc
      refine ⟨?_, fun he => hh (he ▸ hc)⟩
      rw [Bool.eq_false_iff]
      exact fun hs => hw.solid c hc ((isSpace_iff c).1 hs)
    refine wrapChunks_mem K width _ _ _ _ _ _ h w hmem ?_ ?_ ?_
    · obtain ⟨c, hc, hs⟩ := hb
      rw [Bool.eq_false_iff]
      intro ha
      rw [List.all_eq_true.1 ha c hc] at hs
      exact absurd hs (by simp)
    · simp only [List.length_nil]; push_cast at hl ⊢; omega
    · simpa [blanks] using hl

/-- Kinds for the examples: ASCII. -/
def asciiKinds : CharKinds :=
  { word := fun c => c.isAlphanum || c = '_', digit := Char.isDigit, space := isSpace }

theorem asciiKinds_ascii : asciiKinds.Ascii := fun c hc => (isSpace_iff c).2 hc

/-- What a warning looks like. -/
example : asciiKinds.messageLines 20 ⟨"WARNING".toList, "cannot open a/b".toList, none⟩ = some ["WARNING: cannot open".toList, "         a/b".toList] := by
  decide +kernel

example : WordOf "cannot open a/b".toList "a/b".toList :=
  ⟨by decide, by unfold Whitespace; decide, "cannot open ".toList, [], rfl, .inr ⟨"cannot open".toList, ' ', rfl, by unfold Whitespace; decide⟩, .inl rfl⟩

theorem printMessages_get (tags : List Str) (ms : List Message) :
    printMessages tags ms = (ms.zipIdx.filter fun p => match p.1.tag with
      | none => true
      | some t => !tags.contains t && (ms.take p.2).all fun m => m.tag ≠ some t).map (·.1) := by
  induction ms generalizing tags with
  | nil => rfl
  | cons m ms ih =>
    have hz : (m :: ms).zipIdx = (m, 0) :: ms.zipIdx.map fun p => (p.1, p.2 + 1) := by
      rw [List.zipIdx_cons, List.zipIdx_eq_map_add]
      simp only [Nat.zero_add]
      congr 1
      exact List.map_congr_left fun p _ => by rw [Nat.add_comm]
    rw [hz, List.filter_cons, List.filter_map]
    cases ht : m.tag with
    | none =>
      simp only [printMessages, ht, if_true, List.map_cons, List.map_map]
      rw [ih]
      congr 1
      rw [show ((fun x : Message × Nat => x.1) ∘ fun p : Message × Nat => (p.1, p.2 + 1)) = fun x => x.1 from rfl]
      congr 1
      apply List.filter_congr
      intro p _
      simp only [Function.comp, List.take_succ_cons, List.all_cons, ht]
      cases p.1.tag <;> simp
    | some t =>
      simp only [printMessages, ht, List.take_zero, List.all_nil, Bool.and_true]
      have hrest : ∀ tags', (∀ t', tags'.contains t' = (tags.contains t' || t == t')) → printMessages tags' ms =
          ((ms.zipIdx.filter ((fun p : Message × Nat => match p.1.tag with
            | none => true
            | some t' => !tags.contains t' && ((m :: ms).take p.2).all fun m => m.tag ≠ some t') ∘ fun p => (p.1, p.2 + 1))).map
              fun p => (p.1, p.2 + 1)).map (·.1) := by
        intro tags' htags
        rw [ih, List.map_map]
        rw [show ((fun x : Message × Nat => x.1) ∘ fun p : Message × Nat => (p.1, p.2 + 1)) = fun x => x.1 from rfl]
        congr 1
        apply List.filter_congr
        intro p _
        simp only [Function.comp, List.take_succ_cons, List.all_cons, ht]
        cases hq : p.1.tag with
        | none => rfl
        | some u =>
          simp only [htags]
          by_cases hu : t = u
          · subst hu; simp
          · have h1 : (t == u) = false := by simpa using hu
            have h2 : decide (some t ≠ some u) = true := by simpa using hu
            simp [h1, hu]
      by_cases hc : tags.contains t = true
      · rw [if_pos hc, hc, if_neg (by simp)]
        refine hrest tags fun t' => ?_
        by_cases hu : t = t'
        · subst hu; rw [hc]; rfl
        · have h1 : (t == t') = false := by simpa using hu
          simp [h1]
      · rw [if_neg hc, Bool.eq_false_iff.2 hc, if_pos (by simp), List.map_cons]
        congr 1
        refine hrest (t :: tags) fun t' => ?_
        simp only [List.contains_cons]
        rw [Bool.or_comm]
        congr 1
        rw [Bool.eq_iff_iff, beq_iff_eq, beq_iff_eq]
        exact eq_comm

/-- **C106**. Of the messages of one process those are shown that have no tag, and of the others the first with each tag; they are shown in the order in which they are
given. -/
theorem C106_once (ms : List Message) :
    ∃ shown : List Nat, shown.Pairwise (· < ·) ∧ (∀ i, i ∈ shown ↔ FirstOfTag ms i) ∧ (printMessages [] ms).map some = shown.map (ms[·]?) := by
  refine ⟨((ms.zipIdx.filter fun p => match p.1.tag with
      | none => true
      | some t => !([] : List Str).contains t && (ms.take p.2).all fun m => m.tag ≠ some t).map (·.2)), ?_, ?_, ?_⟩
  · rw [List.pairwise_map]
    refine List.Pairwise.filter _ ?_
    have : (ms.zipIdx.map (·.2)).Pairwise (· < ·) := by
      rw [List.zipIdx_map_snd]
      exact List.pairwise_lt_range'
    rwa [List.pairwise_map] at this
  · intro i
    simp only [List.mem_map, List.mem_filter, FirstOfTag]
    constructor
    · rintro ⟨⟨m, j⟩, ⟨hm, hp⟩, rfl⟩
      rw [List.mem_zipIdx_iff_getElem?] at hm
      refine ⟨m, hm, ?_⟩
      intro t ht j' m' hj hm'
      simp only [ht] at hp
      simp only [List.contains_nil, Bool.not_false, Bool.true_and, List.all_eq_true] at hp
      have := hp m' (by
        rw [List.mem_iff_getElem?]
        exact ⟨j', by rw [List.getElem?_take, if_pos hj]; exact hm'⟩)
      simpa using this
    · rintro ⟨m, hm, hf⟩
      refine ⟨(m, i), ⟨List.mem_zipIdx_iff_getElem?.2 hm, ?_⟩, rfl⟩
      cases ht : m.tag with
      | none => rfl
      | some t =>
        simp only [List.contains_nil, Bool.not_false, Bool.true_and, List.all_eq_true]
        intro m' hm'
        rw [List.mem_iff_getElem?] at hm'
        obtain ⟨j, hj⟩ := hm'
        rw [List.getElem?_take] at hj
        split at hj
        · next hlt => simpa using hf t ht j m' hlt hj
        · exact absurd hj (by simp)
  · rw [printMessages_get, List.map_map, List.map_map]
    apply List.map_congr_left
    intro p hp
    exact (List.mem_zipIdx_iff_getElem?.1 (List.mem_filter.1 hp).1).symm

example : FirstOfTag [⟨[], [], some ['a']⟩, ⟨[], ['x'], some ['a']⟩, ⟨[], ['y'], none⟩] 2 :=
  ⟨_, rfl, fun t h => absurd h (by simp)⟩

/-- **C106** (false). If the terminal has one or two columns (or COLUMNS is 1 or 2), no message can be shown: each ends in an exception. -/
theorem C106_narrow_false (K : CharKinds) (m : Message) (terminal : Option Nat) :
    K.messageLines (outputWidth (some 2) terminal) m = none ∧ K.messageLines (outputWidth (some 1) terminal) m = none := ⟨rfl, rfl⟩

/-- The width of the output is positive if the terminal has more than two columns, or its width is not known. -/
theorem C106_width (columns terminal : Option Nat) (h1 : ∀ n, columns = some n → n = 0 ∨ 2 < n) (h2 : ∀ n, terminal = some n → n = 0 ∨ 2 < n) :
    0 < outputWidth columns terminal := by
  unfold outputWidth
  have hu : ∀ o : Option Nat, (∀ n, o = some n → n = 0 ∨ 2 < n) → ∀ n, o.filter (0 < ·) = some n → 2 < n := by
    intro o ho n hn
    rw [Option.filter_eq_some_iff] at hn
    have := ho n hn.1
    have := of_decide_eq_true hn.2
    omega
  simp only
  cases hc : columns.filter (0 < ·) with
  | some n => have := hu _ h1 n hc; simp; omega
  | none =>
    cases ht : terminal.filter (0 < ·) with
    | some n => have := hu _ h2 n ht; simp; omega
    | none => simp

example : outputWidth (some 0) (some 80) = 78 := by decide

/-- **C106** (false). Messages about different names may look the same: a line break in a name is shown as a blank, as are those at the end of a line. -/
theorem C106_name_false : ∃ m m' : Message, m.text ≠ m'.text ∧ asciiKinds.messageLines 78 m = asciiKinds.messageLines 78 m' ∧ (asciiKinds.messageLines 78 m).isSome = true :=
  ⟨⟨"WARNING".toList, "x\ny".toList, none⟩, ⟨"WARNING".toList, "x y".toList, none⟩, by decide, by decide +kernel, by decide +kernel⟩

/-- **C106** (false). A name with a hyphen is broken though it would fit in a line. -/
theorem C106_hyphen_false : ∃ (m : Message) (w : Str), WordOf m.text w ∧ m.category.length + 2 + w.length ≤ 20 ∧
    ∃ lines, asciiKinds.messageLines 20 m = some lines ∧ ∀ l ∈ lines, ¬ w <:+: l := by
  refine ⟨⟨"WARNING".toList, "open my-file".toList, none⟩, "my-file".toList,
    ⟨by decide, by unfold Whitespace; decide, "open ".toList, [], rfl, .inr ⟨"open".toList, ' ', rfl, by unfold Whitespace; decide⟩, .inl rfl⟩, by decide, 
    ["WARNING: open my-".toList, "         file".toList], by decide +kernel, ?_⟩
  intro l hl hi
  have h1 : '-' ∈ l := hi.subset (by decide)
  have h2 : 'f' ∈ l := hi.subset (by decide)
  simp only [List.mem_cons, List.not_mem_nil, or_false] at hl
  rcases hl with rfl | rfl
  · revert h2; decide
  · revert h1; decide

/-! ### The help -/

theorem ink_dropWhile (K : CharKinds) (s : Str) : ink K.space (s.dropWhile K.space) = ink K.space s := by
  induction s with
  | nil => rfl
  | cons c s ih =>
    simp only [List.dropWhile, ink]
    split
    · next h => rw [ih, if_pos h]
    · next h => simp [ink, h]

theorem mapM_allSome {α β : Type _} (f : α → Option β) (l : List α) (d : β) (h : ∀ x ∈ l, (f x).isSome = true) : l.mapM f = some (l.map fun x => (f x).getD d) := by
  induction l with
  | nil => rfl
  | cons x l ih =>
    obtain ⟨y, hy⟩ := Option.isSome_iff_exists.1 (h x List.mem_cons_self)
    rw [List.mapM_cons, hy, ih fun z hz => h z (List.mem_cons_of_mem _ hz)]
    simp [hy]

/-- The part of the help that is about one option. -/
theorem helpItem_option {K : CharKinds} (hK : K.Ascii) (width : Int) (hw : 0 < width) (strings : List Str) (action : Action) (metavar : Option Str) (help : Str)
    (hh : ∃ c t, help = c :: t ∧ K.space c = false) :
    ∃ rest, K.helpItem width (.option strings action metavar help) = some ([' ', ' '] ++ formatOption strings action (optionMetavar strings action metavar) ++ rest) ∧
      ink K.space rest = ink K.space help ∧
      ((formatOption strings action (optionMetavar strings action metavar)).length ≠ 25 → ∃ c t, rest = c :: t ∧ Whitespace c) := by
  obtain ⟨lines, hl⟩ := Option.isSome_iff_exists.1 (wrap_isSome hK width (blanks 27) (blanks 27) help hw (.inr hh))
  have hi := wrap_ink hK _ _ _ _ (blanks_ink hK _) (blanks_ink hK _) _ hl
  have hi' : ink K.space (['\n'].intercalate lines) = ink K.space help := by rw [ink_intercalate hK, hi]
  have hn : K.space '\n' = true := hK '\n' (by simp)
  have hnl : ink K.space "\n".toList = [] := by
    show ink K.space ['\n'] = []
    simp [ink, hn]
  simp only [CharKinds.helpItem, hl, Option.map_some]
  generalize formatOption strings action (optionMetavar strings action metavar) = name
  split
  · refine ⟨"\n".toList ++ ['\n'].intercalate lines ++ "\n".toList, by simp, ?_, fun _ => ⟨'\n', _, rfl, by unfold Whitespace; decide⟩⟩
    rw [ink_append, ink_append, hnl, hi']
    simp
  · refine ⟨blanks (25 - name.length) ++ (['\n'].intercalate lines).dropWhile K.space ++ "\n".toList, by simp, ?_, ?_⟩
    · rw [ink_append, ink_append, hnl, blanks_ink hK, ink_dropWhile, hi']
      simp
    · intro h25
      obtain ⟨k, hk⟩ : ∃ k, 25 - name.length = k + 1 := ⟨24 - name.length, by omega⟩
      refine ⟨' ', blanks k ++ (['\n'].intercalate lines).dropWhile K.space ++ "\n".toList, ?_, by unfold Whitespace; decide⟩
      rw [hk]
      rfl

theorem printHelp_option {K : CharKinds} (hK : K.Ascii) (width : Int) (hw : 0 < width) (usage : Str) (items : List HelpItem)
    (hh : ∀ strings action metavar help, HelpItem.option strings action metavar help ∈ items → ∃ c t, help = c :: t ∧ K.space c = false) :
    ∃ out, K.printHelp width usage items = some out ∧
      ∀ strings action metavar help, HelpItem.option strings action metavar help ∈ items →
        ∃ pre rest post, out = pre ++ [' ', ' '] ++ formatOption strings action (optionMetavar strings action metavar) ++ rest ++ post ∧
          ink K.space rest = ink K.space help ∧
          ((formatOption strings action (optionMetavar strings action metavar)).length ≠ 25 → ∃ c t, rest = c :: t ∧ Whitespace c) := by
  have hsome : ∀ x ∈ items, (K.helpItem width x).isSome = true := by
    intro x hx
    cases x with
    | group name => rfl
    | option strings action metavar help =>
      obtain ⟨r, hr, _⟩ := helpItem_option hK width hw strings action metavar help (hh _ _ _ _ hx)
      rw [hr]; rfl
  refine ⟨_, by rw [CharKinds.printHelp, mapM_allSome _ _ [] hsome]; rfl, ?_⟩
  intro strings action metavar help hx
  obtain ⟨r, hr, hi, hs⟩ := helpItem_option hK width hw strings action metavar help (hh _ _ _ _ hx)
  obtain ⟨a, b, rfl⟩ := List.append_of_mem hx
  refine ⟨"usage: ".toList ++ usage ++ "\n".toList ++ (a.map fun x => (K.helpItem width x).getD []).flatten, r,
    (b.map fun x => (K.helpItem width x).getD []).flatten, ?_, hi, hs⟩
  simp only [List.map_append, List.map_cons, hr, Option.getD_some, List.flatten_append, List.flatten_cons, List.append_assoc]

theorem mem_ffHelp (env : ArgEnv) (text : ArgOpt → Str) (strings : List Str) (action : Action) (metavar : Option Str) (help : Str) :
    HelpItem.option strings action metavar help ∈ ffHelp env text ↔
      ∃ o ∈ ffOptions env, strings = o.strings ∧ action = o.action ∧ metavar = ffMetavar o ∧ help = text o := by
  unfold ffHelp
  rw [List.mem_flatMap]
  constructor
  · rintro ⟨o, ho, h⟩
    refine ⟨o, ho, ?_⟩
    rcases List.mem_append.1 h with h | h
    · unfold ffGroup at h
      split at h
      · simp at h
      · simp at h
    · simpa using h
  · rintro ⟨o, ho, rfl, rfl, rfl, rfl⟩
    exact ⟨o, ho, List.mem_append_right _ List.mem_cons_self⟩

/-- Each spelling is in the text that names the option. -/
theorem formatOption_spelling (strings : List Str) (action : Action) (metavar : Option Str) (ha : action ≠ .arguments) (s : Str) (hs : s ∈ strings) :
    ∃ pre post, formatOption strings action metavar = pre ++ s ++ post := by
  have hi : ∃ pre post, ", ".toList.intercalate strings = pre ++ s ++ post := by
    obtain ⟨a, b, rfl⟩ := List.append_of_mem hs
    clear hs
    induction a with
    | nil =>
      cases b with
      | nil => exact ⟨[], [], by simp [List.intercalate]⟩
      | cons y b => exact ⟨[], ", ".toList ++ ", ".toList.intercalate (y :: b), by simp [List.intercalate]⟩
    | cons x a ih =>
      obtain ⟨pre, post, h⟩ := ih
      refine ⟨x ++ ", ".toList ++ pre, post, ?_⟩
      obtain ⟨y, l, hl⟩ : ∃ y l, a ++ s :: b = y :: l := by cases a <;> exact ⟨_, _, rfl⟩
      have : ", ".toList.intercalate (x :: a ++ s :: b) = x ++ ", ".toList ++ ", ".toList.intercalate (a ++ s :: b) := by
        rw [List.cons_append, hl]
        simp [List.intercalate]
      rw [this, h]
      simp
  obtain ⟨pre, post, h⟩ := hi
  cases metavar with
  | none => exact ⟨pre, post, h⟩
  | some m =>
    cases action with
    | arguments => exact absurd rfl ha
    | storeOptional k => exact ⟨pre, post ++ " [".toList ++ m ++ "]".toList, by simp only [formatOption, h, List.append_assoc]⟩
    | _ => exact ⟨pre, post ++ " ".toList ++ m, by simp only [formatOption, h, List.append_assoc]⟩

/-- The names of no option of ff take exactly the room there is for them. -/
theorem ffHelp_length (env : ArgEnv) (o : ArgOpt) (ho : o ∈ ffOptions env) :
    (formatOption o.strings o.action (optionMetavar o.strings o.action (ffMetavar o))).length ≠ 25 := by
  have h : ((ffOptions env).all fun o => decide ((formatOption o.strings o.action (optionMetavar o.strings o.action (ffMetavar o))).length ≠ 25)) = true := by
    obtain ⟨debug, cpu, cache, noColor⟩ := env
    cases debug <;> rfl
  exact of_decide_eq_true (List.all_eq_true.1 h o ho)

/-- **C107**. `ff -h` shows each option of ff with all its spellings, each followed by its help text, of which nothing is lost but blanks. (The help texts begin with
a character that is not blank.) -/
theorem C107_complete (K : CharKinds) (hK : K.Ascii) (width : Int) (hw : 0 < width) (usage : Str) (env : ArgEnv) (text : ArgOpt → Str)
    (ht : ∀ o ∈ ffOptions env, ∃ c t, text o = c :: t ∧ K.space c = false) :
    ∃ out, K.printHelp width usage (ffHelp env text) = some out ∧
      ∀ o ∈ ffOptions env, ∃ pre name rest post, out = pre ++ [' ', ' '] ++ name ++ rest ++ post ∧
        (o.action ≠ .arguments → ∀ s ∈ o.strings, s <:+: name) ∧ ink K.space rest = ink K.space (text o) ∧ ∃ c t, rest = c :: t ∧ Whitespace c := by
  obtain ⟨out, ho, h⟩ := printHelp_option hK width hw usage (ffHelp env text) (by
    intro strings action metavar help hm
    obtain ⟨o, ho, rfl, rfl, rfl, rfl⟩ := (mem_ffHelp env text _ _ _ _).1 hm
    exact ht o ho)
  refine ⟨out, ho, ?_⟩
  intro o hm
  obtain ⟨pre, rest, post, h1, h2, h3⟩ := h _ _ _ _ ((mem_ffHelp env text _ _ _ _).2 ⟨o, hm, rfl, rfl, rfl, rfl⟩)
  refine ⟨pre, _, rest, post, h1, ?_, h2, h3 (ffHelp_length env o hm)⟩
  intro ha s hs
  obtain ⟨a, b, hab⟩ := formatOption_spelling o.strings o.action (optionMetavar o.strings o.action (ffMetavar o)) ha s hs
  exact ⟨a, b, hab.symm⟩

/-- **C107** (partial: not the options that take the rest of the command line). An option is shown with the name of its argument if it takes one: in brackets if it
may be left out; it is shown without if it takes none. -/
theorem C107_argument_partial (strings : List Str) (action : Action) (m : Str) (h : action ≠ .storeRemainder) (ha : action ≠ .arguments) :
    formatOption strings action (optionMetavar strings action (some m)) = [',', ' '].intercalate strings ++ (match action with
      | .store | .append => ' ' :: m
      | .storeOptional _ => [' ', '['] ++ m ++ [']']
      | _ => []) := by
  cases action with
  | arguments => exact absurd rfl ha
  | storeRemainder => exact absurd rfl h
  | storeOptional k => simp [formatOption, optionMetavar]
  | _ => simp [formatOption, optionMetavar]

/-- Each option of ff that takes an argument has a name for it. -/
theorem C107_named (env : ArgEnv) (o : ArgOpt) (ho : o ∈ ffOptions env) (h : o.action = .store ∨ o.action = .append ∨ (∃ k, o.action = .storeOptional k) ∨
    o.action = .arguments ∨ o.action = .storeRemainder) : ∃ m, ffMetavar o = some ('<' :: m) := by
  have hall : ((ffOptions env).all fun o => match o.action with
      | .store | .append | .storeOptional _ | .arguments | .storeRemainder => match ffMetavar o with
        | some ('<' :: _) => true
        | _ => false
      | _ => true) = true := by
    obtain ⟨debug, cpu, cache, noColor⟩ := env
    cases debug <;> rfl
  have := List.all_eq_true.1 hall o ho
  have hm : (match ffMetavar o with
      | some ('<' :: _) => true
      | _ => false) = true := by
    rcases h with h | h | ⟨k, h⟩ | h | h <;> rw [h] at this <;> exact this
  split at hm
  · next m h => exact ⟨m, h⟩
  · exact absurd hm (by simp)

/-- **C107** (false). The options -x and -X need a command, named `<cmd>`, but the help does not tell: they are shown as if they took no argument. -/
theorem C107_remainder_false (env : ArgEnv) : ∃ o ∈ ffOptions env, o.action = .storeRemainder ∧ ffMetavar o = some "<cmd>".toList ∧
    formatOption o.strings o.action (optionMetavar o.strings o.action (ffMetavar o)) = "-x, --exec".toList := by
  have h : ((ffOptions env).any fun o => decide (o.action = .storeRemainder ∧ ffMetavar o = some "<cmd>".toList ∧
    formatOption o.strings o.action (optionMetavar o.strings o.action (ffMetavar o)) = "-x, --exec".toList)) = true := by
    obtain ⟨debug, cpu, cache, noColor⟩ := env
    cases debug <;> rfl
  obtain ⟨o, ho, h⟩ := List.any_eq_true.1 h
  exact ⟨o, ho, of_decide_eq_true h⟩

/-- **C107** (false). With COLUMNS=2 there is no help. -/
theorem C107_narrow_false (K : CharKinds) (usage : Str) (env : ArgEnv) (text : ArgOpt → Str) (terminal : Option Nat) :
    K.printHelp (outputWidth (some 2) terminal) usage (ffHelp env text) = none := by
  have : (ffHelp env text) = .group "Global options".toList :: (ffHelp env text).drop 1 := by
    obtain ⟨debug, cpu, cache, noColor⟩ := env
    cases debug <;> rfl
  obtain ⟨help, h2⟩ : ∃ help, ((ffHelp env text).drop 1).head? = some (.option ["tests".toList] .arguments (some "<test/directory>".toList) help) := by
    obtain ⟨debug, cpu, cache, noColor⟩ := env
    cases debug <;> exact ⟨_, rfl⟩
  unfold CharKinds.printHelp
  rw [this]
  generalize (ffHelp env text).drop 1 = l at h2
  cases l with
  | nil => exact absurd h2 (by simp)
  | cons x l =>
    simp only [List.head?_cons, Option.some.injEq] at h2
    subst h2
    simp only [List.mapM_cons]
    rfl

/-- What the help looks like. -/
example : asciiKinds.helpItem 60 (.option ["-j".toList, "--jobs".toList] .store (some "<num>".toList) "Set number of processes to use for searching.".toList) =
    some "  -j, --jobs <num>         Set number of processes to use\n                           for searching.\n".toList := by
  decide +kernel

example : ∀ o ∈ ffOptions ⟨false, 4, [], false⟩, ∃ c t, (fun _ => ['H', 'i']) o = c :: t ∧ asciiKinds.space c = false :=
  fun _ _ => ⟨'H', ['i'], rfl, by decide⟩

end FF
