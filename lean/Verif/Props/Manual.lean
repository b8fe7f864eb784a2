import Verif.Spec.Manual
import Verif.Props.Help
import Verif.Model.ManualText
import Verif.Props.Patterns
/-! C112: the manual shows the whole of its text. -/
namespace FF
open Spec

theorem textChars_append (K : CharKinds) (a b : Str) : textChars K (a ++ b) = textChars K a ++ textChars K b := by simp [textChars]

theorem shownChars_append (K : CharKinds) (a b : List Seen) : shownChars K (a ++ b) = shownChars K a ++ shownChars K b := by simp [shownChars, textChars]

theorem shownChars_text (K : CharKinds) (t : Str) : shownChars K (textSeen K t) = textChars K t := by
  unfold shownChars textSeen
  rw [List.flatMap_map]
  have : (List.flatMap (fun a : Char => [a]) (t.filter fun c => !Unseen K c)) = t.filter fun c => !Unseen K c := by simp
  show textChars K (List.flatMap (fun a : Char => [a]) (t.filter fun c => !Unseen K c)) = _
  rw [this]
  simp [textChars]

theorem shownChars_visible (K : CharKinds) (l : List Seen) : shownChars K (visible K l) = shownChars K l := by
  induction l with
  | nil => rfl
  | cons x l ih =>
    rw [show x :: l = [x] ++ l from rfl, visible_append, shownChars_append, shownChars_append, ih]
    congr 1
    cases x with
    | ch c => cases h : Unseen K c <;> simp [visible, shownChars, textChars, h]
    | _ => rfl

theorem textChars_blank {K : CharKinds} {t : Str} (h : ∀ c ∈ t, K.space c = true) : textChars K t = [] := by
  unfold textChars
  rw [List.filter_eq_nil_iff]
  intro c hc
  simp [Unseen, h c hc]

/-! ### Stripping -/

theorem dropWhile_all {p : Char → Bool} (s : Str) : s.dropWhile p = [] ↔ ∀ c ∈ s, p c = true := by
  induction s with
  | nil => simp
  | cons c s ih =>
    by_cases h : p c = true
    · rw [List.dropWhile_cons_of_pos h, ih]; simp [h]
    · rw [List.dropWhile_cons_of_neg h]; simp [h]

theorem rstripK_spec (K : CharKinds) (s : Str) : ∃ t, s = rstripK K s ++ t ∧ (∀ c ∈ t, K.space c = true) ∧ (rstripK K s = [] ∨ ∃ w c, rstripK K s = w ++ [c] ∧ K.space c = false) := by
  refine ⟨(s.reverse.takeWhile K.space).reverse, ?_, ?_, ?_⟩
  · unfold rstripK
    rw [← List.reverse_append, List.takeWhile_append_dropWhile, List.reverse_reverse]
  · intro c hc
    rw [List.mem_reverse] at hc
    exact List.all_eq_true.1 List.all_takeWhile _ hc
  · unfold rstripK
    cases h : s.reverse.dropWhile K.space with
    | nil => exact .inl rfl
    | cons c w =>
      refine .inr ⟨w.reverse, c, by simp, ?_⟩
      have := List.head?_dropWhile_not K.space s.reverse
      rw [h] at this
      simpa using this

theorem textChars_rstrip (K : CharKinds) (s : Str) : textChars K (rstripK K s) = textChars K s := by
  obtain ⟨t, h1, h2, -⟩ := rstripK_spec K s
  generalize rstripK K s = r at *
  rw [h1, textChars_append, textChars_blank h2, List.append_nil]

theorem textChars_lstrip (K : CharKinds) (s : Str) : textChars K (lstripK K s) = textChars K s := by
  have h := List.takeWhile_append_dropWhile (p := K.space) (l := s)
  have e : textChars K s = textChars K (s.takeWhile K.space ++ lstripK K s) := by unfold lstripK; rw [h]
  rw [e, textChars_append, textChars_blank (fun c hc => List.all_eq_true.1 List.all_takeWhile _ hc), List.nil_append]

theorem rstripK_idem (K : CharKinds) (s : Str) : rstripK K (rstripK K s) = rstripK K s := by
  obtain ⟨t, -, -, h⟩ := rstripK_spec K s
  rcases h with h | ⟨w, c, h, hc⟩
  · rw [h]; rfl
  · rw [h]; unfold rstripK; rw [List.reverse_append]
    show (List.dropWhile K.space (c :: w.reverse)).reverse = _
    rw [List.dropWhile_cons_of_neg (by simp [hc])]
    simp

theorem rstripK_blank {K : CharKinds} {s : Str} : rstripK K s = [] ↔ blankLine K s = true := by
  unfold blankLine
  rw [List.all_eq_true]
  constructor
  · intro h c hc
    obtain ⟨t, h1, h2, -⟩ := rstripK_spec K s
    rw [h, List.nil_append] at h1
    exact h2 c (h1 ▸ hc)
  · intro h
    unfold rstripK
    rw [List.reverse_eq_nil_iff, dropWhile_all]
    intro c hc
    exact h c (List.mem_reverse.1 hc)

theorem lstripK_append {K : CharKinds} {r t : Str} (h : lstripK K r ≠ []) : lstripK K (r ++ t) = lstripK K r ++ t := by
  unfold lstripK at *
  induction r with
  | nil => exact absurd rfl h
  | cons c r ih =>
    by_cases hc : K.space c = true
    · rw [List.cons_append, List.dropWhile_cons_of_pos hc, List.dropWhile_cons_of_pos hc]
      rw [List.dropWhile_cons_of_pos hc] at h
      exact ih h
    · rw [List.cons_append, List.dropWhile_cons_of_neg hc, List.dropWhile_cons_of_neg hc]; rfl

theorem lstripK_nil {K : CharKinds} {r : Str} : lstripK K r = [] ↔ ∀ c ∈ r, K.space c = true := by
  unfold lstripK; rw [dropWhile_all]

theorem marker_iff (s : Str) : startsWith s "::".toList = true ↔ ∃ t, s = ':' :: ':' :: t := by
  constructor
  · intro h
    cases s with
    | nil => exact absurd h (by decide)
    | cons a s =>
      cases s with
      | nil => simp [startsWith] at h
      | cons b s =>
        simp [startsWith] at h
        obtain ⟨rfl, rfl⟩ := h
        exact ⟨s, rfl⟩
  · rintro ⟨t, rfl⟩; simp [startsWith]

theorem marker_append {w t : Str} (hw : w ≠ []) (ht : ∀ c, t.head? = some c → c ≠ ':') : startsWith (w ++ t) "::".toList = startsWith w "::".toList := by
  rw [Bool.eq_iff_iff, marker_iff, marker_iff]
  constructor
  · rintro ⟨x, h⟩
    match w, hw, h with
    | [a], _, h =>
      cases t with
      | nil => simp at h
      | cons b t => simp at h; exact absurd h.2.1 (ht b rfl)
    | a :: b :: w, _, h => simp at h; exact ⟨w, by rw [h.1, h.2.1]⟩
  · rintro ⟨x, rfl⟩; exact ⟨x ++ t, rfl⟩

theorem isMarker_rstrip {K : CharKinds} (hK : Blanks K) (s : Str) : isMarker K (rstripK K s) = isMarker K s := by
  obtain ⟨t, h1, h2, -⟩ := rstripK_spec K s
  generalize rstripK K s = r at *
  subst h1
  unfold isMarker
  by_cases h : lstripK K r = []
  · have : lstripK K (r ++ t) = [] := by
      rw [lstripK_nil] at h ⊢
      intro c hc
      rw [List.mem_append] at hc
      exact hc.elim (h c) (h2 c)
    rw [h, this]
  · rw [lstripK_append h, marker_append h fun c hc => ?_]
    rintro rfl
    have := h2 ':' (List.mem_of_head? hc)
    rw [hK.printable ':' (by decide) (by decide)] at this
    cases this

/-! ### Paragraphs -/

/-- What should be shown of a line or paragraph. -/
def shownOf (K : CharKinds) (f : Str → Str) (l : Str) : Str := if isMarker K l then f ((lstripK K (rstripK K l)).drop 2) else textChars K l

theorem shownOf_nil (K : CharKinds) (f : Str → Str) : shownOf K f [] = [] := rfl

theorem shownOf_rstrip {K : CharKinds} (hK : Blanks K) (f : Str → Str) (l : Str) : shownOf K f (rstripK K l) = shownOf K f l := by
  unfold shownOf
  rw [isMarker_rstrip hK, rstripK_idem, textChars_rstrip]

/-- Nothing is lost when lines are joined to paragraphs. -/
theorem wrapFrom_shown {K : CharKinds} (hK : Blanks K) (f : Str → Str) (lines : List Str) : ∀ (cur : Nat) (text : Str) (before : Bool),
    markersAlone K before lines = true → (before = true → text = [] ∨ cur = 0) → (text = [] ∨ lstripK K text ≠ []) →
    (isMarker K text = true → 0 < cur ∧ lines.head?.all (blankLine K) = true) →
    (wrapFrom K cur text lines).flatMap (shownOf K f) = shownOf K f text ++ lines.flatMap (shownOf K f) := by
  induction lines with
  | nil =>
    intro cur text before _ _ _ _
    unfold wrapFrom
    by_cases h : text = []
    · rw [if_pos h, h]; rfl
    · rw [if_neg h]; simp
  | cons l ls ih =>
    intro cur text before ha hb ht hm
    simp only [markersAlone, Bool.and_eq_true, Bool.or_eq_true, Bool.not_eq_true', decide_eq_true_eq] at ha
    obtain ⟨ha, hls⟩ := ha
    have hnext : (blankLine K l || decide (indentOf K (rstripK K l) = 0)) = true →
        rstripK K l = [] ∨ (if rstripK K l = [] then cur else indentOf K (rstripK K l)) = 0 := by
      intro h
      rw [Bool.or_eq_true, decide_eq_true_eq] at h
      by_cases e : rstripK K l = []
      · exact .inl e
      · refine .inr ?_
        rw [if_neg e]
        exact h.resolve_left fun h => e (rstripK_blank.2 h)
    have hsolid : rstripK K l = [] ∨ lstripK K (rstripK K l) ≠ [] := by
      obtain ⟨t, -, -, h⟩ := rstripK_spec K l
      rcases h with h | ⟨w, c, h, hc⟩
      · exact .inl h
      · refine .inr ?_
        rw [h, Ne, lstripK_nil]
        intro h'
        rw [h' c (by simp)] at hc
        cases hc
    have hmark : isMarker K (rstripK K l) = true → 0 < (if rstripK K l = [] then cur else indentOf K (rstripK K l)) ∧ ls.head?.all (blankLine K) = true := by
      intro h
      have hne : rstripK K l ≠ [] := by intro e; rw [e] at h; exact nomatch (show false = true from h)
      rw [isMarker_rstrip hK] at h
      rcases ha with ha | ha
      · rw [h] at ha; cases ha
      · rw [if_neg hne]; exact ⟨ha.1.2, ha.2⟩
    have hrest := ih (if rstripK K l = [] then cur else indentOf K (rstripK K l)) (rstripK K l) _ hls hnext hsolid hmark
    rw [shownOf_rstrip hK] at hrest
    unfold wrapFrom
    simp only
    by_cases hn : newParagraph K cur (rstripK K l) = true
    · rw [if_pos hn, List.flatMap_append, List.flatMap_cons, shownOf_nil, List.nil_append, hrest, List.flatMap_cons]
      congr 1
      by_cases h : text = []
      · rw [if_pos h, h]; rfl
      · rw [if_neg h]; simp
    · rw [if_neg hn]
      by_cases h : text = []
      · rw [if_pos h, hrest, h, List.flatMap_cons]; rfl
      · rw [if_neg h]
        have ht' := ht.resolve_left h
        simp only [newParagraph, Bool.or_eq_true, decide_eq_true_eq, Bool.and_eq_true, not_or, not_and, Nat.not_lt] at hn
        obtain ⟨⟨hn1, hn2⟩, -⟩ := hn
        have hl : isMarker K l = false := by
          cases hl : isMarker K l with
          | false => rfl
          | true =>
            rcases ha with ha | ha
            · rw [hl] at ha; cases ha
            · have := (hb ha.1.1).resolve_left h
              have := hn2 this
              omega
        have htm : isMarker K text = false := by
          cases hm' : isMarker K text with
          | false => rfl
          | true =>
            obtain ⟨h1, h2⟩ := hm hm'
            have h3 : blankLine K l = true := by simpa using h2
            rw [rstripK_blank.2 h3] at hn1
            simp [indentOf] at hn1
            omega
        have hne : lstripK K (text ++ ' ' :: lstripK K (rstripK K l)) = lstripK K text ++ ' ' :: lstripK K (rstripK K l) := lstripK_append ht'
        have hmark' : isMarker K (text ++ ' ' :: lstripK K (rstripK K l)) = false := by
          unfold isMarker at htm ⊢
          rw [hne, marker_append ht' (by simp), htm]
        rw [ih _ _ _ hls ?_ (.inr (by rw [hne]; simp)) (by rw [hmark']; simp)]
        · rw [List.flatMap_cons, ← List.append_assoc]
          congr 1
          simp only [shownOf, hmark', htm, hl, Bool.false_eq_true, if_false]
          rw [show text ++ ' ' :: lstripK K (rstripK K l) = text ++ ([' '] ++ lstripK K (rstripK K l)) from rfl, textChars_append, textChars_append, textChars_lstrip,
            textChars_rstrip, textChars_blank (t := [' ']) (by simp [hK.blank]), List.nil_append]
        · intro hb'
          rw [Bool.or_eq_true, decide_eq_true_eq] at hb'
          refine .inr ?_
          by_cases e : rstripK K l = []
          · rw [if_pos e]
            rw [e] at hn1
            simp [indentOf] at hn1
            omega
          · rw [if_neg e]
            exact hb'.resolve_left fun h => e (rstripK_blank.2 h)

theorem wrapLines_shown {K : CharKinds} (hK : Blanks K) (f : Str → Str) {lines : List Str} (h : markersAlone K true lines = true) :
    (wrapLines K lines).flatMap (shownOf K f) = lines.flatMap (shownOf K f) := by
  have := wrapFrom_shown hK f lines 0 [] true h (fun _ => .inl rfl) (.inl rfl) (fun h => nomatch (show false = true from h))
  rw [shownOf_nil, List.nil_append] at this
  exact this

/-- Text that is not processed. -/
theorem seen_raw {K : CharKinds} {g : Str} (h : OneLine g) (b : Str) : visible K (seen .mid (g ++ b)) = textSeen K g ++ visible K (seen .mid b) := by
  induction g with
  | nil => rfl
  | cons c g ih =>
    have h1 : c ≠ '\\' := fun e => h.2 (by rw [e]; simp)
    have h2 : c ≠ '\n' := fun e => h.1 (by rw [e]; simp)
    have := ih ⟨fun e => h.1 (List.mem_cons_of_mem _ e), fun e => h.2 (List.mem_cons_of_mem _ e)⟩
    rw [List.cons_append, show RoffMode.mid = rmode false from rfl, seen_plain false c _ h1 h2 (by simp), visible_ch, this, show c :: g = [c] ++ g from rfl, textSeen_append, List.append_assoc]
    rfl

theorem example_line {K : CharKinds} {g : Str} (h : OneLine g) : LineSeen K (bdFont ++ g ++ rsFont) (textSeen K g) := by
  have e : ∀ b, visible K (seen .start (bdFont ++ g ++ rsFont ++ b)) = textSeen K g ++ visible K (seen .mid b) := by
    intro b
    rw [List.append_assoc, List.append_assoc]
    show visible K (seen (rmode true) ('\\' :: 'f' :: 'B' :: (g ++ (rsFont ++ b)))) = _
    rw [seen_font, seen_raw h]
    show _ ++ visible K (seen (rmode false) ('\\' :: 'f' :: 'R' :: b)) = _
    rw [seen_font]
  refine ⟨fun b => ?_, ?_⟩
  · rw [e]
    show _ ++ visible K (seen (rmode false) ('\n' :: b)) = _
    rw [seen_newline]
  · have := e []
    rw [List.append_nil] at this
    rw [this]
    simp [seen, visible]

theorem upper_header {line : Str} (h : isHeader line = true) : upper line = line ∧ '\n' ∉ line := by
  simp only [isHeader, Bool.and_eq_true, List.all_eq_true] at h
  have h1 : ∀ c : Char, (c.isUpper || decide (c = ' ')) = true → c.toUpper = c ∧ c ≠ '\n' := by
    intro c hc
    rw [Bool.or_eq_true, decide_eq_true_eq] at hc
    rcases hc with hc | rfl
    · refine ⟨?_, by rintro rfl; exact absurd hc (by decide)⟩
      unfold Char.toUpper
      rw [dif_neg]
      rintro ⟨h2, -⟩
      simp only [Char.isUpper, decide_eq_true_eq] at hc
      have h3 := UInt32.le_iff_toNat_le.1 hc.2
      have h4 := UInt32.le_iff_toNat_le.1 h2
      have h5 : 'Z'.val.toNat = 90 := by decide
      have h6 : 'a'.val.toNat = 97 := by decide
      omega
    · exact ⟨by decide, by decide⟩
  refine ⟨?_, fun hm => (h1 _ (h.2 _ hm)).2 rfl⟩
  have := List.map_congr_left (f := Char.toUpper) (g := id) (l := line) fun c hc => (h1 c (h.2 c hc)).1
  unfold upper
  rw [this, List.map_id]

theorem splitDouble_eq : ∀ {s : Str}, hasDouble s = true → s = (splitDouble s).1 ++ ([' ', ' '] ++ (splitDouble s).2)
  | [], h => by simp [hasDouble] at h
  | [a], h => by simp [hasDouble] at h
  | a :: b :: s, h => by
    simp only [splitDouble]
    by_cases hab : a = ' ' ∧ b = ' '
    · rw [if_pos hab, hab.1, hab.2]; rfl
    · rw [if_neg hab]
      simp only [hasDouble, Bool.or_eq_true, Bool.and_eq_true, decide_eq_true_eq] at h
      have := splitDouble_eq (h.resolve_left hab)
      simp only [List.cons_append]
      exact congrArg (a :: ·) this

/-- A paragraph is shown. -/
theorem paragraph_shown {K : CharKinds} (hK : Blanks K) (hd : NotDigits K) (inc : Str → Option (List Str)) {p : Str} (hm : isMarker K p = false) (hp : PlainParagraph K (rstripK K p)) :
    ∃ ls v, parseParagraph K inc p = some ls ∧ LinesSeen K ls v ∧ shownChars K v = textChars K p := by
  unfold parseParagraph PlainParagraph at *
  simp only [isMarker_rstrip hK, hm, Bool.false_eq_true, if_false]
  rw [← textChars_rstrip]
  generalize rstripK K p = line at *
  by_cases h1 : isHeader line = true
  · simp only [h1, if_true] at hp ⊢
    obtain ⟨hu, hn⟩ := upper_header h1
    refine ⟨_, _, rfl, .one (section_line K hn), ?_⟩
    rw [hu]; simp [shownChars]
  · simp only [h1, Bool.false_eq_true, if_false] at hp ⊢
    by_cases h2 : startsWith (lstripK K line) ['$'] = true
    · simp only [h2, if_true] at hp ⊢
      exact ⟨_, _, rfl, .one (example_line hp), shownChars_text K line⟩
    · simp only [h2, Bool.false_eq_true, if_false] at hp ⊢
      by_cases h3 : hasDouble (lstripK K line) = true
      · simp only [h3, if_true] at hp ⊢
        refine ⟨_, _, rfl, .cons (definition_line K hp.1) (.cons (process_line hK hd hp.2) (.one (request_line K (l := "PP".toList) (by decide) rfl))), ?_⟩
        rw [show visible K (request "PP".toList) = [] from rfl, List.append_nil, shownChars_append, shownChars_text, ← textChars_lstrip K line]
        conv => rhs; rw [splitDouble_eq h3]
        rw [textChars_append, textChars_append, textChars_blank (t := [' ', ' ']) (by simp [hK.blank]), List.nil_append]
        simp [shownChars]
      · simp only [h3, Bool.false_eq_true, if_false] at hp ⊢
        exact ⟨_, _, rfl, .one (process_line hK hd hp), shownChars_text K line⟩

/-- A template is shown. -/
theorem parseLines_shown {K : CharKinds} (hK : Blanks K) (hd : NotDigits K) (inc : Str → Option (List Str)) : ∀ (n : Nat) (lines : List Str), PlainManual K inc n lines →
    ∃ ls v, parseLines K inc n lines = some ls ∧ LinesSeen K ls v ∧ shownChars K v = expectedChars K inc n lines := by
  intro n
  induction n with
  | zero => intro lines h; exact h.elim
  | succ n ih =>
    intro lines h
    obtain ⟨ha, hp⟩ := h
    have key : ∀ p ∈ wrapLines K lines, ∃ ls v, parseParagraph K (fun name => (inc name).bind (parseLines K inc n)) p = some ls ∧ LinesSeen K ls v ∧
        shownChars K v = shownOf K (fun name => expectedChars K inc n ((inc name).getD [])) p := by
      intro p hmem
      have := hp p hmem
      by_cases hm : isMarker K p = true
      · rw [if_pos hm] at this
        obtain ⟨inner, hi, hpl⟩ := this
        obtain ⟨ls, v, h1, h2, h3⟩ := ih inner hpl
        refine ⟨ls, v, ?_, h2, ?_⟩
        · simp only [parseParagraph, isMarker_rstrip hK, hm, if_true]
          rw [hi]; exact h1
        · rw [h3]; simp only [shownOf, hm, if_true]; rw [hi]; rfl
      · rw [if_neg hm] at this
        obtain ⟨ls, v, h1, h2, h3⟩ := paragraph_shown hK hd (fun name => (inc name).bind (parseLines K inc n)) (by simpa using hm) this
        exact ⟨ls, v, h1, h2, by rw [h3]; simp only [shownOf, hm, Bool.false_eq_true, if_false]⟩
    have hw := wrapLines_shown hK (fun name => expectedChars K inc n ((inc name).getD [])) ha
    have all : ∀ ps : List Str, (∀ p ∈ ps, ∃ ls v, parseParagraph K (fun name => (inc name).bind (parseLines K inc n)) p = some ls ∧ LinesSeen K ls v ∧
        shownChars K v = shownOf K (fun name => expectedChars K inc n ((inc name).getD [])) p) →
        ∃ ls v, mapOption (parseParagraph K fun name => (inc name).bind (parseLines K inc n)) ps = some ls ∧ LinesSeen K ls.flatten v ∧
          shownChars K v = ps.flatMap (shownOf K fun name => expectedChars K inc n ((inc name).getD [])) := by
      intro ps
      induction ps with
      | nil => intro _; exact ⟨[], [], rfl, .nil, rfl⟩
      | cons p ps ihp =>
        intro h
        obtain ⟨l1, v1, a1, b1, c1⟩ := h p (by simp)
        obtain ⟨l2, v2, a2, b2, c2⟩ := ihp fun q hq => h q (List.mem_cons_of_mem _ hq)
        refine ⟨l1 :: l2, v1 ++ v2, ?_, b1.append b2, by rw [shownChars_append, c1, c2, List.flatMap_cons]⟩
        simp only [mapOption, a1, a2]
    obtain ⟨ls, v, h1, h2, h3⟩ := all _ key
    refine ⟨ls.flatten, v, ?_, h2, ?_⟩
    · simp only [parseLines]; rw [h1]; rfl
    · rw [h3, hw]
      rfl

/-- **C112**: the manual shows all of its text, in order, with the included parts in the places of their markers. -/
theorem manual_shown {E : HelpEnv} (hK : Blanks E.kinds) (hd : NotDigits E.kinds) (hE : PlainEnv E) (usage : Str) (items : List HelpItem) {template : List Str}
    (h : PlainManual E.kinds (manualInclude usage items) 2 template) :
    ∃ lines, manualPage E usage items template = some lines ∧
      shownChars E.kinds (seen .start (pageText lines)) = expectedChars E.kinds (manualInclude usage items) 2 template := by
  obtain ⟨ls, v, h1, h2, h3⟩ := parseLines_shown hK hd _ 2 template h
  unfold manualPage
  rw [h1]
  refine ⟨_, rfl, ?_⟩
  have hs := start_lines hK hd hE (name := "ff".toList) (sect := "1".toList) (title := "ff - Find files in the filesystem".toList) (by decide) (description := none) (by simp)
  have := (hs.append h2).page
  rw [← shownChars_visible, this]
  simpa using h3

/-! ### The template of ff -/

/-- Whether a text can be shown, as a check. -/
def plainTextB (t : Str) : Bool :=
  (t.all fun c => decide (c ≠ '\\')) && (splitNN t).all fun p => (p.dropWhile isSpace).head?.all fun c => decide (c ≠ '.' ∧ c ≠ '\'')

theorem plainTextB_sound {t : Str} (h : plainTextB t = true) : PlainText asciiKinds t := by
  simp only [plainTextB, Bool.and_eq_true, List.all_eq_true] at h
  refine ⟨fun e => of_decide_eq_true (h.1 _ e) rfl, fun p hp c hc => ?_⟩
  have := h.2 p hp
  have hc' : (p.dropWhile isSpace).head? = some c := hc
  rw [hc'] at this
  simpa using this

/-- Whether a paragraph can be shown, as a check. -/
def plainParagraphB (line : Str) : Bool :=
  isHeader line || (if startsWith (lstripK asciiKinds line) ['$'] then line.all fun c => decide (c ≠ '\n' ∧ c ≠ '\\')
    else if hasDouble (lstripK asciiKinds line) then
      ((splitDouble (lstripK asciiKinds line)).1.all fun c => decide (c ≠ '\n' ∧ c ≠ '"' ∧ c ≠ '\\')) && plainTextB (splitDouble (lstripK asciiKinds line)).2
    else plainTextB line)

theorem plainParagraphB_sound {line : Str} (h : plainParagraphB line = true) : PlainParagraph asciiKinds line := by
  unfold plainParagraphB at h
  unfold PlainParagraph
  rw [Bool.or_eq_true] at h
  split
  · trivial
  · rename_i h1
    have h := h.resolve_left h1
    split
    · rename_i h2
      rw [if_pos h2] at h
      exact oneLine_decide h
    · rename_i h2
      rw [if_neg h2] at h
      split
      · rename_i h3
        rw [if_pos h3, Bool.and_eq_true, List.all_eq_true] at h
        exact ⟨⟨fun e => (of_decide_eq_true (h.1 _ e)).1 rfl, fun e => (of_decide_eq_true (h.1 _ e)).2.1 rfl, fun e => (of_decide_eq_true (h.1 _ e)).2.2 rfl⟩, plainTextB_sound h.2⟩
      · rename_i h3
        rw [if_neg h3] at h
        exact plainTextB_sound h

/-- Whether a template can be shown if its included parts can, as a check. -/
def plainTemplateB (names : List Str) (lines : List Str) : Bool :=
  markersAlone asciiKinds true lines && (wrapLines asciiKinds lines).all fun p =>
    if isMarker asciiKinds p then names.contains ((lstripK asciiKinds (rstripK asciiKinds p)).drop 2) else plainParagraphB (rstripK asciiKinds p)

theorem plainTemplateB_sound {names lines : List Str} (h : plainTemplateB names lines = true) {inc : Str → Option (List Str)} {n : Nat}
    (hi : ∀ name ∈ names, ∃ inner, inc name = some inner ∧ PlainManual asciiKinds inc n inner) : PlainManual asciiKinds inc (n + 1) lines := by
  simp only [plainTemplateB, Bool.and_eq_true, List.all_eq_true] at h
  refine ⟨h.1, fun p hp => ?_⟩
  have := h.2 p hp
  split
  · rename_i hm
    rw [if_pos hm] at this
    exact hi _ (List.contains_iff_mem.1 this)
  · rename_i hm
    rw [if_neg hm] at this
    exact plainParagraphB_sound this

set_option maxRecDepth 100000 in
theorem template_check : plainTemplateB ["usage".toList, "help".toList, "time_patterns".toList, "exit_codes".toList] manpageTemplate = true := by decide +kernel

set_option maxRecDepth 100000 in
theorem times_check : plainTemplateB [] timePatterns = true := by decide +kernel

set_option maxRecDepth 100000 in
theorem exit_check : plainTemplateB [] exitLines = true := by decide +kernel

theorem usage_check : plainTemplateB [] [ffUsage] = true := by decide +kernel

/-! ### The options -/

/-- The spellings and arguments of an option can be shown. -/
def plainOptionB (name : Str) : Bool :=
  (name.all fun c => decide (c ≠ '\n' ∧ c ≠ '"' ∧ c ≠ '\\')) && !hasDouble (name ++ [' ']) && (name.head?.any fun c => decide (c = '-' ∨ c = '<'))

theorem hasDouble_append {a b : Str} (h : hasDouble b = true) : hasDouble (a ++ b) = true := by
  induction a with
  | nil => exact h
  | cons c a ih =>
    cases hx : a ++ b with
    | nil => rw [hx] at ih; exact absurd ih (by decide)
    | cons d s =>
      rw [List.cons_append, hx]
      rw [hx] at ih
      simp [hasDouble, ih]

theorem splitDouble_append : ∀ {a b : Str}, hasDouble (a ++ [' ']) = false → splitDouble (a ++ (' ' :: ' ' :: b)) = (a, b)
  | [], b, _ => by simp [splitDouble]
  | [c], b, h => by
    have hc : ¬ (c = ' ' ∧ ' ' = ' ') := fun e => by rw [e.1] at h; exact absurd h (by decide)
    show splitDouble (c :: ' ' :: ' ' :: b) = _
    rw [splitDouble, if_neg hc]
    simp [splitDouble]
  | c :: d :: a, b, h => by
    simp only [List.cons_append, hasDouble, Bool.or_eq_false_iff, Bool.and_eq_false_iff, decide_eq_false_iff_not] at h
    have ih := splitDouble_append (a := d :: a) (b := b) h.2
    simp only [List.cons_append] at ih ⊢
    rw [splitDouble, if_neg (fun e => h.1.elim (· e.1) (· e.2)), ih]

/-- The line of an option. -/
theorem option_line {K : CharKinds} (hK : Blanks K) {name help : Str} (hn : plainOptionB name = true) (hh : PlainHelp K help) :
    rstripK K ("    ".toList ++ name ++ "  ".toList ++ help) = "    ".toList ++ (name ++ ' ' :: ' ' :: rstripK K help) ∧
    lstripK K ("    ".toList ++ (name ++ ' ' :: ' ' :: rstripK K help)) = name ++ ' ' :: ' ' :: rstripK K help := by
  obtain ⟨hone, c, hc, -, -⟩ := hh
  simp only [plainOptionB, Bool.and_eq_true] at hn
  obtain ⟨-, hhead⟩ := hn
  have hne : rstripK K help ≠ [] := by
    intro e
    rw [rstripK_blank] at e
    have : lstripK K help = [] := lstripK_nil.2 (List.all_eq_true.1 e)
    rw [this] at hc; cases hc
  constructor
  · obtain ⟨t, h1, h2, h3⟩ := rstripK_spec K help
    obtain ⟨w, x, hw, hx⟩ := h3.resolve_left hne
    have e : "    ".toList ++ name ++ "  ".toList ++ help = ("    ".toList ++ (name ++ ' ' :: ' ' :: w)) ++ ([x] ++ t) := by
      conv => lhs; rw [h1, hw]
      simp
    rw [e, hw]
    unfold rstripK
    rw [List.reverse_append, List.reverse_append, List.append_assoc, List.dropWhile_append_of_pos (fun y hy => h2 y (List.mem_reverse.1 hy))]
    show (List.dropWhile K.space (x :: _)).reverse = _
    rw [List.dropWhile_cons_of_neg (by simp [hx])]
    simp
  · unfold lstripK
    rw [List.dropWhile_append_of_pos (by intro y hy; simp at hy; subst hy; exact hK.blank)]
    cases name with
    | nil => simp at hhead
    | cons a name =>
      have : K.space a = false := by
        simp only [List.head?_cons, Option.any_some, decide_eq_true_eq] at hhead
        rcases hhead with rfl | rfl
        · exact hK.printable _ (by decide) (by decide)
        · exact hK.printable _ (by decide) (by decide)
      rw [List.cons_append, List.dropWhile_cons_of_neg (by simp [this])]

/-- A name of a group that can be shown. -/
def plainGroupB (name : Str) : Bool :=
  (name.all fun c => decide (c ≠ '\n' ∧ c ≠ '\\')) && !hasDouble (name ++ [':']) && name.head?.any Char.isAlpha

/-- The items can be shown. -/
def plainItem (K : CharKinds) : HelpItem → Prop
  | .group name => plainGroupB name = true
  | .option strings action metavar help => plainOptionB (formatOption strings action (optionMetavar strings action metavar)) = true ∧ PlainHelp K help

theorem alpha_space {K : CharKinds} (hK : Blanks K) {c : Char} (h : c.isAlpha = true) : K.space c = false := by
  simp only [Char.isAlpha, Char.isUpper, Char.isLower, Bool.or_eq_true, Bool.and_eq_true, decide_eq_true_eq] at h
  have : 65 ≤ c.toNat ∧ c.toNat < 127 := by
    rcases h with h | h
    · have h1 := UInt32.le_iff_toNat_le.1 h.1
      have h2 := UInt32.le_iff_toNat_le.1 h.2
      have h3 : 'A'.val.toNat = 65 := by decide
      have h4 : 'Z'.val.toNat = 90 := by decide
      show 65 ≤ c.val.toNat ∧ c.val.toNat < 127
      omega
    · have h1 := UInt32.le_iff_toNat_le.1 h.1
      have h2 := UInt32.le_iff_toNat_le.1 h.2
      have h3 : 'a'.val.toNat = 97 := by decide
      have h4 : 'z'.val.toNat = 122 := by decide
      show 65 ≤ c.val.toNat ∧ c.val.toNat < 127
      omega
  exact hK.printable c (by omega) this.2

/-- The line of a group. -/
theorem group_line {K : CharKinds} (hK : Blanks K) {name : Str} (hn : plainGroupB name = true) :
    rstripK K ("    ".toList ++ name ++ [':']) = "    ".toList ++ name ++ [':'] ∧ lstripK K ("    ".toList ++ name ++ [':']) = name ++ [':'] := by
  simp only [plainGroupB, Bool.and_eq_true] at hn
  constructor
  · unfold rstripK
    rw [List.reverse_append]
    show (List.dropWhile K.space (':' :: _)).reverse = _
    rw [List.dropWhile_cons_of_neg (by simp [hK.printable ':' (by decide) (by decide)])]
    simp
  · unfold lstripK
    rw [List.append_assoc, List.dropWhile_append_of_pos (by intro y hy; simp at hy; subst hy; exact hK.blank)]
    cases name with
    | nil => simp at hn
    | cons a name =>
      have : K.space a = false := alpha_space hK (by simpa using hn.2)
      rw [List.cons_append, List.dropWhile_cons_of_neg (by simp [this])]

/-- The line of an item, without white space at the end. -/
def itemLine (K : CharKinds) : HelpItem → Str
  | .group name => "    ".toList ++ name ++ [':']
  | .option strings action metavar help => "    ".toList ++ (formatOption strings action (optionMetavar strings action metavar) ++ ' ' :: ' ' :: rstripK K help)

/-- Each item is a paragraph. -/
theorem help_paragraphs {K : CharKinds} (hK : Blanks K) : ∀ (items : List HelpItem) (cur : Nat) (text : Str), (text = [] ∨ 0 < cur) → (∀ i ∈ items, plainItem K i) →
    ∀ p ∈ wrapFrom K cur text (manpageHelp items), p = text ∨ p = [] ∨ ∃ i ∈ items, p = itemLine K i := by
  intro items
  induction items with
  | nil =>
    intro cur text _ _ p hp
    simp only [manpageHelp, List.flatMap_nil, wrapFrom] at hp
    split at hp
    · simp at hp
    · simp only [List.mem_singleton] at hp; exact .inl hp
  | cons i items ih =>
    intro cur text ht hi p hp
    have hrest : ∀ p ∈ wrapFrom K 4 (itemLine K i) (manpageHelp items), p = [] ∨ ∃ j ∈ i :: items, p = itemLine K j := by
      intro p hp
      rcases ih 4 (itemLine K i) (.inr (by omega)) (fun j hj => hi j (List.mem_cons_of_mem _ hj)) p hp with h | h | ⟨j, hj, h⟩
      · exact .inr ⟨i, by simp, h⟩
      · exact .inl h
      · exact .inr ⟨j, List.mem_cons_of_mem _ hj, h⟩
    have hfin : p = text ∨ p = [] ∨ p ∈ wrapFrom K 4 (itemLine K i) (manpageHelp items) → p = text ∨ p = [] ∨ ∃ j ∈ i :: items, p = itemLine K j := by
      rintro (h | h | h)
      · exact .inl h
      · exact .inr (.inl h)
      · exact .inr (hrest p h)
    have hmem : ∀ t : Str, p ∈ (if t = [] then ([] : List Str) else [t]) → p = t := by
      intro t h
      split at h
      · simp at h
      · simpa using h
    have hplain := hi i (by simp)
    cases i with
    | group name =>
      obtain ⟨h1, h2⟩ := group_line hK hplain
      have hg : ∀ t : Str, p ∈ wrapFrom K cur [] (("    ".toList ++ name ++ [':']) :: manpageHelp items) → p = [] ∨ p ∈ wrapFrom K 4 (itemLine K (.group name)) (manpageHelp items) := by
        intro t hp
        have h4 : (if "    ".toList ++ name ++ [':'] = [] then cur else indentOf K ("    ".toList ++ name ++ [':'])) = 4 := by
          rw [if_neg (by simp)]
          unfold indentOf
          rw [h2]
          simp
        unfold wrapFrom at hp
        simp only [h1, h4, if_true, List.nil_append] at hp
        split at hp
        · rw [List.mem_cons] at hp; exact hp
        · exact .inr hp
      have hl : manpageHelp (.group name :: items) = [] :: ("    ".toList ++ name ++ [':']) :: manpageHelp items := rfl
      rw [hl] at hp
      unfold wrapFrom at hp
      have hr : rstripK K [] = [] := rfl
      simp only [hr, if_true] at hp
      refine hfin ?_
      split at hp
      · rw [List.mem_append, List.mem_cons] at hp
        rcases hp with hp | hp | hp
        · exact .inl (hmem _ hp)
        · exact .inr (.inl hp)
        · exact .inr (hg [] hp)
      · rename_i hn
        have hcur : ¬ 0 < cur := by
          intro h
          refine hn ?_
          simp [newParagraph, indentOf, h]
        have ht' := ht.resolve_right hcur
        rw [ht', if_pos rfl] at hp
        exact .inr (hg [] hp)
    | option strings action metavar help =>
      obtain ⟨h1, h2⟩ := option_line hK hplain.1 hplain.2
      have hl : manpageHelp (.option strings action metavar help :: items) =
          ("    ".toList ++ formatOption strings action (optionMetavar strings action metavar) ++ "  ".toList ++ help) :: manpageHelp items := rfl
      rw [hl] at hp
      unfold wrapFrom at hp
      have h4 : (if itemLine K (.option strings action metavar help) = [] then cur else indentOf K (itemLine K (.option strings action metavar help))) = 4 := by
        rw [if_neg (by simp [itemLine])]
        unfold indentOf
        show _ - (lstripK K ("    ".toList ++ (_ ++ ' ' :: ' ' :: rstripK K help))).length = 4
        rw [h2]
        simp [itemLine]
        omega
      have hn : newParagraph K cur (itemLine K (.option strings action metavar help)) = true := by
        unfold newParagraph
        show (_ || _ || hasDouble (lstripK K ("    ".toList ++ (_ ++ ' ' :: ' ' :: rstripK K help)))) = true
        rw [h2, hasDouble_append (by simp [hasDouble]), Bool.or_true]
      have h1' : rstripK K ("    ".toList ++ formatOption strings action (optionMetavar strings action metavar) ++ "  ".toList ++ help) = itemLine K (.option strings action metavar help) := h1
      simp only [h1', h4, hn, if_true] at hp
      rw [List.mem_append, List.mem_cons] at hp
      refine hfin ?_
      rcases hp with hp | hp | hp
      · exact .inl (hmem _ hp)
      · exact .inr (.inl hp)
      · exact .inr (.inr hp)

theorem isMarker_head {K : CharKinds} {s : Str} {c : Char} (h : (lstripK K s).head? = some c) (hc : c ≠ ':') : isMarker K s = false := by
  unfold isMarker
  rw [Bool.eq_false_iff]
  intro h'
  rw [marker_iff] at h'
  obtain ⟨t, ht⟩ := h'
  rw [ht] at h
  simp at h
  exact hc h.symm

theorem dollar_head {s : Str} {c : Char} (h : s.head? = some c) (hc : c ≠ '$') : startsWith s ['$'] = false := by
  cases s with
  | nil => rfl
  | cons a s => simp at h; subst h; simp [startsWith, List.isPrefixOf]; exact fun e => hc e.symm

theorem markersAlone_none {K : CharKinds} : ∀ {lines : List Str} {before : Bool}, (∀ l ∈ lines, isMarker K l = false) → markersAlone K before lines = true
  | [], _, _ => rfl
  | l :: ls, before, h => by
    simp only [markersAlone, h l (by simp), Bool.not_false, Bool.true_or, Bool.true_and]
    exact markersAlone_none fun x hx => h x (List.mem_cons_of_mem _ hx)

/-- The first character of a line of an item. -/
theorem itemLine_head {K : CharKinds} (hK : Blanks K) {i : HelpItem} (hi : plainItem K i) :
    ∃ c, (lstripK K (itemLine K i)).head? = some c ∧ c ≠ ':' ∧ c ≠ '$' ∧ c ≠ '.' ∧ c ≠ '\'' := by
  cases i with
  | group name =>
    have h2 := (group_line hK hi).2
    simp only [plainItem, plainGroupB, Bool.and_eq_true] at hi
    cases name with
    | nil => simp at hi
    | cons a name =>
      refine ⟨a, by show (lstripK K ("    ".toList ++ (a :: name) ++ [':'])).head? = _; rw [h2]; rfl, ?_⟩
      have ha : a.isAlpha = true := by simpa using hi.2
      refine ⟨?_, ?_, ?_, ?_⟩ <;> rintro rfl <;> exact absurd ha (by decide)
  | option strings action metavar help =>
    have h2 := (option_line hK hi.1 hi.2).2
    have hn := hi.1
    simp only [plainOptionB, Bool.and_eq_true] at hn
    cases e : formatOption strings action (optionMetavar strings action metavar) with
    | nil => rw [e] at hn; simp at hn
    | cons a name =>
      refine ⟨a, ?_, ?_⟩
      · show (lstripK K ("    ".toList ++ (formatOption strings action (optionMetavar strings action metavar) ++ ' ' :: ' ' :: rstripK K help))).head? = _
        rw [h2, e]; rfl
      · rw [e] at hn
        have ha : a = '-' ∨ a = '<' := by simpa using hn.2
        rcases ha with rfl | rfl <;> decide

theorem item_rstrip {K : CharKinds} (hK : Blanks K) {i : HelpItem} (hi : plainItem K i) : rstripK K (itemLine K i) = itemLine K i := by
  cases i with
  | group name => exact (group_line hK hi).1
  | option strings action metavar help =>
    have := (option_line hK hi.1 hi.2).1
    show rstripK K ("    ".toList ++ (_ ++ ' ' :: ' ' :: rstripK K help)) = "    ".toList ++ (_ ++ ' ' :: ' ' :: rstripK K help)
    rw [← this, rstripK_idem]

theorem help_plain {K : CharKinds} {t : Str} (h : PlainHelp K t) : PlainText K (rstripK K t) := by
  obtain ⟨hone, c, hc, h1, h2⟩ := h
  obtain ⟨u, hu, hsp, -⟩ := rstripK_spec K t
  have hne : lstripK K (rstripK K t) ≠ [] := by
    intro e
    rw [lstripK_nil] at e
    have : lstripK K t = [] := by
      rw [lstripK_nil]
      intro x hx
      rw [hu, List.mem_append] at hx
      exact hx.elim (e x) (hsp x)
    rw [this] at hc; cases hc
  refine ⟨fun hm => hone.2 (by rw [hu]; exact List.mem_append_left _ hm), ?_⟩
  rw [splitNN_single fun hm => hone.1 (by rw [hu]; exact List.mem_append_left _ hm)]
  intro p hp x hx
  simp only [List.mem_singleton] at hp
  subst hp
  have e : lstripK K t = lstripK K (rstripK K t) ++ u := by
    have := lstripK_append (t := u) hne
    rwa [← hu] at this
  have hx' : (lstripK K (rstripK K t)).head? = some x := hx
  have : x = c := by
    rw [e, List.head?_append, hx'] at hc
    simpa using hc
  rw [this]; exact ⟨h1, h2⟩

theorem item_plain {K : CharKinds} (hK : Blanks K) {i : HelpItem} (hi : plainItem K i) : PlainParagraph K (itemLine K i) := by
  obtain ⟨c, hc, h1, h2, h3, h4⟩ := itemLine_head hK hi
  unfold PlainParagraph
  split
  · trivial
  · rw [if_neg (by rw [dollar_head hc h2]; decide)]
    cases i with
    | group name =>
      have hl := (group_line hK hi).2
      simp only [plainItem, plainGroupB, Bool.and_eq_true, List.all_eq_true] at hi
      have hd : hasDouble (lstripK K (itemLine K (.group name))) = false := by
        show hasDouble (lstripK K ("    ".toList ++ name ++ [':'])) = false
        rw [hl]; simpa using hi.1.2
      rw [if_neg (by rw [hd]; decide)]
      have hone : OneLine (itemLine K (.group name)) := by
        refine ⟨fun hm => ?_, fun hm => ?_⟩ <;> simp only [itemLine, List.mem_append] at hm <;> rcases hm with (hm | hm) | hm
        · exact absurd hm (by decide)
        · exact (of_decide_eq_true (hi.1.1 _ hm)).1 rfl
        · exact absurd hm (by decide)
        · exact absurd hm (by decide)
        · exact (of_decide_eq_true (hi.1.1 _ hm)).2 rfl
        · exact absurd hm (by decide)
      refine ⟨hone.2, ?_⟩
      rw [splitNN_single hone.1]
      intro p hp x hx
      simp only [List.mem_singleton] at hp
      subst hp
      have : some c = some x := hc.symm.trans hx
      cases this
      exact ⟨h3, h4⟩
    | option strings action metavar help =>
      have hl := (option_line hK hi.1 hi.2).2
      have hl' : lstripK K (itemLine K (.option strings action metavar help)) = formatOption strings action (optionMetavar strings action metavar) ++ ' ' :: ' ' :: rstripK K help := hl
      have hn := hi.1
      simp only [plainOptionB, Bool.and_eq_true, List.all_eq_true] at hn
      rw [hl', if_pos (hasDouble_append (by simp [hasDouble])), splitDouble_append (by simpa using hn.1.2)]
      exact ⟨⟨fun e => (of_decide_eq_true (hn.1.1 _ e)).1 rfl, fun e => (of_decide_eq_true (hn.1.1 _ e)).2.1 rfl, fun e => (of_decide_eq_true (hn.1.1 _ e)).2.2 rfl⟩, help_plain hi.2⟩

theorem manpageHelp_line {K : CharKinds} (hK : Blanks K) {items : List HelpItem} (hi : ∀ i ∈ items, plainItem K i) {l : Str} (h : l ∈ manpageHelp items) : isMarker K l = false := by
  obtain ⟨i, hmem, hl⟩ := List.mem_flatMap.1 h
  have hp := hi i hmem
  obtain ⟨c, hc, hne, -⟩ := itemLine_head hK hp
  cases i with
  | group name =>
    simp only [List.mem_cons, List.not_mem_nil, or_false] at hl
    rcases hl with rfl | rfl
    · rfl
    · exact isMarker_head hc hne
  | option strings action metavar help =>
    simp only [List.mem_singleton] at hl
    subst hl
    rw [← isMarker_rstrip hK, (option_line hK hp.1 hp.2).1]
    exact isMarker_head hc hne

/-- The options can be shown. -/
theorem manpageHelp_plain {K : CharKinds} (hK : Blanks K) (inc : Str → Option (List Str)) {items : List HelpItem} (hi : ∀ i ∈ items, plainItem K i) :
    PlainManual K inc 1 (manpageHelp items) := by
  refine ⟨markersAlone_none fun l hl => manpageHelp_line hK hi hl, fun p hp => ?_⟩
  have hnil : isMarker K [] = false := rfl
  have hpn : PlainParagraph K [] := by
    unfold PlainParagraph
    rw [if_neg (by decide), if_neg (by simp [lstripK, startsWith]), if_neg (by simp [lstripK, hasDouble])]
    exact plain_nil K
  rcases help_paragraphs hK items 0 [] (.inl rfl) hi p hp with rfl | rfl | ⟨i, hmem, rfl⟩
  · rw [if_neg (by rw [hnil]; decide)]; exact hpn
  · rw [if_neg (by rw [hnil]; decide)]; exact hpn
  · obtain ⟨c, hc, hne, -⟩ := itemLine_head hK (hi i hmem)
    rw [if_neg (by rw [isMarker_head hc hne]; decide), item_rstrip hK (hi i hmem)]
    exact item_plain hK (hi i hmem)

theorem manpageHelp_text {K : CharKinds} (hK : Blanks K) {items : List HelpItem} : (manpageHelp items).flatMap (textChars K) = optionsShown K items := by
  unfold manpageHelp optionsShown
  rw [List.flatMap_assoc]
  congr 1
  funext i
  have hb : textChars K "    ".toList = [] := textChars_blank (by intro c hc; simp at hc; subst hc; exact hK.blank)
  have hb2 : textChars K "  ".toList = [] := textChars_blank (by intro c hc; simp at hc; subst hc; exact hK.blank)
  have hcol : textChars K [':'] = [':'] := by simp [textChars, Unseen, hK.printable ':' (by decide) (by decide)]
  cases i with
  | group name =>
    simp only [List.flatMap_cons, List.flatMap_nil, List.append_nil]
    rw [textChars_append, textChars_append, hb, hcol]; rfl
  | option strings action metavar help =>
    simp only [List.flatMap_cons, List.flatMap_nil, List.append_nil]
    rw [textChars_append, textChars_append, textChars_append, hb, hb2]; simp

/-! ### The manual of ff -/

theorem asciiBlanks : Blanks asciiKinds := asciiKinds_blanks

theorem ffHelp_check (env : ArgEnv) : ((ffOptions env).all fun o =>
    (ffGroup o).all (fun | .group name => plainGroupB name | .option .. => false) &&
      plainOptionB (formatOption o.strings o.action (optionMetavar o.strings o.action (ffMetavar o)))) = true := by
  obtain ⟨debug, cpu, cache, noColor⟩ := env
  cases debug <;> rfl

theorem ffHelp_plain {env : ArgEnv} {text : ArgOpt → Str} (h : ∀ o ∈ ffOptions env, PlainHelp asciiKinds (text o)) : ∀ i ∈ ffHelp env text, plainItem asciiKinds i := by
  intro i hi
  obtain ⟨o, ho, hi⟩ := List.mem_flatMap.1 hi
  have hc := List.all_eq_true.1 (ffHelp_check env) o ho
  rw [Bool.and_eq_true, List.all_eq_true] at hc
  rw [List.mem_append] at hi
  rcases hi with hi | hi
  · have := hc.1 i hi
    cases i with
    | group name => exact this
    | option => cases this
  · simp only [List.mem_singleton] at hi
    subst hi
    exact ⟨hc.2, h o ho⟩

theorem ffManual_plain {env : ArgEnv} {text : ArgOpt → Str} (h : ∀ o ∈ ffOptions env, PlainHelp asciiKinds (text o)) :
    PlainManual asciiKinds (manualInclude ffUsage (ffHelp env text)) 2 manpageTemplate := by
  refine plainTemplateB_sound template_check fun name hn => ?_
  simp only [List.mem_cons, List.not_mem_nil, or_false] at hn
  rcases hn with rfl | rfl | rfl | rfl
  · exact ⟨[ffUsage], by simp [manualInclude], plainTemplateB_sound usage_check (by simp)⟩
  · exact ⟨_, by simp [manualInclude], manpageHelp_plain asciiBlanks _ (ffHelp_plain h)⟩
  · exact ⟨timePatterns, by simp [manualInclude], plainTemplateB_sound times_check (by simp)⟩
  · exact ⟨exitLines, by simp [manualInclude], plainTemplateB_sound exit_check (by simp)⟩

/-- C112 for help texts that can be shown: the manual of ff can be made and all characters of its template, of the options, of
the patterns and of the exit codes are shown in their order, except for white space and backticks. -/
theorem ffManual_shown {E : HelpEnv} (hE : PlainEnv E) (hk : E.kinds = asciiKinds) {env : ArgEnv} {text : ArgOpt → Str}
    (h : ∀ o ∈ ffOptions env, PlainHelp asciiKinds (text o)) :
    ∃ lines, manualPage E ffUsage (ffHelp env text) manpageTemplate = some lines ∧
      shownChars asciiKinds (seen .start (pageText lines)) = expectedChars asciiKinds (manualInclude ffUsage (ffHelp env text)) 2 manpageTemplate := by
  have := manual_shown (E := E) (by rw [hk]; exact asciiKinds_blanks) (by rw [hk]; exact asciiKinds_digits) hE ffUsage (ffHelp env text)
    (template := manpageTemplate) (by rw [hk]; exact ffManual_plain h)
  rwa [hk] at this

theorem expected_marker {K : CharKinds} {inc : Str → Option (List Str)} {n : Nat} {lines : List Str} {l : Str} (hl : l ∈ lines) (hm : isMarker K l = true) :
    ∃ a b, expectedChars K inc (n + 1) lines = a ++ expectedChars K inc n ((inc ((lstripK K (rstripK K l)).drop 2)).getD []) ++ b := by
  obtain ⟨u, v, rfl⟩ := List.append_of_mem hl
  simp only [expectedChars, List.flatMap_append, List.flatMap_cons, hm, if_true]
  exact ⟨_, _, (List.append_assoc ..).symm⟩

/-- The template includes this. -/
def includedB (name : Str) : Bool := manpageTemplate.any fun l => isMarker asciiKinds l && decide ((lstripK asciiKinds (rstripK asciiKinds l)).drop 2 = name)

set_option maxRecDepth 100000 in
theorem marker_check : (includedB "help".toList && includedB "exit_codes".toList && includedB "time_patterns".toList && includedB "usage".toList) = true := by
  decide +kernel

theorem expected_included {name : Str} (h : includedB name = true) {inc : Str → Option (List Str)} {inner : List Str} (hi : inc name = some inner)
    (hm : ∀ l ∈ inner, isMarker asciiKinds l = false) : ∃ a b, expectedChars asciiKinds inc 2 manpageTemplate = a ++ inner.flatMap (textChars asciiKinds) ++ b := by
  obtain ⟨l, hl, hmk⟩ := List.any_eq_true.1 h
  rw [Bool.and_eq_true, decide_eq_true_eq] at hmk
  obtain ⟨a, b, e⟩ := expected_marker (inc := inc) (n := 1) hl hmk.1
  rw [hmk.2, hi, Option.getD_some] at e
  have hx : expectedChars asciiKinds inc 1 inner = inner.flatMap (textChars asciiKinds) := by
    simp only [expectedChars]
    have : ∀ ls : List Str, (∀ l ∈ ls, isMarker asciiKinds l = false) → (ls.flatMap fun l => if isMarker asciiKinds l = true then [] else textChars asciiKinds l) = ls.flatMap (textChars asciiKinds) := by
      intro ls hls
      induction ls with
      | nil => rfl
      | cons x xs ih => rw [List.flatMap_cons, List.flatMap_cons, ih fun y hy => hls y (List.mem_cons_of_mem _ hy), if_neg (by rw [hls x (by simp)]; decide)]
    exact this _ hm
  exact ⟨a, b, by rw [e, hx]⟩

/-- C112 for such help texts: what the manual shows contains each group, each option with its spellings, argument and help text, in this order. -/
theorem ffManual_options {E : HelpEnv} (hE : PlainEnv E) (hk : E.kinds = asciiKinds) {env : ArgEnv} {text : ArgOpt → Str}
    (h : ∀ o ∈ ffOptions env, PlainHelp asciiKinds (text o)) :
    ∃ lines a b, manualPage E ffUsage (ffHelp env text) manpageTemplate = some lines ∧
      shownChars asciiKinds (seen .start (pageText lines)) = a ++ optionsShown asciiKinds (ffHelp env text) ++ b := by
  obtain ⟨lines, h1, h2⟩ := ffManual_shown hE hk h
  have hc := marker_check
  simp only [Bool.and_eq_true] at hc
  obtain ⟨a, b, e⟩ := expected_included hc.1.1.1 (inc := manualInclude ffUsage (ffHelp env text)) (inner := manpageHelp (ffHelp env text)) (by simp [manualInclude])
    fun l hl => manpageHelp_line asciiKinds_blanks (ffHelp_plain h) hl
  refine ⟨lines, a, b, h1, ?_⟩
  rw [h2, e, manpageHelp_text asciiKinds_blanks]

/-- C112 for such help texts: what the manual shows contains the number and the description of each exit status. -/
theorem ffManual_exit {E : HelpEnv} (hE : PlainEnv E) (hk : E.kinds = asciiKinds) {env : ArgEnv} {text : ArgOpt → Str}
    (h : ∀ o ∈ ffOptions env, PlainHelp asciiKinds (text o)) {status : Nat} {description : Str} (hs : (status, description) ∈ exitCodes) :
    ∃ lines a b, manualPage E ffUsage (ffHelp env text) manpageTemplate = some lines ∧
      shownChars asciiKinds (seen .start (pageText lines)) = a ++ (textChars asciiKinds (Nat.repr status).toList ++ textChars asciiKinds description) ++ b := by
  obtain ⟨lines, h1, h2⟩ := ffManual_shown hE hk h
  have hc := marker_check
  simp only [Bool.and_eq_true] at hc
  obtain ⟨a, b, e⟩ := expected_included hc.1.1.2 (inc := manualInclude ffUsage (ffHelp env text)) (inner := exitLines) (by simp [manualInclude]) (by decide +kernel)
  have hline : "    ".toList ++ (Nat.repr status).toList ++ "  ".toList ++ description ∈ exitLines := List.mem_map.2 ⟨_, hs, rfl⟩
  obtain ⟨u, v, huv⟩ := List.append_of_mem hline
  have hb : textChars asciiKinds "    ".toList = [] := by decide
  have hb2 : textChars asciiKinds "  ".toList = [] := by decide
  refine ⟨lines, a ++ u.flatMap (textChars asciiKinds), v.flatMap (textChars asciiKinds) ++ b, h1, ?_⟩
  rw [h2, e, huv, List.flatMap_append, List.flatMap_cons, textChars_append, textChars_append, textChars_append, hb, hb2]
  simp

/-- C112 for such help texts: what the manual shows contains the usage. -/
theorem ffManual_usage {E : HelpEnv} (hE : PlainEnv E) (hk : E.kinds = asciiKinds) {env : ArgEnv} {text : ArgOpt → Str}
    (h : ∀ o ∈ ffOptions env, PlainHelp asciiKinds (text o)) :
    ∃ lines a b, manualPage E ffUsage (ffHelp env text) manpageTemplate = some lines ∧
      shownChars asciiKinds (seen .start (pageText lines)) = a ++ textChars asciiKinds ffUsage ++ b := by
  obtain ⟨lines, h1, h2⟩ := ffManual_shown hE hk h
  have hc := marker_check
  simp only [Bool.and_eq_true] at hc
  obtain ⟨a, b, e⟩ := expected_included hc.2 (inc := manualInclude ffUsage (ffHelp env text)) (inner := [ffUsage]) (by simp [manualInclude]) (by decide +kernel)
  refine ⟨lines, a, b, h1, ?_⟩
  rw [h2, e]
  simp

/-- C112 for such help texts: what the manual shows contains the pattern of each format for times, with two letters for each number. -/
theorem ffManual_patterns {E : HelpEnv} (hE : PlainEnv E) (hk : E.kinds = asciiKinds) {env : ArgEnv} {text : ArgOpt → Str}
    (h : ∀ o ∈ ffOptions env, PlainHelp asciiKinds (text o)) {p : String}
    (hp : p ∈ ["YY-mm-dd HH:MM:SS", "YY-mm-dd HH:MM", "YYmmddHHMM", "YY-mm-dd", "YYmmdd", "HH:MM:SS", "HH:MM", "HHMM"]) :
    ∃ lines a b, manualPage E ffUsage (ffHelp env text) manpageTemplate = some lines ∧
      shownChars asciiKinds (seen .start (pageText lines)) = a ++ textChars asciiKinds p.toList ++ b := by
  obtain ⟨lines, h1, h2⟩ := ffManual_shown hE hk h
  have hc := marker_check
  simp only [Bool.and_eq_true] at hc
  obtain ⟨a, b, e⟩ := expected_included hc.1.2 (inc := manualInclude ffUsage (ffHelp env text)) (inner := timePatterns) (by simp [manualInclude]) (by decide +kernel)
  have hline : "    ``".toList ++ p.toList ++ "``".toList ∈ timePatterns := by
    rw [timePatterns_eq]
    exact List.mem_flatMap.2 ⟨p, hp, by simp⟩
  obtain ⟨u, v, huv⟩ := List.append_of_mem hline
  have hb : textChars asciiKinds "    ``".toList = [] := by decide
  have hb2 : textChars asciiKinds "``".toList = [] := by decide
  refine ⟨lines, a ++ u.flatMap (textChars asciiKinds), v.flatMap (textChars asciiKinds) ++ b, h1, ?_⟩
  rw [h2, e, huv, List.flatMap_append, List.flatMap_cons, textChars_append, textChars_append, hb, hb2]
  simp

/-- An environment and help texts for which the manual can be shown; and the number of the status that is shown for wrong arguments. -/
example : PlainEnv helpEnv ∧ helpEnv.kinds = asciiKinds ∧ PlainHelp asciiKinds ['F', 'o', 'l', 'l', 'o', 'w', ' ', 'l', 'i', 'n', 'k', 's', '.'] ∧
    (exitCodes.map Prod.fst).contains 2 = true := by
  refine ⟨⟨by decide, by decide⟩, rfl, ⟨by unfold OneLine; decide, 'F', by decide, by decide, by decide⟩, by decide⟩

/-- What is shown of two options: all of it. -/
example : optionsShown asciiKinds [.group ['S', 'e', 'a', 'r', 'c', 'h'], .option [['-', 'H'], ['-', '-', 'h', 'i', 'd', 'e']] .storeTrue none ['N', 'o', ' ', 'h', 'i', 'd', 'd', 'e', 'n', '.']] =
    "Search:-H,--hideNohidden.".toList := by decide +kernel

end FF
