import Verif.Model.HideWarning
import Verif.Spec.HideWarning
import Verif.Props.Look
import Verif.Props.Part
import Verif.Props.Message
/-! Property C129: hidden files and `-H`. -/
namespace FF
open Spec

/-! ### Which tests are seen -/

section
variable {T : Type}

theorem testsOfList_append (a b : List (Node T)) : testsOfList (a ++ b) = testsOfList a ++ testsOfList b := by
  induction a with
  | nil => simp [testsOfList]
  | cons x a ih => simp [testsOfList, ih]

/-- The tests of the sequences. -/
def testsOfSeqs (seqs : List (List (Node T))) : List T := testsOfList (seqs.map Node.and)

theorem testsOfSeqs_nil : testsOfSeqs ([[]] : List (List (Node T))) = [] := by simp [testsOfSeqs, testsOfList, testsOfNode]

theorem testsOfSeqs_or (seqs : List (List (Node T))) : testsOfSeqs (seqs ++ [[]]) = testsOfSeqs seqs := by
  simp [testsOfSeqs, testsOfList_append, testsOfList, testsOfNode]

theorem testsOfSeqs_append (x : Node T) : ∀ {seqs : List (List (Node T))}, seqs ≠ [] → testsOfSeqs (appendLast x seqs) = testsOfSeqs seqs ++ testsOfNode x
  | [], h => absurd rfl h
  | [l], _ => by simp [testsOfSeqs, appendLast, testsOfList, testsOfNode, testsOfList_append]
  | l :: m :: ls, _ => by
    have := testsOfSeqs_append x (seqs := m :: ls) (by simp)
    simp only [testsOfSeqs, appendLast, List.map_cons, testsOfList] at this ⊢
    rw [this]
    simp

theorem appendLast_ne_nil (x : Node T) : ∀ {seqs : List (List (Node T))}, seqs ≠ [] → appendLast x seqs ≠ []
  | [], h => absurd rfl h
  | [l], _ => by simp [appendLast]
  | l :: m :: ls, _ => by simp [appendLast]

/-- The tests are those of the words that have been read, and all of these are tests. -/
def ReadFrom (pt : Str → Except PErr T) (used : List Str) (out : List T) : Prop :=
  (∀ x, x ∈ out ↔ ∃ w ∈ used, Word w ∧ pt w = .ok x) ∧ ∀ w ∈ used, Word w → ∃ x, pt w = .ok x

theorem ReadFrom.skip {pt : Str → Except PErr T} {t : Str} (h : ¬ Word t) {used : List Str} {out : List T} (hr : ReadFrom pt used out) : ReadFrom pt (t :: used) out := by
  refine ⟨fun x => ?_, fun w hw hww => ?_⟩
  · rw [hr.1 x]
    constructor
    · rintro ⟨w, h1, h2⟩; exact ⟨w, List.mem_cons_of_mem _ h1, h2⟩
    · rintro ⟨w, h1, h2⟩
      rcases List.mem_cons.1 h1 with rfl | h1
      · exact absurd h2.1 h
      · exact ⟨w, h1, h2⟩
  · rcases List.mem_cons.1 hw with rfl | hw
    · exact absurd hww h
    · exact hr.2 w hw hww

theorem ReadFrom.app {pt : Str → Except PErr T} {a b : List Str} {x y : List T} (h1 : ReadFrom pt a x) (h2 : ReadFrom pt b y) : ReadFrom pt (a ++ b) (x ++ y) := by
  refine ⟨fun z => ?_, fun w hw hww => (List.mem_append.1 hw).elim (fun h => h1.2 w h hww) fun h => h2.2 w h hww⟩
  rw [List.mem_append, h1.1 z, h2.1 z]
  constructor
  · rintro (⟨w, h, h'⟩ | ⟨w, h, h'⟩)
    · exact ⟨w, List.mem_append_left _ h, h'⟩
    · exact ⟨w, List.mem_append_right _ h, h'⟩
  · rintro ⟨w, h, h'⟩
    rcases List.mem_append.1 h with h | h
    · exact .inl ⟨w, h, h'⟩
    · exact .inr ⟨w, h, h'⟩

theorem ReadFrom.one {pt : Str → Except PErr T} {t : Str} {x : T} (h : Word t) (hx : pt t = .ok x) : ReadFrom pt [t] [x] := by
  refine ⟨fun y => ?_, fun w hw _ => ⟨x, by rw [List.mem_singleton.1 hw]; exact hx⟩⟩
  simp only [List.mem_singleton, exists_eq_left, h, hx, true_and, Except.ok.injEq]
  exact eq_comm

theorem ReadFrom.none {pt : Str → Except PErr T} : ReadFrom pt [] [] := ⟨by intro x; simp, by simp⟩

theorem PS_tests (pt : Str → Except PErr T) : ∀ n ts seqs rest out, ts.length ≤ n → seqs ≠ [] → PS pt ts seqs = .ok (rest, out) →
    ∃ used new, ts = used ++ rest ∧ testsOfSeqs out = testsOfSeqs seqs ++ new ∧ ReadFrom pt used new ∧ ∀ c r, rest = c :: r → isClose c = true := by
  intro n
  induction n with
  | zero =>
    intro ts seqs rest out h hne
    cases ts with
    | nil => rw [PS_nil]; split
             · simp
             · intro he; cases he; exact ⟨[], [], rfl, by simp, .none, by simp⟩
    | cons t ts => simp at h
  | succ n ih =>
    intro ts seqs rest out h hne
    have hsub : ∀ mk ts', (∀ sub : List (List (Node T)), testsOfNode (mk sub) = testsOfSeqs sub) → ts'.length ≤ n → afterSub pt mk seqs (PS pt ts' [[]]) = .ok (rest, out) →
        ∃ used new, ts' = used ++ rest ∧ testsOfSeqs out = testsOfSeqs seqs ++ new ∧ ReadFrom pt used new ∧ ∀ c r, rest = c :: r → isClose c = true := by
      intro mk ts' hmk hl
      unfold afterSub
      split
      · simp
      · simp
      · rename_i c ts2 sub heq
        have h2 := PS_length heq
        intro he
        obtain ⟨u1, n1, e1, f1, r1, z1⟩ := ih _ _ _ _ hl (by simp) heq
        obtain ⟨u2, n2, e2, f2, r2, z2⟩ := ih _ _ _ _ (by simp at h2; omega) (appendLast_ne_nil _ hne) he
        have hc : ¬ Word c := by
          have := z1 c ts2 rfl
          intro hw
          rw [(word_iff.1 hw).2.1] at this
          cases this
        refine ⟨u1 ++ c :: u2, n1 ++ n2, by rw [e1, e2]; simp, ?_, r1.app (r2.skip hc), z2⟩
        rw [f2, testsOfSeqs_append _ hne, hmk, f1, testsOfSeqs_nil]
        simp
    have hk : ∀ {t : Str}, (isOpen t = true ∨ isAnd t = true ∨ isOr t = true ∨ isNot t = true) → ¬ Word t := by
      intro t ht hw
      obtain ⟨g1, g2, g3, g4, g5⟩ := word_iff.1 hw
      simp_all
    cases ts with
    | nil => rw [PS_nil]; split
             · simp
             · intro he; cases he; exact ⟨[], [], rfl, by simp, .none, by simp⟩
    | cons t ts =>
      simp only [List.length_cons] at h
      rcases token_cases t with h1 | h1 | h1 | h1 | h1 | h1
      · rw [PS_open h1]
        intro he
        obtain ⟨u, nw, e, f, r, z⟩ := hsub _ _ (fun sub => by simp [testsOfNode, testsOfSeqs]) (by omega) he
        exact ⟨t :: u, nw, by rw [e]; rfl, f, r.skip (hk (.inl h1)), z⟩
      · rw [PS_close h1]
        split
        · simp
        · intro he; cases he; exact ⟨[], [], rfl, by simp, .none, fun c r hc => by cases hc; exact h1⟩
      · rw [PS_and h1]
        intro he
        obtain ⟨u, nw, e, f, r, z⟩ := ih _ _ _ _ (by omega) hne he
        exact ⟨t :: u, nw, by rw [e]; rfl, f, r.skip (hk (.inr (.inl h1))), z⟩
      · rw [PS_or h1]
        intro he
        obtain ⟨u, nw, e, f, r, z⟩ := ih _ _ _ _ (by omega) (by simp) he
        exact ⟨t :: u, nw, by rw [e]; rfl, by rw [f, testsOfSeqs_or], r.skip (hk (.inr (.inr (.inl h1)))), z⟩
      · cases ts with
        | nil => rw [PS_not_nil h1]; simp
        | cons t2 ts =>
          simp only [List.length_cons] at h
          have hn := hk (.inr (.inr (.inr h1)))
          by_cases h2 : isOpen t2 = true
          · rw [PS_not_open h1 h2]
            intro he
            obtain ⟨u, nw, e, f, r, z⟩ := hsub _ _ (fun sub => by simp [testsOfNode, testsOfSeqs]) (by omega) he
            exact ⟨t :: t2 :: u, nw, by rw [e]; rfl, f, (r.skip (hk (.inl h2))).skip hn, z⟩
          · by_cases h3 : Word t2
            · rw [PS_not_word h1 h3]
              split
              · simp
              · rename_i x hx
                intro he
                obtain ⟨u, nw, e, f, r, z⟩ := ih _ _ _ _ (by omega) (appendLast_ne_nil _ hne) he
                refine ⟨t :: t2 :: u, x :: nw, by rw [e]; rfl, ?_, ((ReadFrom.one h3 hx).app r).skip hn, z⟩
                rw [f, testsOfSeqs_append _ hne]
                simp [testsOfNode, testsOfList]
            · rw [PS_not_bad h1 (by simpa using h2) h3]; simp
      · rw [PS_word h1]
        split
        · simp
        · rename_i x hx
          intro he
          obtain ⟨u, nw, e, f, r, z⟩ := ih _ _ _ _ (by omega) (appendLast_ne_nil _ hne) he
          refine ⟨t :: u, x :: nw, by rw [e]; rfl, ?_, (ReadFrom.one h1 hx).app r, z⟩
          rw [f, testsOfSeqs_append _ hne]
          simp [testsOfNode]

theorem parse_tests {pt : Str → Except PErr T} {ts : List Str} {seqs : List (List (Node T))} (h : parse pt ts = .ok seqs) : ReadFrom pt ts (testsOfSeqs seqs) := by
  rw [parse_eq] at h
  split at h
  · cases h
  · rename_i s heq
    cases h
    obtain ⟨u, nw, e, f, r, _⟩ := PS_tests pt _ _ _ _ _ (Nat.le_refl _) (by simp) heq
    rw [testsOfSeqs_nil, List.nil_append] at f
    rw [f]
    simpa [e] using r
  · cases h

end

/-! ### What a word is about -/

theorem attrName_word {cc : CharClass} {a : Str} (h : AttrName cc a) : a ≠ [] ∧ ∀ x ∈ a, (cc.word x || x = '.') = true := by
  rcases h with ⟨h1, h2⟩ | ⟨p, n, rfl, h1, h2, h3, h4⟩
  · exact ⟨h1, fun x hx => by simp [h2 x hx]⟩
  · refine ⟨by simp, fun x hx => ?_⟩
    simp only [List.mem_append, List.mem_cons] at hx
    rcases hx with hx | rfl | hx
    · simp [h3 x hx]
    · simp
    · simp [h4 x hx]

/-- The name that a word begins with. -/
def leadingName (cc : CharClass) (w : Str) : Str := (w.dropWhile cc.space).takeWhile fun c => cc.word c || c = '.'

theorem leadingName_eq {cc : CharClass} {sp1 a sp2 op rest : Str} (h1 : Blank cc sp1) (ha : a ≠ []) (hw : ∀ x ∈ a, (cc.word x || x = '.') = true) (h2 : Blank cc sp2)
    (hop : op ∈ operators.map Prod.fst) : leadingName cc (sp1 ++ a ++ sp2 ++ op ++ rest) = a := by
  have hns : ∀ c, cc.space c = true → (cc.word c || c = '.') = false := by
    intro c hc
    have h : cc.word c = false := by
      cases hcw : cc.word c with
      | false => rfl
      | true => rw [cc.word_not_space c hcw] at hc; cases hc
    have : c ≠ '.' := by rintro rfl; rw [cc.space_not_punct '.' (by decide)] at hc; cases hc
    simp [h, this]
  have ho : ∃ o os, op = o :: os ∧ (cc.word o || o = '.') = false := by
    have : ∀ op ∈ operators.map Prod.fst, ∃ o os, op = o :: os ∧ o ∈ ['=', ':', '~', '%', '>', '<', '+', '-'] := by
      intro op hop
      simp only [operators, List.map_cons, List.map_nil, List.mem_cons, List.not_mem_nil, or_false] at hop
      rcases hop with rfl | rfl | rfl | rfl | rfl | rfl | rfl | rfl | rfl | rfl | rfl | rfl <;> exact ⟨_, _, rfl, by decide⟩
    obtain ⟨o, os, rfl, hm⟩ := this op hop
    refine ⟨o, os, rfl, ?_⟩
    have h3 : o ≠ '.' := by rintro rfl; revert hm; decide
    rw [cc.word_not_punct o (by
      simp only [List.mem_cons, List.not_mem_nil, or_false] at hm ⊢
      rcases hm with rfl | rfl | rfl | rfl | rfl | rfl | rfl | rfl <;> simp)]
    simp [h3]
  obtain ⟨x, xs, rfl⟩ : ∃ x xs, a = x :: xs := by
    cases a with
    | nil => exact absurd rfl ha
    | cons x xs => exact ⟨x, xs, rfl⟩
  have hx : cc.space x = false := by
    cases hc : cc.space x with
    | false => rfl
    | true => have := hw x (by simp); rw [hns x hc] at this; cases this
  unfold leadingName
  have e : sp1 ++ (x :: xs) ++ sp2 ++ op ++ rest = sp1 ++ (x :: xs ++ (sp2 ++ op ++ rest)) := by simp
  rw [e, List.dropWhile_append_of_pos h1, List.cons_append, List.dropWhile_cons_of_neg (by simp [hx]), ← List.cons_append, List.takeWhile_append_of_pos hw]
  have : (sp2 ++ op ++ rest).takeWhile (fun c => cc.word c || c = '.') = [] := by
    cases sp2 with
    | nil =>
      obtain ⟨o, os, rfl, hf⟩ := ho
      exact List.takeWhile_cons_of_neg (by simpa using hf)
    | cons y ys => exact List.takeWhile_cons_of_neg (by have := hns y (h2 y (by simp)); simpa using this)
  rw [this, List.append_nil]

theorem hidden_names {cc : CharClass} : ∀ name ∈ ["hide".toList, "hidden".toList, "file.hide".toList, "file.hidden".toList], name ≠ [] ∧ ∀ x ∈ name, (cc.word x || x = '.') = true := by
  have key : ∀ name ∈ ["hide".toList, "hidden".toList, "file.hide".toList, "file.hidden".toList], name ≠ [] ∧ ∀ x ∈ name, x.isAlphanum = true ∨ x = '.' := by decide
  intro name hn
  refine ⟨(key name hn).1, fun x hx => ?_⟩
  rcases (key name hn).2 x hx with h | rfl
  · simp [cc.word_alnum x h]
  · simp

/-- A test has one of these attributes iff its text is about hidden files. -/
theorem about_iff {S : SearchEnv} (hS : S.Ok) {w : Str} {t : Attr × Test} (h : S.parseTest w = .ok t) :
    (t.1.1 = "file".toList ∧ (t.1.2 = "hide".toList ∨ t.1.2 = "hidden".toList)) ↔ AboutHidden S.cc w := by
  unfold SearchEnv.parseTest at h
  split at h
  · cases h
  rename_i e he
  split at h
  · cases h
  rename_i a ha
  split at h
  · cases h
  split at h
  · cases h
  cases h
  simp only
  obtain ⟨sp1, sp2, op, ref, sp3, sp4, b1, b2, _, _, hn, hop, _, _, _, hw⟩ := C05_sound w e he
  have hop' : op ∈ operators.map Prod.fst := List.mem_map.2 ⟨_, hop, rfl⟩
  have hw' : w = sp1 ++ e.attr ++ sp2 ++ op ++ (ref ++ sp3 ++ e.value ++ sp4) := by rw [hw]; simp
  constructor
  · intro hab
    refine ⟨sp1, e.attr, sp2, op, _, b1, b2, ?_, hop', hw'⟩
    rcases hn with ⟨_, hwd⟩ | ⟨p, n, hpn, _, _, hpw, _⟩
    · have hdot : '.' ∉ e.attr := fun hd => by have := hwd _ hd; rw [S.cc.word_not_punct '.' (by decide)] at this; cases this
      obtain ⟨h1, _⟩ := (C49_unqualified S.reg hdot a.1 a.2).1 ha
      rcases hab.2 with h2 | h2 <;> rw [← h1, h2] <;> simp
    · have hdot : '.' ∉ p := fun hd => by have := hpw _ hd; rw [S.cc.word_not_punct '.' (by decide)] at this; cases this
      rw [hpn] at ha ⊢
      obtain ⟨h1, _⟩ := (C49_qualified S.reg hdot a).1 ha
      rw [h1] at hab
      obtain ⟨h2, h3⟩ := hab
      simp only at h2 h3
      rcases h3 with h3 | h3 <;> rw [h2, h3] <;> decide
  · rintro ⟨sp1', name, sp2', op', rest', c1, c2, hname, hop2, hw2⟩
    have e1 := leadingName_eq (rest := ref ++ sp3 ++ e.value ++ sp4) b1 (attrName_word hn).1 (attrName_word hn).2 b2 hop'
    have e2 := leadingName_eq (rest := rest') c1 (hidden_names (cc := S.cc) name hname).1 (hidden_names name hname).2 c2 hop2
    rw [← hw'] at e1
    rw [← hw2, e1] at e2
    rw [e2] at ha
    simp only [List.mem_cons, List.not_mem_nil, or_false] at hname
    rcases hname with rfl | rfl | rfl | rfl
    · rw [(setup_file hS (a := "hide".toList) (ty := .boolean) (by decide) (by decide)).1] at ha; cases ha; exact ⟨rfl, .inl rfl⟩
    · rw [(setup_file hS (a := "hidden".toList) (ty := .boolean) (by decide) (by decide)).1] at ha; cases ha; exact ⟨rfl, .inr rfl⟩
    · obtain ⟨h1, _⟩ := (C49_qualified S.reg (p := "file".toList) (a := "hide".toList) (by decide) a).1 ha
      rw [h1]; exact ⟨rfl, .inl rfl⟩
    · obtain ⟨h1, _⟩ := (C49_qualified S.reg (p := "file".toList) (a := "hidden".toList) (by decide) a).1 ha
      rw [h1]; exact ⟨rfl, .inr rfl⟩

theorem about_word {cc : CharClass} {w : Str} (h : AboutHidden cc w) : Word w := by
  obtain ⟨sp1, name, sp2, op, rest, _, _, hn, ho, rfl⟩ := h
  have h4 : 4 ≤ (sp1 ++ name ++ sp2 ++ op ++ rest).length := by
    have : 4 ≤ name.length := by
      revert name
      decide
    simp only [List.length_append]
    omega
  generalize sp1 ++ name ++ sp2 ++ op ++ rest = w at h4
  rw [word_iff]
  unfold isOpen isClose isAnd isOr isNot
  refine ⟨?_, ?_, ?_, ?_, ?_⟩ <;> rw [← Bool.not_eq_true] <;> intro hc <;> simp only [Bool.or_eq_true, upper] at hc
  · rcases hc with hc | hc <;> (have hc := of_decide_eq_true hc; subst hc; simp at h4)
  · rcases hc with hc | hc <;> (have hc := of_decide_eq_true hc; subst hc; simp at h4)
  all_goals
    have := congrArg List.length (of_decide_eq_true hc)
    simp at this
    omega

/-! ### The warning -/

theorem print_same {ms : List Message} (h : ∀ m ∈ ms, m = hideWarning) : printMessages [] ms = if ms = [] then [] else [hideWarning] := by
  have hrest : ∀ ms : List Message, (∀ m ∈ ms, m = hideWarning) → printMessages ["hide".toList] ms = [] := by
    intro ms
    induction ms with
    | nil => intro _; rfl
    | cons m ms ih =>
      intro h
      have hm := h m (by simp)
      subst hm
      exact ih fun m hm => h m (by simp [hm])
  cases ms with
  | nil => rfl
  | cons m ms =>
    have hm := h m (by simp)
    subst hm
    rw [if_neg (by simp)]
    show hideWarning :: printMessages ["hide".toList] ms = _
    rw [hrest ms fun m hm => h m (by simp [hm])]

theorem good_parse {S : SearchEnv} {ts : List Str} (h : GoodExpression S ts) : ∃ seqs, parse S.parseTest ts = .ok seqs := by
  rcases h with rfl | ⟨f, hf, ha⟩
  · exact ⟨[[]], rfl⟩
  · have := C01_boolean_semantics S.parseTest S.speed ts f hf ha (fun _ => none)
    unfold matcher parserInit at this
    cases hp : parse S.parseTest ts with
    | ok s => exact ⟨s, rfl⟩
    | error e => rw [hp] at this; simp at this

theorem matcherMessages_eq {S : SearchEnv} (hS : S.Ok) {ts : List Str} (h : GoodExpression S ts) (hide : Bool) :
    ((hide = true ∧ ∃ w ∈ ts, AboutHidden S.cc w) → S.matcherMessages hide ts = [hideWarning]) ∧
    (¬ (hide = true ∧ ∃ w ∈ ts, AboutHidden S.cc w) → S.matcherMessages hide ts = []) := by
  obtain ⟨seqs, hp⟩ := good_parse h
  have hr := parse_tests hp
  have he : S.matcherMessages hide ts = printMessages [] ((testsOfSeqs seqs).flatMap (hideMessage hide)) := by
    unfold SearchEnv.matcherMessages; rw [hp]; rfl
  have hall : ∀ m ∈ (testsOfSeqs seqs).flatMap (hideMessage hide), m = hideWarning := by
    intro m hm
    obtain ⟨t, _, ht⟩ := List.mem_flatMap.1 hm
    unfold hideMessage at ht
    split at ht
    · simpa using ht
    · cases ht
  rw [he, print_same hall]
  have key : (testsOfSeqs seqs).flatMap (hideMessage hide) ≠ [] ↔ hide = true ∧ ∃ w ∈ ts, AboutHidden S.cc w := by
    rw [ne_eq, List.flatMap_eq_nil_iff]
    constructor
    · intro hn
      have : ∃ t ∈ testsOfSeqs seqs, hideMessage hide t ≠ [] := Classical.byContradiction fun hc => hn fun t ht =>
        Classical.byContradiction fun hc' => hc ⟨t, ht, hc'⟩
      obtain ⟨t, ht, hm⟩ := this
      obtain ⟨w, hw, _, hpt⟩ := (hr.1 t).1 ht
      unfold hideMessage at hm
      split at hm
      · rename_i hc
        simp only [Bool.and_eq_true, Bool.or_eq_true, decide_eq_true_eq] at hc
        exact ⟨hc.1.1, w, hw, (about_iff hS hpt).1 ⟨hc.1.2, hc.2⟩⟩
      · exact absurd rfl hm
    · rintro ⟨hh, w, hw, hab⟩ hn
      have hx : ∃ x, S.parseTest w = .ok x := hr.2 w hw (about_word hab)
      obtain ⟨x, hx⟩ := hx
      have := hn x ((hr.1 x).2 ⟨w, hw, about_word hab, hx⟩)
      have hc := (about_iff hS hx).2 hab
      unfold hideMessage at this
      rw [if_pos (by simp only [Bool.and_eq_true, Bool.or_eq_true, decide_eq_true_eq]; exact ⟨⟨hh, hc.1⟩, hc.2⟩)] at this
      cases this
  constructor
  · intro hc; rw [if_neg (key.2 hc)]
  · intro hc
    have : ¬ _ := fun hx => hc (key.1 hx)
    rw [if_pos (Classical.not_not.1 this)]

theorem about_leading {cc : CharClass} {w : Str} (h : AboutHidden cc w) : leadingName cc w ∈ ["hide".toList, "hidden".toList, "file.hide".toList, "file.hidden".toList] := by
  obtain ⟨sp1, name, sp2, op, rest, b1, b2, hn, ho, rfl⟩ := h
  rw [leadingName_eq b1 (hidden_names (cc := cc) name hn).1 (hidden_names name hn).2 b2 ho]
  exact hn

theorem depth_not_about {cc : CharClass} {op rest : Str} (ho : op ∈ operators.map Prod.fst) : ¬ AboutHidden cc ("depth".toList ++ op ++ rest) := by
  intro h
  have h1 := about_leading h
  have e := leadingName_eq (cc := cc) (sp1 := []) (a := "depth".toList) (sp2 := []) (rest := rest) (by intro x hx; cases hx) (by decide) (by
    have : ∀ x ∈ "depth".toList, x.isAlphanum = true := by decide
    intro x hx
    simp [cc.word_alnum x (this x hx)]) (by intro x hx; cases hx) ho
  simp only [List.nil_append, List.append_nil] at e
  rw [e] at h1
  revert h1
  decide

theorem rangeTests_not_about {cc : CharClass} (r : Int × Option Int) : ∀ w ∈ rangeTests r, ¬ AboutHidden cc w := by
  intro w hw
  unfold rangeTests at hw
  split at hw
  · rw [List.mem_singleton.1 hw]
    exact depth_not_about (op := ['=']) (by decide)
  · rcases List.mem_cons.1 hw with rfl | hw
    · exact depth_not_about (op := ['+', '=']) (by decide)
    · split at hw
      · rw [List.mem_singleton.1 hw]
        exact depth_not_about (op := ['-', '=']) (by decide)
      · cases hw

theorem rangesTests_not_about {cc : CharClass} : ∀ (l : List (Int × Option Int)), ∀ w ∈ rangesTests l, ¬ AboutHidden cc w
  | [], w, hw => by cases hw
  | [r], w, hw => rangeTests_not_about r w hw
  | r :: r' :: rs, w, hw => by
    rw [rangesTests] at hw
    · rcases List.mem_append.1 hw with hw | hw
      · exact rangeTests_not_about r w hw
      · rcases List.mem_cons.1 hw with rfl | hw
        · intro h; have := about_word h; revert this; unfold Word Kw Open Close; decide
        · exact rangesTests_not_about (r' :: rs) w hw
    · simp

theorem depthTests_about {cc : CharClass} (l : List (Int × Option Int)) (ts : List Str) : (∃ w ∈ depthTests l ts, AboutHidden cc w) ↔ ∃ w ∈ ts, AboutHidden cc w := by
  have hb : ∀ w ∈ ["{{".toList, "}}".toList], ¬ AboutHidden cc w := by
    intro w hw h
    have := about_word h
    simp only [List.mem_cons, List.not_mem_nil, or_false] at hw
    rcases hw with rfl | rfl <;> revert this <;> unfold Word Kw Open Close <;> decide
  unfold depthTests
  constructor
  · rintro ⟨w, hw, h⟩
    rcases List.mem_append.1 hw with hw | hw
    · rcases List.mem_append.1 hw with hw | hw
      · rcases List.mem_cons.1 hw with rfl | hw
        · exact absurd h (hb _ (by simp))
        · exact absurd h (rangesTests_not_about l w hw)
      · exact absurd h (hb w (by rw [List.mem_singleton.1 hw]; simp))
    · split at hw
      · cases hw
      · rcases List.mem_append.1 hw with hw | hw
        · rcases List.mem_cons.1 hw with rfl | hw
          · exact absurd h (hb _ (by simp))
          · exact ⟨w, hw, h⟩
        · exact absurd h (hb w (by rw [List.mem_singleton.1 hw]; simp))
  · rintro ⟨w, hw, h⟩
    refine ⟨w, List.mem_append_right _ ?_, h⟩
    rw [if_neg (by rintro rfl; cases hw)]
    exact List.mem_append_left _ (List.mem_cons_of_mem _ hw)

theorem depthTests_good {S : SearchEnv} (hS : S.Ok) {l : List (Int × Option Int)} (hne : l ≠ []) (hl : GoodRanges l) {ts : List Str} (ht : GoodExpression S ts) :
    GoodExpression S (depthTests l ts) := by
  obtain ⟨d1, d2, d3⟩ := rangesFormula_spec hS hne hl
  have hgrp : Derives .conj ("{{".toList :: rangesTests l ++ ["}}".toList]) (rangesFormula l) := .item (.prim (.group (.inr rfl) (.inr rfl) d1))
  rcases ht with rfl | ⟨f, hf, hfa⟩
  · have e : depthTests l [] = "{{".toList :: rangesTests l ++ ["}}".toList] := by simp [depthTests]
    rw [e]
    exact .inr ⟨_, .single hgrp, d2⟩
  · have e : depthTests l ts = ("{{".toList :: rangesTests l ++ ["}}".toList]) ++ ("{{".toList :: ts ++ ["}}".toList]) := by simp [depthTests, derives_ne_nil hf]
    rw [e]
    refine .inr ⟨_, .single (.conj hgrp (.item (.prim (.group (.inr rfl) (.inr rfl) hf)))), fun t ht => ?_⟩
    simp only [Formula.atoms, List.mem_append] at ht
    exact ht.elim (d2 t) (hfa t)

/-- C129: whenever a search is started with `-H` and one of its tests is about `hide` or `hidden`, there is one warning, and otherwise there is none. The tests of `--exclude`, and
those that stand for `-H` itself or for `--depth`, do not count. -/
theorem C129_warned_partial (W : World) {argv : List Str} {p : Plan} {w : List Warning} (hr : W.main.run argv = .search p w) {ns : NS}
    (hok : parseArgs (ffOptions W.main.arg) W.main.arg.maxCpu argv = .ok ns) {tests dirs : List Str}
    (hd : processDirectories W.main.isdir W.main.cwd (settingsOf ns).fargs.tests (settingsOf ns).dirs = some (tests, dirs)) (hP : Proper W ns tests dirs) :
    ((ns "hide".toList).truthy = true ∧ (∃ w ∈ tests, AboutHidden W.base.cc w) → (W.matcherMessages ns p).map (fun m => (m.category, m.text)) =
      [("WARNING".toList, "file.hide and file.hidden have no effect with -H/--hide".toList)]) ∧
    (¬ ((ns "hide".toList).truthy = true ∧ ∃ w ∈ tests, AboutHidden W.base.cc w) → W.matcherMessages ns p = []) := by
  obtain ⟨tests', dirs', hd', h1, _⟩ := search_plan hr hok
  rw [hd] at hd'
  cases hd'
  have ht : GoodExpression (W.env ns) p.tests ∧ ((∃ w ∈ p.tests, AboutHidden W.base.cc w) ↔ ∃ w ∈ tests, AboutHidden W.base.cc w) := by
    rw [h1, processArguments_tests]
    split
    · rename_i hne
      exact ⟨depthTests_good hP.env hne (depth_good hok) hP.tests, depthTests_about _ _⟩
    · exact ⟨hP.tests, Iff.rfl⟩
  have := matcherMessages_eq hP.env ht.1 (ns "hide".toList).truthy
  rw [show (W.env ns).cc = W.base.cc from rfl, ht.2] at this
  unfold World.matcherMessages
  exact ⟨fun h => by rw [this.1 h]; rfl, this.2⟩

/-! ### What the tests are worth -/

theorem result_found {W : World} {argv : List Str} {ns : NS} {tests dirs : List Str} {es : List EntInfo} (h : Results W argv ns tests dirs es) {i : EntInfo} (hi : i ∈ es) :
    ∃ d ∈ dirs, ∃ q n, Chain (beneath W ns d) (q ++ [n]) ∧ i = found W ns d (q ++ [n]) ∧ Meets (asked W ns) tests i ∧
      ∀ q' n', q' ++ [n'] <+: q ++ [n] → ¬ Avoided (asked W ns) (settingsOf ns) (found W ns d (q' ++ [n'])) n'.name := by
  obtain ⟨d, hd, p, h1, h2, h3, _, h5⟩ := (h.spec.2 i).1 hi
  rcases List.eq_nil_or_concat p with rfl | ⟨q, n, rfl⟩
  · exact absurd h1 (by simp [Chain])
  · rw [List.concat_eq_append] at *
    exact ⟨d, hd, q, n, h1, h2, h3, h5⟩

/-- No name on the way to a result begins with a dot. -/
theorem result_names {W : World} {ns : NS} {d : Str} {p : List FNode} (hh : (ns "hide".toList).truthy = true)
    (h : ∀ q n, q ++ [n] <+: p → ¬ Avoided (asked W ns) (settingsOf ns) (found W ns d (q ++ [n])) n.name) : ∀ n ∈ p, ¬ ∃ r, n.name = '.' :: r := by
  intro n hn hr
  obtain ⟨a, b, rfl⟩ := List.append_of_mem hn
  exact h a n ⟨b, by simp⟩ (.inr (.inr (.inl ⟨hh, hr⟩)))

/-- C129: with `-H`, `hide` is false for everything that is found. -/
theorem C129_hide_partial {W : World} {argv : List Str} {ns : NS} {tests dirs : List Str} {es : List EntInfo} (h : Results W argv ns tests dirs es)
    (hh : (ns "hide".toList).truthy = true) {i : EntInfo} (hi : i ∈ es) : (asked W ns).attr i ("file".toList, "hide".toList) = some (.bool false) := by
  obtain ⟨d, hd, q, n, hc, rfl, _, hav⟩ := result_found h hi
  have hf := goodTree_chain (h.good.trees _ _) hc
  have hn := result_names hh hav n (by simp)
  show (Entry.hide _).map Val.bool = _
  unfold Entry.hide
  rw [found_name (h.good.named d hd).1 (h.good.trees _ _) hc]
  have := (hf n (by simp)).1
  cases hnn : n.name with
  | nil => exact absurd hnn this
  | cons x xs =>
    have : x ≠ '.' := by rintro rfl; exact hn ⟨xs, hnn⟩
    simp [this]

/-- C129: with `-H`, whether `hidden` is true for something that is found depends only on the directory in which the search began. -/
theorem C129_hidden_partial {W : World} {argv : List Str} {ns : NS} {tests dirs : List Str} {es : List EntInfo} (h : Results W argv ns tests dirs es)
    (hh : (ns "hide".toList).truthy = true) {i : EntInfo} (hi : i ∈ es) : ∃ d ∈ dirs, (∃ p, Chain (beneath W ns d) p ∧ i = found W ns d p) ∧
      ((asked W ns).attr i ("file".toList, "hidden".toList) = some (.bool false) ↔ PlainStart W ns d) ∧
      ((asked W ns).attr i ("file".toList, "hidden".toList) = some (.bool true) ↔ ¬ PlainStart W ns d) := by
  obtain ⟨d, hd, q, n, hc, rfl, _, hav⟩ := result_found h hi
  refine ⟨d, hd, ⟨_, hc, rfl⟩, ?_⟩
  have hf := goodTree_chain (h.good.trees _ _) hc
  have hn := result_names hh hav
  have h61 := C61_hidden (beginning W (absolutely ns) d).root (beginning W (absolutely ns) d).absroot (q.map FNode.name) n.name
    (by unfold beginning; split <;> simp [(h.good.named d hd).1]) (fun x hx => by obtain ⟨m, hm, rfl⟩ := List.mem_map.1 hx; exact hf m (by simp [hm])) (hf n (by simp))
  have key : (found W ns d (q ++ [n])).entry.hidden = true ↔ ¬ PlainStart W ns d := by
    have e : (found W ns d (q ++ [n])).entry = mkEntry (beginning W (absolutely ns) d).root (beginning W (absolutely ns) d).absroot (pathOf (q.map FNode.name ++ [n.name])) := by
      unfold found EntInfo.entry entryAt
      simp only [List.map_append, List.map_cons, List.map_nil]
    rw [e, h61]
    unfold PlainStart DotPart
    rw [not_or, Classical.not_not]
    constructor
    · rintro (hx | ⟨c, hc', hr⟩)
      · exact hx
      · exfalso
        rcases List.mem_append.1 hc' with hc' | hc'
        · obtain ⟨m, hm, rfl⟩ := List.mem_map.1 hc'
          exact hn m (by simp [hm]) hr
        · rw [List.mem_singleton.1 hc'] at hr
          exact hn n (by simp) hr
    · exact .inl
  have ea : (asked W ns).attr (found W ns d (q ++ [n])) ("file".toList, "hidden".toList) = some (.bool (found W ns d (q ++ [n])).entry.hidden) := rfl
  rw [ea]
  cases hb : (found W ns d (q ++ [n])).entry.hidden with
  | true => rw [hb] at key; simp only [true_iff] at key; simp [key]
  | false =>
    rw [hb] at key
    have : PlainStart W ns d := Classical.byContradiction fun hc => by have := key.2 hc; cases this
    simp [this]

theorem parse_hidden {S : SearchEnv} (hS : S.Ok) {v : Str} {b : Bool} (hv : v = if b then "yes".toList else "no".toList) :
    S.parseTest ("hidden".toList ++ ['='] ++ v) = .ok (("file".toList, "hidden".toList), { op := ['='], type := .boolean, value := .val (.bool b), ignoreCase := none }) := by
  rw [parse_file hS (a := "hidden".toList) (ty := .boolean) (by decide) (by decide) (by decide) (op := ['=']) (denoted := ['=']) (by decide)
    (by subst hv; cases b <;> decide) (by subst hv; cases b <;> decide)]
  have hi : Ty.input S.tests .boolean v = some (.bool b) := C26_documented hS.low v b (by subst hv; cases b <;> decide)
  unfold createTest
  rw [if_neg (by decide)]
  simp [testInput, hi, Ty.stringType]

theorem holds_hidden {S : SearchEnv} (hS : S.Ok) (i : EntInfo) (b : Bool) :
    (holds S i ("hide=".toList ++ if b then "yes".toList else "no".toList) = true ↔ S.attr i ("file".toList, "hide".toList) = some (.bool b)) ∧
    (holds S i ("hidden=".toList ++ if b then "yes".toList else "no".toList) = true ↔ S.attr i ("file".toList, "hidden".toList) = some (.bool b)) := by
  constructor
  · rw [← outcome_bool hS (a := "hide".toList) (by decide) (by decide) i b]
    unfold holds
    rw [show "hide=".toList = "hide".toList ++ ['='] from by decide, parse_bool hS (a := "hide".toList) (by decide) (b := b) rfl]
    simp
  · rw [← outcome_bool hS (a := "hidden".toList) (by decide) (by decide) i b]
    unfold holds
    rw [show "hidden=".toList = "hidden".toList ++ ['='] from by decide, parse_hidden hS (b := b) rfl]
    simp

/-- C129: with `-H`, to ask for `hide=no` in addition has no effect, and neither has `hidden=no` if no directory in which the search begins has a part that begins with a dot. -/
theorem C129_no_effect_partial {W : World} {argv argv' : List Str} {ns ns' : NS} {tests tests' dirs : List Str} {es es' : List EntInfo} {f : Formula} {t : Str}
    (h : Results W argv ns tests dirs es) (h' : Results W argv' ns' tests' dirs es') (hc : SameChoice ns ns') (hh : (ns "hide".toList).truthy = true)
    (hf : tests = [] ∧ Derives .disj tests' (.atom t) ∨ Derives .disj tests f ∧ Derives .disj tests' (.conj f (.atom t)))
    (ht : t = "hide=no".toList ∨ t = "hidden=no".toList ∧ ∀ d ∈ dirs, PlainStart W ns d) : es.Perm es' := by
  refine (List.perm_ext_iff_of_nodup h.spec.1 h'.spec.1).2 fun i => ?_
  have hS : (asked W ns).Ok := by rw [← env_asked]; exact h.good.env
  have hw : i ∈ es → holds (asked W ns) i t = true := by
    intro hi
    rcases ht with rfl | ⟨rfl, hpl⟩
    · exact (holds_hidden hS i false).1.2 (C129_hide_partial h hh hi)
    · obtain ⟨d, hd, _, h1, _⟩ := C129_hidden_partial h hh hi
      exact (holds_hidden hS i false).2.2 (h1.2 (hpl d hd))
  have hm : Meets (asked W ns) tests' i ↔ Meets (asked W ns) tests i ∧ holds (asked W ns) i t = true := by
    rcases hf with ⟨rfl, hd⟩ | ⟨h1, h2⟩
    · rw [meets_iff hd]
      exact ⟨fun h => ⟨.inl rfl, h⟩, fun h => h.2⟩
    · rw [meets_iff h1, meets_iff h2]
      simp [Formula.eval]
  have e1 := h.spec.2 i
  have e2 := h'.spec.2 i
  rw [wanted_tests] at e1
  rw [← hc.wanted, wanted_tests, hm] at e2
  constructor
  · intro hi
    exact e2.2 ⟨⟨(e1.1 hi).1, hw hi⟩, (e1.1 hi).2⟩
  · intro hi
    exact e1.2 ⟨(e2.1 hi).1.1, (e2.1 hi).2⟩

/-- C129: with `-H`, nothing is found for `hide=yes`, and nothing for `hidden=yes` if no directory in which the search begins has a part that begins with a dot. -/
theorem C129_nothing_partial {W : World} {argv : List Str} {ns : NS} {tests dirs : List Str} {es : List EntInfo} {f : Formula} {t : Str}
    (h : Results W argv ns tests dirs es) (hh : (ns "hide".toList).truthy = true) (hf : Derives .disj tests (.atom t) ∨ Derives .disj tests (.conj f (.atom t)))
    (ht : t = "hide=yes".toList ∨ t = "hidden=yes".toList ∧ ∀ d ∈ dirs, PlainStart W ns d) : es = [] := by
  refine List.eq_nil_iff_forall_not_mem.2 fun i hi => ?_
  have hS : (asked W ns).Ok := by rw [← env_asked]; exact h.good.env
  have hm : holds (asked W ns) i t = true := by
    obtain ⟨d, _, q, n, _, _, hm, _⟩ := result_found h hi
    rcases hf with hf | hf
    · exact (meets_iff hf).1 hm
    · have := (meets_iff hf).1 hm
      simp only [Formula.eval, Bool.and_eq_true] at this
      exact this.2
  rcases ht with rfl | ⟨rfl, hpl⟩
  · have := (holds_hidden hS i true).1.1 hm
    rw [C129_hide_partial h hh hi] at this
    cases this
  · obtain ⟨d, hd, _, h1, _⟩ := C129_hidden_partial h hh hi
    have := (holds_hidden hS i true).2.1 hm
    rw [h1.2 (hpl d hd)] at this
    cases this

/-! ### Runs that meet the hypotheses, and a run for which the warning is wrong -/

/-- Arguments, tests and directories of some runs. -/
def hideRuns : List (List Str × List Str × List Str) :=
  [(["-H".toList], [], [".".toList]), (["-H".toList, "hide=no".toList], ["hide=no".toList], [".".toList]),
   (["-H".toList, "hidden=no".toList], ["hidden=no".toList], [".".toList]), (["-H".toList, "hide=yes".toList], ["hide=yes".toList], [".".toList]),
   (["-H".toList, "-D".toList, "..".toList], [], ["..".toList]), (["-H".toList, "-D".toList, "..".toList, "hidden=no".toList], ["hidden=no".toList], ["..".toList])]

theorem hide_atoms {S : SearchEnv} (hS : S.Ok) : ∀ t ∈ ["hide=no".toList, "hidden=no".toList, "hide=yes".toList], Word t ∧ ∃ x, S.parseTest t = .ok x := by
  intro t ht
  simp only [List.mem_cons, List.not_mem_nil, or_false] at ht
  rcases ht with rfl | rfl | rfl
  · exact ⟨by unfold Word Kw Open Close; decide, _, parse_bool hS (a := "hide".toList) (by decide) (v := "no".toList) (b := false) rfl⟩
  · exact ⟨by unfold Word Kw Open Close; decide, _, parse_hidden hS (v := "no".toList) (b := false) rfl⟩
  · exact ⟨by unfold Word Kw Open Close; decide, _, parse_bool hS (a := "hide".toList) (by decide) (v := "yes".toList) (b := true) rfl⟩

theorem hide_derives {t : Str} (h : Word t) : Derives .disj [t] (.atom t) := .single (.item (.prim (.atom h)))

set_option maxRecDepth 50000 in
set_option maxHeartbeats 4000000 in
theorem hide_parsed : ∃ ns0, ∀ r ∈ hideRuns, ∃ p w ns, demoWorld.main.run r.1 = .search p w ∧ p.mode = .console ∧
    parseArgs (ffOptions demoWorld.main.arg) demoWorld.main.arg.maxCpu r.1 = .ok ns ∧
    processDirectories demoWorld.main.isdir demoWorld.main.cwd (settingsOf ns).fargs.tests (settingsOf ns).dirs = some (r.2.1, r.2.2) ∧
    (settingsOf ns).fargs.exclude = [] ∧ (settingsOf ns).fargs.ignore = false ∧ (ns "hide".toList).truthy = true ∧ (settingsOf ns).fargs.oneFileSystem = false ∧
    (settingsOf ns).fargs.depth = [] ∧ absolutely ns = false ∧ SameChoice ns0 ns := by
  refine ⟨match parseArgs (ffOptions demoWorld.main.arg) demoWorld.main.arg.maxCpu ["-H".toList] with | .ok ns => ns | .error _ => fun _ => .unset, fun r hr => ?_⟩
  simp only [hideRuns, List.mem_cons, List.not_mem_nil, or_false] at hr
  rcases hr with rfl | rfl | rfl | rfl | rfl | rfl
  · exact ⟨_, _, _, rfl, rfl, rfl, rfl, rfl, rfl, rfl, rfl, rfl, rfl, ⟨⟨rfl, rfl, rfl, rfl, rfl, rfl, rfl, rfl, rfl⟩, rfl⟩⟩
  · exact ⟨_, _, _, rfl, rfl, rfl, rfl, rfl, rfl, rfl, rfl, rfl, rfl, ⟨⟨rfl, rfl, rfl, rfl, rfl, rfl, rfl, rfl, rfl⟩, rfl⟩⟩
  · exact ⟨_, _, _, rfl, rfl, rfl, rfl, rfl, rfl, rfl, rfl, rfl, rfl, ⟨⟨rfl, rfl, rfl, rfl, rfl, rfl, rfl, rfl, rfl⟩, rfl⟩⟩
  · exact ⟨_, _, _, rfl, rfl, rfl, rfl, rfl, rfl, rfl, rfl, rfl, rfl, ⟨⟨rfl, rfl, rfl, rfl, rfl, rfl, rfl, rfl, rfl⟩, rfl⟩⟩
  · exact ⟨_, _, _, rfl, rfl, rfl, rfl, rfl, rfl, rfl, rfl, rfl, rfl, ⟨⟨rfl, rfl, rfl, rfl, rfl, rfl, rfl, rfl, rfl⟩, rfl⟩⟩
  · exact ⟨_, _, _, rfl, rfl, rfl, rfl, rfl, rfl, rfl, rfl, rfl, rfl, ⟨⟨rfl, rfl, rfl, rfl, rfl, rfl, rfl, rfl, rfl⟩, rfl⟩⟩

theorem hide_proper {ns : NS} (h1 : (settingsOf ns).fargs.exclude = []) (h2 : (settingsOf ns).fargs.ignore = false) : ∀ r ∈ hideRuns, Proper demoWorld ns r.2.1 r.2.2 := by
  intro r hr
  have hP := demoWorld_proper h1 h2
  have hg : GoodExpression (demoWorld.env ns) r.2.1 := by
    have key : ∀ t ∈ ["hide=no".toList, "hidden=no".toList, "hide=yes".toList], GoodExpression (demoWorld.env ns) [t] := by
      intro t ht
      obtain ⟨hw, hx⟩ := hide_atoms (demoWorld_env ns) t ht
      refine .inr ⟨_, hide_derives hw, fun t' ht' => ?_⟩
      simp only [Formula.atoms, List.mem_singleton] at ht'
      rw [ht']; exact hx
    simp only [hideRuns, List.mem_cons, List.not_mem_nil, or_false] at hr
    rcases hr with rfl | rfl | rfl | rfl | rfl | rfl
    · exact .inl rfl
    · exact key _ (by simp)
    · exact key _ (by simp)
    · exact key _ (by simp)
    · exact .inl rfl
    · exact key _ (by simp)
  have hdir : r.2.2 = [".".toList] ∨ r.2.2 = ["..".toList] := by
    simp only [hideRuns, List.mem_cons, List.not_mem_nil, or_false] at hr
    rcases hr with rfl | rfl | rfl | rfl | rfl | rfl <;> simp
  refine ⟨hP.cpus, hP.cwd, hP.cwd2, hP.env, hP.exclude, hg, ?_, ?_, hP.trees⟩
  · rcases hdir with h | h <;> rw [h] <;> simp
  · intro d hd
    have : d = ".".toList ∨ d = "..".toList := by
      rcases hdir with h | h <;> rw [h] at hd <;> simp only [List.mem_singleton] at hd <;> simp [hd]
    rcases this with rfl | rfl
    · exact ⟨by decide, by rintro ⟨r, hr, _⟩; simp at hr⟩
    · exact ⟨by decide, by rintro ⟨r, hr, _⟩; simp at hr⟩

/-- Each of these runs comes to an end. -/
theorem hide_results : ∃ ns0, ∀ r ∈ hideRuns, ∃ p w ns es, demoWorld.main.run r.1 = .search p w ∧ Results demoWorld r.1 ns r.2.1 r.2.2 es ∧ (ns "hide".toList).truthy = true ∧
    absolutely ns = false ∧ SameChoice ns0 ns ∧ (r.2.1 = [] → es ≠ []) := by
  obtain ⟨ns0, hall⟩ := hide_parsed
  refine ⟨ns0, fun r hr => ?_⟩
  obtain ⟨p, w, ns, hrun, hm, hok, hd, h1, h2, h3, h4, h5, h6, h7⟩ := hall r hr
  have hP := hide_proper h1 h2 r hr
  obtain ⟨k, s, hs, hf⟩ := C86_no_deadlock (demoWorld.cfg ns p) (demoWorld.imode ns p) true (demoWorld.roots ns p) (jobs_pos hP.cpus hok) .refl
  rw [roots_dir] at hs
  have hR : Results demoWorld r.1 ns r.2.1 r.2.2 s.done := ⟨p, w, hrun, hok, hd, hP, .inl ⟨hm, k, s, hs, hf, rfl⟩⟩
  refine ⟨p, w, ns, s.done, hrun, hR, h3, h6, h7, fun ht he => ?_⟩
  obtain ⟨d, hd⟩ : ∃ d, d ∈ r.2.2 := by
    simp only [hideRuns, List.mem_cons, List.not_mem_nil, or_false] at hr
    rcases hr with rfl | rfl | rfl | rfl | rfl | rfl <;> exact ⟨_, List.mem_cons_self ..⟩
  have hsp := fun i => (hR.spec.2 i).2
  rw [he] at hsp
  refine List.not_mem_nil (hsp _ ⟨d, hd, [.mk "a".toList true [.mk "b".toList false []]], ?_, rfl, .inl ht, .inl h5, ?_⟩)
  · simp [Chain, demoWorld, demoRoot]
  · rintro q n hpre (⟨t, ht', _⟩ | ⟨hi, _⟩ | ⟨_, x, hx⟩ | ⟨ho, _⟩)
    · rw [h1] at ht'; cases ht'
    · rw [h2] at hi; cases hi
    · have : n ∈ [FNode.mk "a".toList true [.mk "b".toList false []]] := hpre.subset (by simp)
      rw [List.mem_singleton.1 this] at hx
      simp [FNode.name] at hx
    · rw [h4] at ho; cases ho

theorem dot_plain {W : World} {ns : NS} (h : absolutely ns = false) : PlainStart W ns ".".toList := by
  left
  unfold beginning
  rw [h]
  rfl

theorem dots_not_plain {W : World} {ns : NS} (h : absolutely ns = false) : ¬ PlainStart W ns "..".toList := by
  unfold PlainStart beginning DotPart
  rw [h]
  rintro (h | h)
  · exact absurd h (by simp)
  · exact h ⟨"..".toList, (by decide : "..".toList ∈ splitOn '/' "..".toList), ".".toList, rfl⟩

/-- The hypotheses of the theorems above are met: `ff -H`, `ff -H hide=no`, `ff -H hidden=no` and `ff -H hide=yes`; the first finds something. -/
example : ∃ ns es ns1 es1 ns2 es2 ns3 es3, Results demoWorld ["-H".toList] ns [] [".".toList] es ∧ es ≠ [] ∧
    Results demoWorld ["-H".toList, "hide=no".toList] ns1 ["hide=no".toList] [".".toList] es1 ∧
    Results demoWorld ["-H".toList, "hidden=no".toList] ns2 ["hidden=no".toList] [".".toList] es2 ∧
    Results demoWorld ["-H".toList, "hide=yes".toList] ns3 ["hide=yes".toList] [".".toList] es3 ∧
    SameChoice ns ns1 ∧ SameChoice ns ns2 ∧ (ns "hide".toList).truthy = true ∧ (ns3 "hide".toList).truthy = true ∧ (∀ d ∈ [".".toList], PlainStart demoWorld ns d) ∧
    es.Perm es1 ∧ es.Perm es2 ∧ es3 = [] := by
  obtain ⟨ns0, hall⟩ := hide_results
  obtain ⟨_, _, ns, es, _, hR, hh, hab, hc, hne⟩ := hall _ (List.mem_cons_self ..)
  obtain ⟨_, _, ns1, es1, _, hR1, _, _, hc1, _⟩ := hall _ (List.mem_cons_of_mem _ (List.mem_cons_self ..))
  obtain ⟨_, _, ns2, es2, _, hR2, _, _, hc2, _⟩ := hall _ (List.mem_cons_of_mem _ (List.mem_cons_of_mem _ (List.mem_cons_self ..)))
  obtain ⟨_, _, ns3, es3, _, hR3, hh3, _⟩ := hall _ (List.mem_cons_of_mem _ (List.mem_cons_of_mem _ (List.mem_cons_of_mem _ (List.mem_cons_self ..))))
  have hpl : ∀ d ∈ [".".toList], PlainStart demoWorld ns d := fun d hd => by rw [List.mem_singleton.1 hd]; exact dot_plain hab
  have hw := fun t ht => (hide_atoms demoSearch_ok t ht).1
  exact ⟨ns, es, ns1, es1, ns2, es2, ns3, es3, hR, hne rfl, hR1, hR2, hR3, hc.via hc1, hc.via hc2, hh, hh3, hpl,
    C129_no_effect_partial (f := .atom []) hR hR1 (hc.via hc1) hh (.inl ⟨rfl, hide_derives (hw _ (by simp))⟩) (.inl rfl),
    C129_no_effect_partial (f := .atom []) hR hR2 (hc.via hc2) hh (.inl ⟨rfl, hide_derives (hw _ (by simp))⟩) (.inr ⟨rfl, hpl⟩),
    C129_nothing_partial (f := .atom []) hR3 hh3 (.inl (hide_derives (hw _ (by simp)))) (.inl rfl)⟩

theorem about_hidden_no (cc : CharClass) : AboutHidden cc "hidden=no".toList :=
  ⟨[], "hidden".toList, [], ['='], "no".toList, (by intro x hx; cases hx), (by intro x hx; cases hx), by simp, by decide, by decide⟩

/-- C129 does not hold for `hidden`: `ff -H -D ..` finds something, and with the test `hidden=no` in addition nothing is found, since `..` begins with a dot; there is the warning
that the test has no effect. -/
theorem C129_false : ∃ (W : World) (ns ns' : NS) (es es' : List EntInfo) (p : Plan) (w : List Warning),
    Results W ["-H".toList, "-D".toList, "..".toList] ns [] ["..".toList] es ∧
    Results W ["-H".toList, "-D".toList, "..".toList, "hidden=no".toList] ns' ["hidden=no".toList] ["..".toList] es' ∧
    W.main.run ["-H".toList, "-D".toList, "..".toList, "hidden=no".toList] = .search p w ∧ W.matcherMessages ns' p ≠ [] ∧
    SameChoice ns ns' ∧ (ns "hide".toList).truthy = true ∧ es ≠ [] ∧ es' = [] := by
  obtain ⟨ns0, hall⟩ := hide_results
  obtain ⟨_, _, ns, es, _, hR, hh, hab, hc, hne⟩ := hall (["-H".toList, "-D".toList, "..".toList], [], ["..".toList]) (by simp [hideRuns])
  obtain ⟨p, w, ns', es', hrun, hR', hh', hab', hc', _⟩ := hall (["-H".toList, "-D".toList, "..".toList, "hidden=no".toList], ["hidden=no".toList], ["..".toList]) (by simp [hideRuns])
  refine ⟨demoWorld, ns, ns', es, es', p, w, hR, hR', hrun, ?_, hc.via hc', hh, hne rfl, ?_⟩
  · obtain ⟨p', w', hr, hok, hd, hP, _⟩ := hR'
    rw [hrun] at hr
    cases hr
    intro he
    have := (C129_warned_partial demoWorld hrun hok hd hP).1 ⟨hh', _, List.mem_singleton.2 rfl, about_hidden_no _⟩
    rw [he] at this
    cases this
  · refine List.eq_nil_iff_forall_not_mem.2 fun i hi => ?_
    have hS : (asked demoWorld ns').Ok := by rw [← env_asked]; exact hR'.good.env
    obtain ⟨d, hd, _, h1, _⟩ := C129_hidden_partial hR' hh' hi
    rw [List.mem_singleton.1 hd] at h1
    have hm : holds (asked demoWorld ns') i "hidden=no".toList = true := by
      obtain ⟨_, _, _, _, _, _, hm, _⟩ := result_found hR' hi
      exact (meets_iff (hide_derives (hide_atoms demoSearch_ok _ (by simp)).1)).1 hm
    exact dots_not_plain hab' (h1.1 ((holds_hidden hS i false).2.1 hm))

end FF
