import Verif.Spec.Setup
import Verif.Props.Failure
import Verif.Props.Loading
import Verif.Props.Template
/-! C104: plugins that cannot be set up. -/
namespace FF
open Spec

theorem means_iff {reg : List PluginDef} {n p : Str} : (∃ a, setupAttribute reg n = some (p, a)) ↔ Means reg n p := by
  by_cases hd : '.' ∈ n
  · obtain ⟨p', a', rfl, hp'⟩ := dot_split hd
    constructor
    · rintro ⟨a, h⟩
      obtain ⟨e, hl⟩ := (C49_qualified reg hp' _).1 h
      cases e
      exact .inl ⟨_, rfl, hp', hl⟩
    · rintro (⟨a, e, hp, hl⟩ | ⟨h, _⟩)
      · have : setupAttribute reg (p ++ '.' :: a) = some (p, a) := (C49_qualified reg hp _).2 ⟨rfl, hl⟩
        exact ⟨a, e ▸ this⟩
      · exact absurd hd h
  · constructor
    · rintro ⟨a, h⟩
      obtain ⟨_, h1, h2⟩ := (C49_unqualified reg hd p a).1 h
      exact .inr ⟨hd, h1, h2⟩
    · rintro (⟨a, e, _, _⟩ | ⟨_, h1, h2⟩)
      · exact absurd (by rw [e]; simp) hd
      · exact ⟨n, (C49_unqualified reg hd p n).2 ⟨rfl, h1, h2⟩⟩

/-! ### Fields -/

theorem fieldOf_iff {reg : List PluginDef} {w p : Str} : FieldOf reg w p ↔ ∃ n wd m a, splitField w = some (n, wd, m) ∧ setupAttribute reg n = some (p, a) := by
  constructor
  · rintro ⟨n, ⟨wd, m, h⟩, hm⟩
    obtain ⟨a, ha⟩ := means_iff.2 hm
    exact ⟨n, wd, m, a, (C64_syntax _ _ _ _).2 h, ha⟩
  · rintro ⟨n, wd, m, a, h, ha⟩
    exact ⟨n, ⟨wd, m, (C64_syntax _ _ _ _).1 h⟩, means_iff.1 ⟨a, ha⟩⟩

theorem fieldFailU_eq {reg : List PluginDef} {ok : Str → Bool} {w : Str} (h : ∀ p, FieldOf reg w p → ok p = true) : fieldFailU reg ok w = fieldFail reg w := by
  unfold fieldFailU fieldFail
  cases hs : splitField w with
  | none => rfl
  | some x =>
    obtain ⟨n, wd, m⟩ := x
    simp only
    cases ha : setupAttribute reg n with
    | none => rfl
    | some a =>
      obtain ⟨p, a⟩ := a
      simp only
      rw [if_pos (h p (fieldOf_iff.2 ⟨n, wd, m, a, hs, ha⟩))]
      cases attributeType reg (p, a) <;> rfl

theorem fieldFailU_bad {reg : List PluginDef} {ok : Str → Bool} {w p : Str} (h : FieldOf reg w p) (hp : ok p = false) : fieldFailU reg ok w = some .plugin := by
  obtain ⟨n, wd, m, a, hs, ha⟩ := fieldOf_iff.1 h
  unfold fieldFailU
  simp [hs, ha, hp]

theorem findSome_congr {α β : Type} {f g : α → Option β} {l : List α} (h : ∀ x ∈ l, f x = g x) : l.findSome? f = l.findSome? g := by
  induction l with
  | nil => rfl
  | cons x l ih => rw [List.findSome?_cons, List.findSome?_cons, h x (by simp), ih (fun y hy => h y (by simp [hy]))]

theorem outputFailU_eq {reg : List PluginDef} {ok : Str → Bool} {ws : List Str} (h : ∀ w ∈ ws, ∀ p, FieldOf reg w p → ok p = true) : outputFailU reg ok ws = outputFail reg ws :=
  findSome_congr (fun w hw => fieldFailU_eq (h w hw))

theorem file_fieldOf {reg : List PluginDef} {w p : Str}
    (h : w ∈ ["file.path".toList, "file.name".toList, "file.dir".toList, "file.pathx".toList, "file.namex".toList, "file.ext".toList]) (hf : FieldOf reg w p) : p = "file".toList := by
  obtain ⟨n, wd, m, a, hs, ha⟩ := fieldOf_iff.1 hf
  have key : ∀ a', splitField w = some ("file".toList ++ '.' :: a', none, none) → p = "file".toList := by
    intro a' h'
    rw [hs] at h'; cases h'
    obtain ⟨e, _⟩ := (C49_qualified reg (by decide) _).1 ha
    cases e; rfl
  simp only [List.mem_cons, List.not_mem_nil, or_false] at h
  rcases h with rfl | rfl | rfl | rfl | rfl | rfl
  · exact key "path".toList (by decide)
  · exact key "name".toList (by decide)
  · exact key "dir".toList (by decide)
  · exact key "pathx".toList (by decide)
  · exact key "namex".toList (by decide)
  · exact key "ext".toList (by decide)

theorem partFailU_eq {reg : List PluginDef} {ok : Str → Bool} (hf : ok "file".toList = true) {x : Str}
    (h : ∀ w, x = '{' :: w ++ ['}'] → ∀ p, FieldOf reg w p → ok p = true) : partFailU reg ok x = partFail reg x := by
  have hk : ∀ w ∈ ["file.path".toList, "file.name".toList, "file.dir".toList, "file.pathx".toList, "file.namex".toList, "file.ext".toList],
      fieldFailU reg ok w = fieldFail reg w := fun w hw => fieldFailU_eq (fun p hp => by rw [file_fieldOf hw hp]; exact hf)
  unfold partFailU partFail
  rw [hk _ (by simp), hk _ (by simp), hk _ (by simp), hk _ (by simp), hk _ (by simp), hk _ (by simp)]
  have : x.head? = some '{' ∧ x.getLast? = some '}' → x ≠ ['{'] → fieldFailU reg ok (x.drop 1).dropLast = fieldFail reg (x.drop 1).dropLast := by
    intro hb hne
    apply fieldFailU_eq
    apply h
    cases x with
    | nil => simp at hb
    | cons c q =>
      have h1 : c = '{' := by simpa using hb.1
      subst h1
      rcases List.eq_nil_or_concat q with rfl | ⟨q', d, rfl⟩
      · simp at hb
      · have h2 := hb.2
        rw [List.concat_eq_append] at h2 ⊢
        rw [← List.cons_append, List.getLast?_concat] at h2
        have : d = '}' := by simpa using h2
        subst this
        simp
  by_cases hb : x.head? = some '{' ∧ x.getLast? = some '}'
  · have hne : x ≠ ['{'] := by rintro rfl; simp at hb
    rw [this hb hne]
  · rw [if_neg hb, if_neg hb]

theorem execFailU_eq {reg : List PluginDef} {ok : Str → Bool} (hf : ok "file".toList = true) {ws : List Str}
    (h : ∀ w, InBraces ws w → ∀ p, FieldOf reg w p → ok p = true) : execFailU reg ok ws = execFail reg ws := by
  have hw : ws.findSome? (wordFailU reg ok) = ws.findSome? (wordFail reg) := by
    apply findSome_congr
    intro v hv
    apply findSome_congr
    intro x hx
    apply partFailU_eq hf
    rintro w rfl
    obtain ⟨a, b, e⟩ := placeholderSplit_in _ _ _ _ (List.mem_filter.1 hx).1
    exact h w ⟨v, hv, a, b, by simpa using e⟩
  unfold execFailU execFail
  rw [hw, fieldFailU_eq (w := "file.path".toList) (fun p hp => by rw [file_fieldOf (by simp) hp]; exact hf)]
  cases ws.findSome? (wordFail reg) <;> rfl

theorem planFailU_eq {reg : List PluginDef} (hfp : filePlugin ∈ reg) (hr : Regular reg) {ok : Str → Bool} (hf : ok "file".toList = true) {s : Settings}
    (h : ∀ w, GivenField s w → ∀ p, FieldOf reg w p → ok p = true) : s.planFailU reg ok = s.planFail reg := by
  have h1 : outputFailU reg ok (expandFile reg s.output) = outputFail reg (expandFile reg s.output) := by
    apply findSome_congr
    intro w hw
    have : ∀ ws : List Str, (∀ w ∈ ws, GivenField s w) → w ∈ expandFile reg ws → fieldFailU reg ok w = fieldFail reg w := by
      intro ws
      induction ws with
      | nil => intro _ h; cases h
      | cons v ws ih =>
        intro hg hm
        unfold expandFile at hm
        split at hm
        · rcases List.mem_append.1 hm with hm | hm
          · obtain ⟨a, ha, rfl⟩ := List.mem_map.1 hm
            obtain ⟨f, e1, e2, _⟩ := makeField_file hfp ((fileAttributes_perm hfp hr.names).subset ha)
            apply fieldFailU_eq
            intro p hp
            obtain ⟨n, wd, m, a', hs, hsa⟩ := fieldOf_iff.1 hp
            unfold makeField at e1
            simp only [hs, hsa] at e1
            cases ht : attributeType reg (p, a') with
            | none => rw [ht] at e1; cases e1
            | some ty =>
              rw [ht] at e1
              simp only [Option.some.injEq] at e1
              subst e1
              simp only [Prod.mk.injEq] at e2
              rw [e2.1]; exact hf
          · exact fieldFailU_eq (h w (hg w (by simp [hm])))
        · rcases List.mem_cons.1 hm with rfl | hm
          · exact fieldFailU_eq (h w (hg w (by simp)))
          · exact ih (fun x hx => hg x (by simp [hx])) hm
    exact this s.output (fun x hx => .inl hx) hw
  have h2 : s.sort.bind (outputFailU reg ok) = s.sort.bind (outputFail reg) := by
    cases hs : s.sort with
    | none => rfl
    | some ws => exact outputFailU_eq (fun w hw => h w (.inr (.inl (by simpa [hs] using hw))))
  have h3 : s.fargs.count.bind (countFailU reg ok) = s.fargs.count.bind (countFail reg) := by
    cases hs : s.fargs.count with
    | none => rfl
    | some ws =>
      simp only [Option.bind_some, countFailU, countFail]
      rw [outputFailU_eq (fun w hw => h w (.inr (.inr (.inl (by simpa [hs] using hw)))))]
      cases outputFail reg ws <;> rfl
  have h4 : s.exec.bind (execFailU reg ok) = s.exec.bind (execFail reg) := by
    cases hs : s.exec with
    | none => rfl
    | some ws => exact execFailU_eq hf (fun w hw => h w (.inr (.inr (.inr (.inl (by simpa [hs] using hw))))))
  have h5 : s.execBatch.bind (execBatchFailU reg ok) = s.execBatch.bind (execBatchFail reg) := by
    cases hs : s.execBatch with
    | none => rfl
    | some ws =>
      simp only [Option.bind_some, execBatchFailU, execBatchFail]
      rw [execFailU_eq hf (fun w hw => h w (.inr (.inr (.inr (.inr (by simpa [hs] using hw))))))]
      cases execFail reg ws <;> rfl
  unfold Settings.planFailU Settings.planFail
  rw [h1, h2, h3, h4, h5]
  cases outputFail reg (expandFile reg s.output) <;> cases s.sort.bind (outputFail reg) <;> cases s.fargs.count.bind (countFail reg) <;>
    cases s.exec.bind (execFail reg) <;> rfl

/-! ### Tests -/

section
variable {T : Type}

/-- What is done with the tokens after an opening bracket. -/
def bracketSeq (pt : Str → Except PErr T) (f : Nat) (ts : List Str) (mk : List (List (Node T)) → Node T) (seqs : List (List (Node T))) :
    Except PErr (List Str × List (List (Node T))) :=
  match parseSeq pt f ts [[]] with
  | .error e => .error e
  | .ok ([], _) => .error .incompleteSub
  | .ok (_ :: ts', sub) => parseSeq pt f ts' (appendLast (mk sub) seqs)

theorem parseSeq_refine {pt pt' : Str → Except PErr T} {P : Prop} {e0 : PErr} : ∀ (f : Nat) (ts : List Str) (seqs : List (List (Node T))),
    (∀ w ∈ ts, pt' w = pt w ∨ (P ∧ pt' w = .error e0)) →
    (parseSeq pt' f ts seqs = parseSeq pt f ts seqs ∨ (P ∧ parseSeq pt' f ts seqs = .error e0)) ∧
    ∀ rest out, parseSeq pt f ts seqs = .ok (rest, out) → ∀ w ∈ rest, w ∈ ts := by
  intro f
  induction f with
  | zero => intro ts seqs _; exact ⟨.inl rfl, fun _ _ h => by simp [parseSeq] at h⟩
  | succ f ih =>
    intro ts seqs hp
    cases ts with
    | nil =>
      refine ⟨.inl rfl, ?_⟩
      intro rest out h
      simp only [parseSeq] at h
      split at h
      · cases h
      · cases h; simp
    | cons tok ts =>
      have hp' : ∀ w ∈ ts, pt' w = pt w ∨ (P ∧ pt' w = .error e0) := fun w hw => hp w (by simp [hw])
      have sub : ∀ (ts : List Str) (mk : List (List (Node T)) → Node T), (∀ w ∈ ts, pt' w = pt w ∨ (P ∧ pt' w = .error e0)) →
          (bracketSeq pt' f ts mk seqs = bracketSeq pt f ts mk seqs ∨ (P ∧ bracketSeq pt' f ts mk seqs = .error e0)) ∧
          ∀ rest out, bracketSeq pt f ts mk seqs = .ok (rest, out) → ∀ w ∈ rest, w ∈ ts := by
        intro ts mk hp
        unfold bracketSeq
        obtain ⟨h1, h2⟩ := ih ts [[]] hp
        cases hq : parseSeq pt f ts [[]] with
        | error e =>
          rw [hq] at h1
          refine ⟨?_, fun _ _ h => by cases h⟩
          rcases h1 with h1 | ⟨h0, h1⟩
          · rw [h1]; exact .inl rfl
          · rw [h1]; exact .inr ⟨h0, rfl⟩
        | ok x =>
          obtain ⟨r, o⟩ := x
          rw [hq] at h1
          have h2 := h2 _ _ hq
          cases r with
          | nil =>
            refine ⟨?_, fun _ _ h => by cases h⟩
            rcases h1 with h1 | ⟨h0, h1⟩
            · rw [h1]; exact .inl rfl
            · rw [h1]; exact .inr ⟨h0, rfl⟩
          | cons c r =>
            have hr : ∀ w ∈ r, w ∈ ts := fun w hw => h2 w (by simp [hw])
            obtain ⟨h3, h4⟩ := ih r (appendLast (mk o) seqs) (fun w hw => hp w (hr w hw))
            refine ⟨?_, fun rest out h w hw => hr w (h4 rest out h w hw)⟩
            rcases h1 with h1 | ⟨h0, h1⟩
            · rw [h1]; exact h3
            · rw [h1]; exact .inr ⟨h0, rfl⟩
      simp only [parseSeq]
      by_cases h1 : isOpen tok
      · simp only [h1, if_true]
        obtain ⟨a, b⟩ := sub ts (fun sub => .or (sub.map .and)) hp'
        exact ⟨a, fun rest out h w hw => by simp [b rest out h w hw]⟩
      simp only [h1]
      by_cases h2 : isClose tok
      · simp only [h2, if_true]
        refine ⟨.inl (by simp), ?_⟩
        intro rest out h w hw
        simp only [Bool.false_eq_true, if_false] at h
        split at h
        · cases h
        · cases h; exact hw
      simp only [h2]
      by_cases h3 : isAnd tok
      · simp only [h3, if_true, Bool.false_eq_true, if_false]
        obtain ⟨a, b⟩ := ih ts seqs hp'
        exact ⟨a, fun rest out h w hw => by simp [b rest out h w hw]⟩
      simp only [h3]
      by_cases h4 : isOr tok
      · simp only [h4, if_true, Bool.false_eq_true, if_false]
        obtain ⟨a, b⟩ := ih ts (seqs ++ [[]]) hp'
        exact ⟨a, fun rest out h w hw => by simp [b rest out h w hw]⟩
      simp only [h4]
      by_cases h5 : isNot tok
      · simp only [h5, if_true, Bool.false_eq_true, if_false]
        cases ts with
        | nil => exact ⟨.inl rfl, fun _ _ h => by cases h⟩
        | cons tok2 ts2 =>
          have hp2 : ∀ w ∈ ts2, pt' w = pt w ∨ (P ∧ pt' w = .error e0) := fun w hw => hp w (by simp [hw])
          simp only
          by_cases h6 : isOpen tok2
          · simp only [h6, if_true]
            obtain ⟨a, b⟩ := sub ts2 (fun sub => .not (sub.map .and)) hp2
            exact ⟨a, fun rest out h w hw => by simp [b rest out h w hw]⟩
          simp only [h6]
          by_cases h7 : (isAnd tok2 || isOr tok2 || isNot tok2 || isClose tok2) = true
          · simp only [h7, if_true]
            exact ⟨.inl (by simp), fun _ _ h => by simp at h⟩
          simp only [h7, Bool.false_eq_true, if_false]
          rcases hp tok2 (by simp) with h8 | ⟨h0, h8⟩
          · rw [h8]
            cases pt tok2 with
            | error e => exact ⟨.inl rfl, fun _ _ h => by cases h⟩
            | ok t =>
              obtain ⟨a, b⟩ := ih ts2 (appendLast (.not [.and [.test t]]) seqs) hp2
              exact ⟨a, fun rest out h w hw => by simp [b rest out h w hw]⟩
          · rw [h8]
            refine ⟨.inr ⟨h0, rfl⟩, ?_⟩
            cases pt tok2 with
            | error e => exact fun _ _ h => by cases h
            | ok t =>
              obtain ⟨_, b⟩ := ih ts2 (appendLast (.not [.and [.test t]]) seqs) hp2
              exact fun rest out h w hw => by simp [b rest out h w hw]
      simp only [h5, Bool.false_eq_true, if_false]
      rcases hp tok (by simp) with h8 | ⟨h0, h8⟩
      · rw [h8]
        cases pt tok with
        | error e => exact ⟨.inl rfl, fun _ _ h => by cases h⟩
        | ok t =>
          obtain ⟨a, b⟩ := ih ts (appendLast (.test t) seqs) hp'
          exact ⟨a, fun rest out h w hw => by simp [b rest out h w hw]⟩
      · rw [h8]
        refine ⟨.inr ⟨h0, rfl⟩, ?_⟩
        cases pt tok with
        | error e => exact fun _ _ h => by cases h
        | ok t =>
          obtain ⟨_, b⟩ := ih ts (appendLast (.test t) seqs) hp'
          exact fun rest out h w hw => by simp [b rest out h w hw]

theorem parse_refine {pt pt' : Str → Except PErr T} {P : Prop} {e0 : PErr} {ts : List Str} (h : ∀ w ∈ ts, pt' w = pt w ∨ (P ∧ pt' w = .error e0)) :
    parse pt' ts = parse pt ts ∨ (P ∧ parse pt' ts = .error e0) := by
  unfold parse
  rcases (parseSeq_refine (ts.length + 1) ts [[]] h).1 with h1 | ⟨h0, h1⟩ <;> rw [h1]
  · exact .inl rfl
  · exact .inr ⟨h0, rfl⟩

theorem parse_congr {pt pt' : Str → Except PErr T} {ts : List Str} (h : ∀ w ∈ ts, pt' w = pt w) : parse pt' ts = parse pt ts := by
  rcases parse_refine (P := False) (e0 := .fuel) (fun w hw => .inl (h w hw)) with h | ⟨h, _⟩
  · exact h
  · exact h.elim


theorem parseSeq_words {pt : Str → Except PErr T} : ∀ (f : Nat) (ts : List Str) (seqs : List (List (Node T))) (rest : List Str) (out : List (List (Node T))),
    parseSeq pt f ts seqs = .ok (rest, out) →
    (rest = [] ∨ ∃ c r, rest = c :: r ∧ isClose c = true) ∧ ∀ w ∈ ts, Word w → w ∈ rest ∨ ∃ x, pt w = .ok x := by
  intro f
  induction f with
  | zero => intro ts seqs rest out h; simp [parseSeq] at h
  | succ f ih =>
    intro ts seqs rest out h
    cases ts with
    | nil =>
      simp only [parseSeq] at h
      split at h
      · cases h
      · cases h; exact ⟨.inl rfl, by simp⟩
    | cons tok ts =>
      have sub : ∀ (ts : List Str) (mk : List (List (Node T)) → Node T), bracketSeq pt f ts mk seqs = .ok (rest, out) →
          (rest = [] ∨ ∃ c r, rest = c :: r ∧ isClose c = true) ∧ ∀ w ∈ ts, Word w → w ∈ rest ∨ ∃ x, pt w = .ok x := by
        intro ts mk h
        unfold bracketSeq at h
        cases hq : parseSeq pt f ts [[]] with
        | error e => rw [hq] at h; cases h
        | ok x =>
          obtain ⟨r, o⟩ := x
          rw [hq] at h
          obtain ⟨h1, h2⟩ := ih _ _ _ _ hq
          cases r with
          | nil => cases h
          | cons c r =>
            obtain ⟨h3, h4⟩ := ih _ _ _ _ h
            refine ⟨h3, ?_⟩
            intro w hw hww
            rcases h2 w hw hww with h5 | h5
            · rcases List.mem_cons.1 h5 with rfl | h5
              · rcases h1 with h1 | ⟨c', r', h1, h6⟩
                · cases h1
                · cases h1
                  exact absurd (isClose_iff.1 h6) hww.2.1
              · exact h4 w h5 hww
            · exact .inr h5
      simp only [parseSeq] at h
      by_cases h1 : isOpen tok
      · simp only [h1, if_true] at h
        obtain ⟨a, b⟩ := sub ts (fun sub => .or (sub.map .and)) h
        refine ⟨a, fun w hw hww => ?_⟩
        rcases List.mem_cons.1 hw with rfl | hw
        · exact absurd (isOpen_iff.1 h1) hww.1
        · exact b w hw hww
      simp only [h1, Bool.false_eq_true, if_false] at h
      by_cases h2 : isClose tok
      · simp only [h2, if_true] at h
        split at h
        · cases h
        · cases h
          exact ⟨.inr ⟨_, _, rfl, h2⟩, fun w hw _ => .inl hw⟩
      simp only [h2, Bool.false_eq_true, if_false] at h
      by_cases h3 : isAnd tok
      · simp only [h3, if_true] at h
        obtain ⟨a, b⟩ := ih _ _ _ _ h
        refine ⟨a, fun w hw hww => ?_⟩
        rcases List.mem_cons.1 hw with rfl | hw
        · exact absurd (isAnd_iff.1 h3) hww.2.2.1
        · exact b w hw hww
      simp only [h3, Bool.false_eq_true, if_false] at h
      by_cases h4 : isOr tok
      · simp only [h4, if_true] at h
        obtain ⟨a, b⟩ := ih _ _ _ _ h
        refine ⟨a, fun w hw hww => ?_⟩
        rcases List.mem_cons.1 hw with rfl | hw
        · exact absurd (isOr_iff.1 h4) hww.2.2.2.1
        · exact b w hw hww
      simp only [h4, Bool.false_eq_true, if_false] at h
      by_cases h5 : isNot tok
      · simp only [h5, if_true] at h
        cases ts with
        | nil => cases h
        | cons tok2 ts2 =>
          have key : (∀ w ∈ tok2 :: ts2, Word w → w ∈ rest ∨ ∃ x, pt w = .ok x) → ∀ w ∈ tok :: tok2 :: ts2, Word w → w ∈ rest ∨ ∃ x, pt w = .ok x := by
            intro hk w hw hww
            rcases List.mem_cons.1 hw with rfl | hw
            · exact absurd (isNot_iff.1 h5) hww.2.2.2.2
            · exact hk w hw hww
          simp only at h
          by_cases h6 : isOpen tok2
          · simp only [h6, if_true] at h
            obtain ⟨a, b⟩ := sub ts2 (fun sub => .not (sub.map .and)) h
            refine ⟨a, key fun w hw hww => ?_⟩
            rcases List.mem_cons.1 hw with rfl | hw
            · exact absurd (isOpen_iff.1 h6) hww.1
            · exact b w hw hww
          simp only [h6, Bool.false_eq_true, if_false] at h
          split at h
          · cases h
          cases hpt : pt tok2 with
          | error e => rw [hpt] at h; cases h
          | ok t =>
            rw [hpt] at h
            obtain ⟨a, b⟩ := ih _ _ _ _ h
            refine ⟨a, key fun w hw hww => ?_⟩
            rcases List.mem_cons.1 hw with rfl | hw
            · exact .inr ⟨_, hpt⟩
            · exact b w hw hww
      simp only [h5, Bool.false_eq_true, if_false] at h
      cases hpt : pt tok with
      | error e => rw [hpt] at h; cases h
      | ok t =>
        rw [hpt] at h
        obtain ⟨a, b⟩ := ih _ _ _ _ h
        refine ⟨a, fun w hw hww => ?_⟩
        rcases List.mem_cons.1 hw with rfl | hw
        · exact .inr ⟨_, hpt⟩
        · exact b w hw hww

/-- Every test of an accepted expression is accepted. -/
theorem parse_words {pt : Str → Except PErr T} {ts : List Str} {x : List (List (Node T))} (h : parse pt ts = .ok x) {w : Str} (hw : w ∈ ts) (hww : Word w) :
    ∃ y, pt w = .ok y := by
  unfold parse at h
  cases hq : parseSeq pt (ts.length + 1) ts [[]] with
  | error e => rw [hq] at h; cases h
  | ok r =>
    obtain ⟨r, o⟩ := r
    rw [hq] at h
    cases r with
    | cons => cases h
    | nil =>
      rcases (parseSeq_words _ _ _ _ _ hq).2 w hw hww with h | h
      · cases h
      · exact h

end

theorem testOf_iff {reg : List PluginDef} {cc : CharClass} {w p : Str} : TestOf reg cc w p ↔ ∃ t a, splitTest cc w = some t ∧ setupAttribute reg t.attr = some (p, a) := by
  constructor
  · rintro ⟨t, h, hm⟩
    obtain ⟨a, ha⟩ := means_iff.2 hm
    exact ⟨t, a, h, ha⟩
  · rintro ⟨t, a, h, ha⟩
    exact ⟨t, h, means_iff.1 ⟨a, ha⟩⟩

theorem referenceValueU_eq {S : SearchEnv} {ok : Str → Bool} {ty : Ty} {a : Attr} {r v : Str} (h1 : ok a.1 = true) (h2 : r ≠ [] → ∀ p, Means S.reg r p → ok p = true) :
    S.referenceValueU ok ty a r v = S.referenceValue ty a r v := by
  unfold SearchEnv.referenceValueU SearchEnv.referenceValue
  have : ∀ ra, (if r ≠ [] then setupAttribute S.reg r else some a) = some ra → ok ra.1 = true := by
    intro ra h
    split at h
    · rename_i hr
      exact h2 hr _ (means_iff.1 ⟨ra.2, h⟩)
    · cases h; exact h1
  cases hq : (if r ≠ [] then setupAttribute S.reg r else some a) with
  | none => rfl
  | some ra =>
    simp only
    rw [if_pos (this ra hq)]
    cases attributeType S.reg ra with
    | none => rfl
    | some rty =>
      simp only
      cases S.refEntry v <;> rfl

theorem parseTestU_cases {S : SearchEnv} {ok : Str → Bool} {w : Str} (h : ∀ p, RefersTo S.reg S.cc w p → ok p = true) :
    S.parseTestU ok w = S.parseTest w ∨ ((∃ p, TestOf S.reg S.cc w p ∧ ok p = false) ∧ S.parseTestU ok w = .error (.badTest .plugin)) := by
  unfold SearchEnv.parseTestU SearchEnv.parseTest
  cases hs : splitTest S.cc w with
  | none => exact .inl rfl
  | some t =>
    simp only
    cases ha : setupAttribute S.reg t.attr with
    | none => exact .inl rfl
    | some a =>
      simp only
      by_cases hok : ok a.1 = true
      · rw [if_pos hok]
        refine .inl ?_
        cases attributeType S.reg a with
        | none => rfl
        | some ty =>
          simp only
          have : t.ref.map (fun r => S.referenceValueU ok ty a r t.value) = t.ref.map (fun r => S.referenceValue ty a r t.value) := by
            cases hr : t.ref with
            | none => rfl
            | some r =>
              simp only [Option.map_some]
              rw [referenceValueU_eq hok (fun hne p hp => h p ⟨t, r, hs, hr, hne, hp⟩)]
          rw [this]
          cases createTest S.tests S.case ty t.op (t.ref.map (fun r => S.referenceValue ty a r t.value)) t.value <;> rfl
      · rw [if_neg hok]
        exact .inr ⟨⟨a.1, testOf_iff.2 ⟨t, a.2, hs, ha⟩, by simpa using hok⟩, rfl⟩

theorem parseTestU_bad {S : SearchEnv} {ok : Str → Bool} {w p : Str} (h : TestOf S.reg S.cc w p) (hp : ok p = false) : S.parseTestU ok w = .error (.badTest .plugin) := by
  obtain ⟨t, a, hs, ha⟩ := testOf_iff.1 h
  unfold SearchEnv.parseTestU
  simp [hs, ha, hp]

theorem parserFailU_eq {S : SearchEnv} {ok : Str → Bool} {other : Fail} {ts : List Str} (h : ∀ w ∈ ts, ∀ p, TestOf S.reg S.cc w p ∨ RefersTo S.reg S.cc w p → ok p = true) :
    parserFailU S ok other ts = parserFail S other ts := by
  unfold parserFailU parserFail
  rw [parse_congr (pt := S.parseTest)]
  · cases parse S.parseTest ts <;> rfl
  · intro w hw
    rcases parseTestU_cases (fun p hp => h w hw p (.inr hp)) with h' | ⟨⟨p, h1, h2⟩, _⟩
    · exact h'
    · rw [h w hw p (.inl h1)] at h2; cases h2

theorem parserFailU_bad {S : SearchEnv} {ok : Str → Bool} {other : Fail} {ts : List Str} (h : ∀ w ∈ ts, ∀ p, RefersTo S.reg S.cc w p → ok p = true)
    (h0 : parserFail S other ts = none) :
    (parserFailU S ok other ts = none ∨ parserFailU S ok other ts = some .plugin) ∧
    ∀ w ∈ ts, Word w → ∀ p, TestOf S.reg S.cc w p → ok p = false → parserFailU S ok other ts = some .plugin := by
  have h1 : ∃ x, parse S.parseTest ts = .ok x := by
    unfold parserFail at h0
    cases hp : parse S.parseTest ts with
    | error e => rw [hp] at h0; cases h0
    | ok x => exact ⟨x, rfl⟩
  obtain ⟨x, h1⟩ := h1
  unfold parserFailU
  rcases parse_refine (pt := S.parseTest) (pt' := S.parseTestU ok) (P := True) (e0 := .badTest .plugin) (ts := ts)
    (fun w hw => (parseTestU_cases (h w hw)).imp id (fun h => ⟨trivial, h.2⟩)) with hr | ⟨_, hr⟩
  · rw [h1] at hr
    refine ⟨.inl (by rw [hr]), ?_⟩
    intro w hw hww p hp hok
    obtain ⟨y, hy⟩ := parse_words hr hw hww
    rw [parseTestU_bad hp hok] at hy; cases hy
  · refine ⟨.inr (by rw [hr]; rfl), fun _ _ _ _ _ _ => by rw [hr]; rfl⟩

/-! ### Whole runs -/

/-- The run uses the plugin: for a field that is shown, sorted by, counted or put into a command, for a test, or for the attribute of another file in a test. -/
def Uses (W : World) (ns : NS) (s : Settings) (p : Str) : Prop :=
  (∃ w, GivenField s w ∧ FieldOf W.main.reg w p) ∨
  ∃ w ∈ s.fargs.tests ++ s.fargs.exclude, TestOf W.main.reg (W.env ns).cc w p ∨ RefersTo W.main.reg (W.env ns).cc w p

theorem startStatusU_accepted {W : World} {env : Option Str} {argv : List Str} {ns : NS} {s : Settings} (h : Accepted W env argv ns s) (loaded : LoadResult)
    (ok there : Str → Bool) : W.startStatusU loaded ok there env argv = W.setupStatusU loaded ok there ns s := by
  obtain ⟨args, h1, h2⟩ := h.parsed
  obtain ⟨w, h3⟩ := h.settings
  unfold World.startStatusU
  simp only [h1, h2, if_neg h.help, h3]

theorem startStatusU_cases (W : World) (loaded : LoadResult) (ok there : Str → Bool) (env : Option Str) (argv : List Str) :
    ((W.startStatusU loaded ok there env argv = some 0 ∨ W.startStatusU loaded ok there env argv = some 1 ∨ W.startStatusU loaded ok there env argv = some 2) ∧
      W.startStatusU loaded ok there env argv = W.startStatus there env argv) ∨
    ∃ ns s, Accepted W env argv ns s := by
  unfold World.startStatusU World.startStatus
  cases h1 : collectArguments env argv with
  | none => exact .inl ⟨.inr (.inl rfl), rfl⟩
  | some args =>
    simp only
    cases h2 : parseArgs (ffOptions W.main.arg) W.main.arg.maxCpu args with
    | error e => cases e with
      | usage => exact .inl ⟨.inr (.inr rfl), rfl⟩
      | crash => exact .inl ⟨.inr (.inl rfl), rfl⟩
    | ok ns =>
      simp only
      by_cases h3 : ns "help".toList = .str "all".toList
      · rw [if_pos h3, if_pos h3]; exact .inl ⟨.inl rfl, rfl⟩
      · rw [if_neg h3, if_neg h3]
        cases h4 : (settingsOf ns).process W.main.isdir W.main.cwd with
        | none => exact .inl ⟨.inr (.inr rfl), rfl⟩
        | some x => exact .inr ⟨ns, x.1, ⟨args, h1, h2⟩, h3, x.2, h4⟩

/-- C104: if the plugins are loaded and every plugin that the run uses can be set up then it does not matter which others can: the run ends before the search with the
same exit status or begins the search as if all plugins could be set up. -/
theorem C104_unused {W : World} (hfp : filePlugin ∈ W.main.reg) (hr : Regular W.main.reg) {ok there : Str → Bool} {env : Option Str} {argv : List Str}
    (hf : ok "file".toList = true) (h : ∀ ns s, Accepted W env argv ns s → ∀ p, Uses W ns s p → ok p = true) :
    W.startStatusU .ok ok there env argv = W.startStatus there env argv := by
  rcases startStatusU_cases W .ok ok there env argv with ⟨_, h'⟩ | ⟨ns, s, ha⟩
  · exact h'
  rw [startStatusU_accepted ha, startStatus_accepted ha]
  have h := h ns s ha
  unfold World.setupStatusU World.setupStatus World.searchFailU World.searchFail
  simp only
  rw [planFailU_eq hfp hr hf (fun w hw p hp => h p (.inl ⟨w, hw, hp⟩)),
    parserFailU_eq (fun w hw p hp => h p (.inr ⟨w, List.mem_append_left _ hw, hp⟩)),
    parserFailU_eq (fun w hw p hp => h p (.inr ⟨w, List.mem_append_right _ hw, hp⟩))]
  cases s.planFail W.main.reg <;> cases shownStatus W.main.reg ns <;> cases parserFail (W.env ns) .usage s.fargs.tests <;>
    cases parserFail (W.env ns) .crash s.fargs.exclude <;> rfl

theorem startStatus_not_plugin {W : World} (hfp : filePlugin ∈ W.main.reg) (hr : Regular W.main.reg) (there : Str → Bool) (env : Option Str) (argv : List Str) :
    W.startStatus there env argv ≠ some 10 := by
  intro h
  rcases startStatus_cases W there env argv with h' | h' | h' | ⟨ns, s, ha⟩
  · rw [h'] at h; simp at h
  · rw [h'] at h; simp at h
  · rw [h'] at h; simp at h
  rw [startStatus_accepted ha] at h
  have hst : ∀ f : Fail, f.status = 10 → f = .plugin := fun f hf => status_inj (g := .plugin) hf
  have hpf : ∀ other ts, other ≠ Fail.plugin → parserFail (W.env ns) other ts ≠ some .plugin := by
    intro other ts ho hx
    obtain ⟨t, _, _, ht⟩ := parserFail_bad (Ne.symm ho) hx
    rcases parseTest_kinds (W.env ns) t with ⟨_, e'⟩ | ⟨_, _, _, e'⟩ | ⟨_, _, _, _, _, h'⟩
    · rw [ht] at e'; simp at e'
    · rw [ht] at e'; simp at e'
    · rcases h' with ⟨_, e'⟩ | ⟨_, _, e'⟩ | ⟨_, v, _, _, e'⟩ | ⟨_, v, _, _, _, _, e'⟩ | ⟨_, v, _, _, _, x, e'⟩ <;> rw [ht] at e' <;> simp at e'
  unfold World.setupStatus at h
  split at h
  · rename_i f hf'
    simp only [Option.some.injEq] at h
    rw [hst f h] at hf'
    obtain ⟨w, _, hw⟩ := planFail_some hfp hr (by simp) hf'
    rcases fieldFail_cases W.main.reg w with ⟨h1, _⟩ | ⟨h1, _⟩ | ⟨h1, _⟩ <;> rw [hw] at h1 <;> simp at h1
  · split at h
    · rename_i n hn
      rcases shownStatus_some hn with rfl | rfl <;> simp at h
    · cases hs : W.searchFail there ns s with
      | none => rw [hs] at h; cases h
      | some f =>
        rw [hs] at h
        simp only [Option.map_some, Option.some.injEq] at h
        rw [hst f h] at hs
        unfold World.searchFail at hs
        split at hs
        · rename_i f' hf'
          cases hs
          exact hpf _ _ (by simp) hf'
        · split at hs
          · rename_i f' hf'
            cases hs
            exact hpf _ _ (by simp) hf'
          · split at hs <;> cases hs

/-- C104: exit status 10 means that loading the plugins failed or that the run uses a plugin that cannot be set up. -/
theorem C104_only {W : World} (hfp : filePlugin ∈ W.main.reg) (hr : Regular W.main.reg) {loaded : LoadResult} {ok there : Str → Bool} {env : Option Str} {argv : List Str}
    (hf : ok "file".toList = true) (h : W.startStatusU loaded ok there env argv = some 10) :
    loaded = .badPlugin ∨ ∃ ns s, Accepted W env argv ns s ∧ ∃ p, Uses W ns s p ∧ ok p = false := by
  rcases startStatusU_cases W loaded ok there env argv with ⟨h', _⟩ | ⟨ns, s, ha⟩
  · rw [h] at h'; simp at h'
  cases loaded with
  | badPlugin => exact .inl rfl
  | crash => rw [startStatusU_accepted ha] at h; simp [World.setupStatusU] at h
  | ok =>
    refine .inr (Classical.byContradiction fun hn => ?_)
    rw [C104_unused hfp hr hf] at h
    · exact startStatus_not_plugin hfp hr _ _ _ h
    · intro ns s ha p hp
      cases hok : ok p with
      | true => rfl
      | false => exact absurd ⟨ns, s, ha, p, hp, hok⟩ hn

/-- C104: if loading the plugins fails then every run ends with exit status 10 that is not over before, with `--version` and `--help` too; with an
exception that is not an error of `ff` the exit status is 1. -/
theorem C104_loading {W : World} {ok there : Str → Bool} {env : Option Str} {argv : List Str} {ns : NS} {s : Settings} (ha : Accepted W env argv ns s) :
    W.startStatusU .badPlugin ok there env argv = some 10 ∧ W.startStatusU .crash ok there env argv = some 1 := by
  rw [startStatusU_accepted ha, startStatusU_accepted ha]; exact ⟨rfl, rfl⟩

theorem findSome_two {α β : Type} {f g : α → Option β} {e : β} {l : List α} (h : l.findSome? f = none) (hg : ∀ x ∈ l, f x = none → g x = none ∨ g x = some e) :
    (l.findSome? g = none ∨ l.findSome? g = some e) ∧ ∀ x ∈ l, g x = some e → l.findSome? g = some e := by
  induction l with
  | nil => exact ⟨.inl rfl, by simp⟩
  | cons x l ih =>
    rw [List.findSome?_cons] at h
    cases hx : f x with
    | some b => rw [hx] at h; cases h
    | none =>
      rw [hx] at h
      obtain ⟨h1, h2⟩ := ih h (fun y hy => hg y (by simp [hy]))
      rw [List.findSome?_cons]
      rcases hg x (by simp) hx with h3 | h3
      · rw [h3]
        refine ⟨h1, fun y hy hye => ?_⟩
        rcases List.mem_cons.1 hy with rfl | hy
        · rw [h3] at hye; cases hye
        · exact h2 y hy hye
      · rw [h3]; exact ⟨.inr rfl, fun _ _ _ => rfl⟩

theorem fieldFailU_two (reg : List PluginDef) (ok : Str → Bool) {w : Str} (h : fieldFail reg w = none) : fieldFailU reg ok w = none ∨ fieldFailU reg ok w = some .plugin := by
  by_cases hq : ∃ p, FieldOf reg w p ∧ ok p = false
  · obtain ⟨p, h1, h2⟩ := hq
    exact .inr (fieldFailU_bad h1 h2)
  · refine .inl ?_
    rw [fieldFailU_eq, h]
    intro p hp
    cases hok : ok p with
    | true => rfl
    | false => exact absurd ⟨p, hp, hok⟩ hq

theorem outputFailU_two (reg : List PluginDef) (ok : Str → Bool) {ws : List Str} (h : outputFail reg ws = none) :
    (outputFailU reg ok ws = none ∨ outputFailU reg ok ws = some .plugin) ∧
    ∀ w ∈ ws, ∀ p, FieldOf reg w p → ok p = false → outputFailU reg ok ws = some .plugin := by
  obtain ⟨h1, h2⟩ := findSome_two h (fun w _ hw => fieldFailU_two reg ok hw)
  exact ⟨h1, fun w hw p hp hok => h2 w hw (fieldFailU_bad hp hok)⟩

theorem expandFile_mem {reg : List PluginDef} {ws : List Str} {w : Str} (hw : w ∈ ws) (hf : w ≠ "file".toList) : w ∈ expandFile reg ws := by
  induction ws with
  | nil => cases hw
  | cons v ws ih =>
    unfold expandFile
    split
    · rename_i hv
      rcases List.mem_cons.1 hw with rfl | hw
      · exact absurd hv hf
      · exact List.mem_append_right _ hw
    · rcases List.mem_cons.1 hw with rfl | hw
      · simp
      · exact List.mem_cons_of_mem _ (ih hw)

theorem partFailU_two (reg : List PluginDef) (ok : Str → Bool) {x : Str} (h : partFail reg x = none) : partFailU reg ok x = none ∨ partFailU reg ok x = some .plugin := by
  unfold partFail at h
  unfold partFailU
  split at h
  · rename_i hx; rw [if_pos hx]; exact .inl rfl
  rename_i hx; rw [if_neg hx]; clear hx
  split at h
  · rename_i hx; rw [if_pos hx]; exact .inl rfl
  rename_i hx; rw [if_neg hx]; clear hx
  iterate 7
    split at h
    · rename_i hx; rw [if_pos hx]; exact fieldFailU_two reg ok h
    rename_i hx; rw [if_neg hx]; clear hx
  exact .inl rfl

theorem partFailU_hole (reg : List PluginDef) (ok : Str → Bool) (n : Str) : partFailU reg ok ('{' :: (n ++ ['}'])) = fieldFailU reg ok (holeAttr n) := by
  have e0 : ∀ m : Str, ('{' :: (n ++ ['}']) = '{' :: (m ++ ['}'])) = (n = m) := fun m => propext hole_inj
  have h1 : '{' :: (n ++ ['}']) ≠ "{{".toList := by
    intro e
    have e : '{' :: (n ++ ['}']) = ['{', '{'] := e
    simp only [List.cons.injEq, true_and] at e
    have := congrArg List.getLast? e
    simp at this
  have h2 : '{' :: (n ++ ['}']) ≠ "}}".toList := by
    intro e
    have e : '{' :: (n ++ ['}']) = ['}', '}'] := e
    simp at e
  unfold partFailU holeAttr
  rw [if_neg h1, if_neg h2]
  rw [show "{}".toList = '{' :: ([] ++ ['}']) from rfl, show "{/}".toList = '{' :: ("/".toList ++ ['}']) from rfl,
    show "{//}".toList = '{' :: ("//".toList ++ ['}']) from rfl, show "{.}".toList = '{' :: (".".toList ++ ['}']) from rfl,
    show "{/.}".toList = '{' :: ("/.".toList ++ ['}']) from rfl, show "{..}".toList = '{' :: ("..".toList ++ ['}']) from rfl]
  simp only [e0]
  rw [if_pos (⟨rfl, by rw [← List.cons_append, List.getLast?_append]; rfl⟩ : ('{' :: (n ++ ['}'])).head? = some '{' ∧ ('{' :: (n ++ ['}'])).getLast? = some '}')]
  have e : (List.drop 1 ('{' :: (n ++ ['}']))).dropLast = n := by simp
  rw [e]
  iterate 6
    split
    · rfl
  rfl

/-- The placeholders of a word are among its parts. -/
theorem split_holes : ∀ (ts : List Seg) (cur : Str) (fuel : Nat), (∀ t ∈ ts, ∃ c, t = .text [c] ∨ ∃ n, t = .hole n) →
    (∀ n, Seg.hole n ∈ ts → (Seg.hole n).Ok) → (spellWord ts).length ≤ fuel →
    ∀ n, Seg.hole n ∈ ts → '{' :: (n ++ ['}']) ∈ placeholderSplit cur fuel (spellWord ts) := by
  intro ts
  induction ts with
  | nil => intro cur fuel _ _ _ n hn; cases hn
  | cons t ts ih =>
    intro cur fuel hat hg hf m hm
    have hat' : ∀ t ∈ ts, ∃ c, t = .text [c] ∨ ∃ n, t = .hole n := fun t ht => hat t (by simp [ht])
    have hg' : ∀ n, Seg.hole n ∈ ts → (Seg.hole n).Ok := fun n hn => hg n (by simp [hn])
    have hsp : spellWord (t :: ts) = t.spell ++ spellWord ts := rfl
    rw [hsp] at hf ⊢
    obtain ⟨c, rfl | ⟨n, rfl⟩⟩ := hat t (by simp)
    · have hm : Seg.hole m ∈ ts := by simpa using hm
      by_cases hb : c = '{' ∨ c = '}'
      · have hs : (Seg.text [c]).spell = [c, c] := by rcases hb with rfl | rfl <;> rfl
        have hl : placeholderLen (c :: c :: spellWord ts) = 2 := by rcases hb with rfl | rfl <;> rfl
        rw [hs] at hf ⊢
        cases fuel with
        | zero => simp at hf
        | succ fuel =>
          simp only [List.cons_append, List.nil_append] at hf ⊢
          rw [placeholderSplit, if_neg (by rw [hl]; decide), hl]
          exact List.mem_cons_of_mem _ (List.mem_cons_of_mem _ (ih [] fuel hat' hg' (by simp at hf; omega) m hm))
      · rw [not_or] at hb
        have hs : (Seg.text [c]).spell = [c] := by
          show double [c] = [c]
          rw [double]
          · rfl
          · exact fun h => hb.1 h
          · exact fun h => hb.2 h
        rw [hs] at hf ⊢
        cases fuel with
        | zero => simp at hf
        | succ fuel =>
          simp only [List.cons_append, List.nil_append] at hf ⊢
          rw [placeholderSplit, if_pos (placeholderLen_plain hb.1 hb.2)]
          exact ih (cur ++ [c]) fuel hat' hg' (by simp at hf; omega) m hm
    · have hs : (Seg.hole n).spell ++ spellWord ts = '{' :: (n ++ '}' :: spellWord ts) := by simp [Seg.spell]
      rw [hs] at hf ⊢
      cases fuel with
      | zero => simp at hf
      | succ fuel =>
        have hl := placeholderLen_hole (rest := spellWord ts) (hg n (by simp))
        rw [placeholderSplit, if_neg (by rw [hl]; omega), hl]
        have htake : ('{' :: (n ++ '}' :: spellWord ts)).take (n.length + 2) = '{' :: (n ++ ['}']) := by
          rw [List.take_succ_cons, show n ++ '}' :: spellWord ts = (n ++ ['}']) ++ spellWord ts by simp, List.take_left' (by simp)]
        have hdrop : ('{' :: (n ++ '}' :: spellWord ts)).drop (n.length + 2) = spellWord ts := by
          rw [List.drop_succ_cons, show n ++ '}' :: spellWord ts = (n ++ ['}']) ++ spellWord ts by simp, List.drop_left' (by simp)]
        rw [htake, hdrop]
        rcases List.mem_cons.1 hm with hm | hm
        · cases hm; simp
        · exact List.mem_cons_of_mem _ (List.mem_cons_of_mem _ (ih [] fuel hat' hg' (by simp at hf; omega) m hm))

/-- The command has a placeholder for the field. -/
def InCommand (ws : List Str) (w : Str) : Prop := ∃ segs, spellWord segs ∈ ws ∧ (∀ n, Seg.hole n ∈ segs → (Seg.hole n).Ok) ∧ ∃ n, Seg.hole n ∈ segs ∧ w = holeAttr n

theorem mem_atoms_hole {ts : List Seg} {n : Str} (h : Seg.hole n ∈ ts) : Seg.hole n ∈ atoms ts := by
  induction ts with
  | nil => cases h
  | cons t ts ih =>
    rcases List.mem_cons.1 h with rfl | h'
    · simp [atoms]
    · cases t with
      | text s => simp [atoms, ih h']
      | hole m => simp [atoms, ih h']

theorem inCommand_parts {ws : List Str} {w : Str} (h : InCommand ws w) :
    ∃ v ∈ ws, ∃ n, '{' :: (n ++ ['}']) ∈ (placeholderSplit [] v.length v).filter (· ≠ []) ∧ w = holeAttr n := by
  obtain ⟨segs, h1, h2, n, h3, rfl⟩ := h
  refine ⟨_, h1, n, List.mem_filter.2 ⟨?_, by simp⟩, rfl⟩
  have := split_holes (atoms segs) [] (spellWord segs).length (fun t ht => by
      rcases mem_atoms ht with ⟨c, h⟩ | ⟨n, h, _⟩
      · exact ⟨c, .inl h⟩
      · exact ⟨'x', .inr ⟨n, h⟩⟩)
    (fun n hn => by
      rcases mem_atoms hn with ⟨c, h⟩ | ⟨m, h, hm⟩
      · cases h
      · exact h2 n hm) (by rw [spellWord_atoms]; exact Nat.le_refl _) n (mem_atoms_hole h3)
  rwa [spellWord_atoms] at this

theorem execFailU_two (reg : List PluginDef) (ok : Str → Bool) {ws : List Str} (h : execFail reg ws = none) :
    (execFailU reg ok ws = none ∨ execFailU reg ok ws = some .plugin) ∧
    ∀ w, InCommand ws w → ∀ p, FieldOf reg w p → ok p = false → execFailU reg ok ws = some .plugin := by
  unfold execFail at h
  unfold execFailU
  split at h
  · cases h
  rename_i hw
  have hv : ∀ v ∈ ws, wordFail reg v = none → wordFailU reg ok v = none ∨ wordFailU reg ok v = some .plugin :=
    fun v _ hv => (findSome_two hv (fun x _ hx => partFailU_two reg ok hx)).1
  obtain ⟨k1, k2⟩ := findSome_two (g := wordFailU reg ok) (e := Fail.plugin) hw hv
  constructor
  · rcases k1 with h1 | h1 <;> rw [h1]
    · split at h
      · rename_i hx; simp only [hx, if_true]; exact fieldFailU_two reg ok h
      · rename_i hx; simp only [hx]; exact .inl rfl
    · exact .inr rfl
  · intro w hc p hp hok
    obtain ⟨v, hv1, n, hn, rfl⟩ := inCommand_parts hc
    have hwv : wordFail reg v = none := List.findSome?_eq_none_iff.1 hw v hv1
    have : wordFailU reg ok v = some .plugin :=
      (findSome_two (g := partFailU reg ok) (e := Fail.plugin) hwv (fun x _ hx => partFailU_two reg ok hx)).2 _ hn (by rw [partFailU_hole]; exact fieldFailU_bad hp hok)
    rw [k2 v hv1 this]

theorem planFailU_two (reg : List PluginDef) (ok : Str → Bool) {s : Settings} (h : s.planFail reg = none) :
    (s.planFailU reg ok = none ∨ s.planFailU reg ok = some .plugin) ∧
    ∀ w, ((w ∈ s.output ∧ w ≠ "file".toList) ∨ w ∈ s.sort.getD [] ∨ w ∈ s.fargs.count.getD [] ∨ InCommand (s.exec.getD []) w ∨ InCommand (s.execBatch.getD []) w) →
      ∀ p, FieldOf reg w p → ok p = false → s.planFailU reg ok = some .plugin := by
  unfold Settings.planFail at h
  split at h
  · cases h
  rename_i h1
  split at h
  · cases h
  rename_i h2
  split at h
  · cases h
  rename_i h3
  split at h
  · cases h
  rename_i h4
  obtain ⟨a1, b1⟩ := outputFailU_two reg ok h1
  have c2 : (s.sort.bind (outputFailU reg ok) = none ∨ s.sort.bind (outputFailU reg ok) = some .plugin) ∧
      ∀ w ∈ s.sort.getD [], ∀ p, FieldOf reg w p → ok p = false → s.sort.bind (outputFailU reg ok) = some .plugin := by
    cases hs : s.sort with
    | none => exact ⟨.inl rfl, by simp⟩
    | some ws => rw [hs] at h2; exact outputFailU_two reg ok h2
  have c3 : (s.fargs.count.bind (countFailU reg ok) = none ∨ s.fargs.count.bind (countFailU reg ok) = some .plugin) ∧
      ∀ w ∈ s.fargs.count.getD [], ∀ p, FieldOf reg w p → ok p = false → s.fargs.count.bind (countFailU reg ok) = some .plugin := by
    cases hs : s.fargs.count with
    | none => exact ⟨.inl rfl, by simp⟩
    | some ws =>
      rw [hs] at h3
      simp only [Option.bind_some, Option.getD_some] at h3 ⊢
      unfold countFail at h3
      unfold countFailU
      split at h3
      · cases h3
      rename_i h3'
      split at h3
      · cases h3
      rename_i h3''
      obtain ⟨a, b⟩ := outputFailU_two reg ok h3'
      simp only [h3'', Bool.false_eq_true, if_false]
      refine ⟨?_, fun w hw p hp hok => by rw [b w hw p hp hok]⟩
      rcases a with a | a <;> rw [a]
      · exact .inl rfl
      · exact .inr rfl
  have none_in : ∀ w, ¬ InCommand [] w := fun w h => by obtain ⟨segs, h, _⟩ := h; cases h
  have c4 : (s.exec.bind (execFailU reg ok) = none ∨ s.exec.bind (execFailU reg ok) = some .plugin) ∧
      ∀ w, InCommand (s.exec.getD []) w → ∀ p, FieldOf reg w p → ok p = false → s.exec.bind (execFailU reg ok) = some .plugin := by
    cases hs : s.exec with
    | none => exact ⟨.inl rfl, fun w hw => absurd hw (none_in w)⟩
    | some ws => rw [hs] at h4; exact execFailU_two reg ok h4
  have c5 : (s.execBatch.bind (execBatchFailU reg ok) = none ∨ s.execBatch.bind (execBatchFailU reg ok) = some .plugin) ∧
      ∀ w, InCommand (s.execBatch.getD []) w → ∀ p, FieldOf reg w p → ok p = false → s.execBatch.bind (execBatchFailU reg ok) = some .plugin := by
    cases hs : s.execBatch with
    | none => exact ⟨.inl rfl, fun w hw => absurd hw (none_in w)⟩
    | some ws =>
      rw [hs] at h
      simp only [Option.bind_some, Option.getD_some] at h ⊢
      unfold execBatchFail at h
      unfold execBatchFailU
      split at h
      · cases h
      rename_i h'
      split at h
      · cases h
      rename_i h''
      simp only [h'', Bool.false_eq_true, if_false]
      obtain ⟨a, b⟩ := execFailU_two reg ok h'
      refine ⟨?_, fun w hw p hp hok => by rw [b w hw p hp hok]⟩
      rcases a with a | a <;> rw [a]
      · exact .inl rfl
      · exact .inr rfl
  unfold Settings.planFailU
  rcases a1 with a1 | a1
  · rcases c2.1 with a2 | a2
    · rcases c3.1 with a3 | a3
      · rcases c4.1 with a4 | a4
        · simp only [a1, a2, a3, a4]
          refine ⟨c5.1, ?_⟩
          rintro w (⟨hw, hne⟩ | hw | hw | hw | hw) p hp hok
          · have := b1 w (expandFile_mem hw hne) p hp hok
            rw [a1] at this; cases this
          · have := c2.2 w hw p hp hok
            rw [a2] at this; cases this
          · have := c3.2 w hw p hp hok
            rw [a3] at this; cases this
          · have := c4.2 w hw p hp hok
            rw [a4] at this; cases this
          · exact c5.2 w hw p hp hok
        · simp [a1, a2, a3, a4]
      · simp [a1, a2, a3]
    · simp [a1, a2]
  · simp [a1]

/-- C104: a run that would begin the search ends with exit status 10 instead if a plugin cannot be set up that is used for a field of `--output`, `--sort` or `--count`, for a
placeholder of a command or for a test, unless one is used for the attribute of another file. -/
theorem C104_used {W : World} {ok there : Str → Bool} {env : Option Str} {argv : List Str} {ns : NS} {s : Settings} (ha : Accepted W env argv ns s)
    (h0 : W.startStatus there env argv = none) {p : Str} (hp : ok p = false)
    (hu : (∃ w, ((w ∈ s.output ∧ w ≠ "file".toList) ∨ w ∈ s.sort.getD [] ∨ w ∈ s.fargs.count.getD [] ∨ InCommand (s.exec.getD []) w ∨ InCommand (s.execBatch.getD []) w) ∧
        FieldOf W.main.reg w p) ∨
      ∃ w ∈ s.fargs.tests ++ s.fargs.exclude, Word w ∧ TestOf W.main.reg (W.env ns).cc w p)
    (hr : ∀ w ∈ s.fargs.tests ++ s.fargs.exclude, ∀ q, RefersTo W.main.reg (W.env ns).cc w q → ok q = true) :
    W.startStatusU .ok ok there env argv = some 10 := by
  rw [startStatus_accepted ha] at h0
  rw [startStatusU_accepted ha]
  unfold World.setupStatus at h0
  split at h0
  · cases h0
  rename_i h1
  split at h0
  · cases h0
  rename_i h2
  unfold World.setupStatusU
  obtain ⟨a1, b1⟩ := planFailU_two W.main.reg ok h1
  rcases a1 with a1 | a1
  · rcases hu with ⟨w, hw, hf⟩ | ⟨w, hw, hww, ht⟩
    · have := b1 w hw p hf hp
      rw [a1] at this; cases this
    simp only [a1, h2]
    unfold World.searchFail at h0
    cases h3 : parserFail (W.env ns) .usage s.fargs.tests with
    | some f => rw [h3] at h0; cases h0
    | none =>
      cases h4 : parserFail (W.env ns) .crash s.fargs.exclude with
      | some f => rw [h3, h4] at h0; cases h0
      | none =>
        obtain ⟨a3, b3⟩ := parserFailU_bad (ok := ok) (fun w hw => hr w (List.mem_append_left _ hw)) h3
        obtain ⟨a4, b4⟩ := parserFailU_bad (ok := ok) (fun w hw => hr w (List.mem_append_right _ hw)) h4
        unfold World.searchFailU
        rcases a3 with a3 | a3
        · rcases List.mem_append.1 hw with hw | hw
          · have := b3 w hw hww p ht hp
            rw [a3] at this; cases this
          · rw [a3, b4 w hw hww p ht hp]; rfl
        · rw [a3]; rfl
  · simp only [a1]; rfl

/-- A command with a placeholder inside of a word with doubled braces. -/
example : InCommand ["ls".toList, "a{{b{width}".toList] "width".toList := by
  refine ⟨[.text "a{b".toList, .hole "width".toList], by decide, fun n hn => ?_, "width".toList, by simp, by decide⟩
  have : n = "width".toList := by simpa using hn
  subst this
  unfold Seg.Ok; decide

/-- A world with a plugin whose attributes are 5 for every file. -/
def pluginWorld : World := { demoWorld with base := { demoSearch with refEntry := fun _ => some ⟨demoRoot.start, ['r'], false, []⟩, data := fun _ _ _ => some (.int 5) } }

/-- The exit status in that world if the plugin can or cannot be set up. -/
def pluginStatus (loaded : LoadResult) (good : Bool) (argv : List String) : Option Nat :=
  pluginWorld.startStatusU loaded (fun p => good || p = "file".toList || p = "ignore".toList) (fun _ => true) none (argv.map String.toList)

set_option maxRecDepth 50000 in
set_option maxHeartbeats 8000000 in
/-- The plugin is used for a test, an exclude test, output, sorting, counting and a command, or not at all. -/
example : pluginStatus .ok true ["-H", "width=1"] = none ∧ pluginStatus .ok false ["-H", "width=1"] = some 10 ∧ pluginStatus .ok false ["-H", "-e", "width=1"] = some 10 ∧
    pluginStatus .ok false ["-H", "-o", "path,width"] = some 10 ∧ pluginStatus .ok false ["-H", "-S", "image.path"] = some 10 ∧
    pluginStatus .ok false ["-H", "--count=width"] = some 10 ∧ pluginStatus .ok false ["-H", "-x", "ls", "{width}"] = some 10 ∧ pluginStatus .ok true ["-H", "-x", "ls", "{width}"] = none ∧
    pluginStatus .ok false ["-H", "depth=1", "-o", "path"] = none := by
  refine ⟨rfl, rfl, rfl, rfl, rfl, rfl, rfl, rfl, rfl⟩

set_option maxRecDepth 50000 in
set_option maxHeartbeats 8000000 in
/-- C104 fails: if loading the plugins fails then runs end that use none of them, even `ff --version`. -/
theorem C104_loading_false : pluginStatus .badPlugin true ["--version"] = some 10 ∧ pluginStatus .badPlugin true ["-H", "depth=1"] = some 10 ∧
    pluginStatus .ok true ["--version"] = some 0 ∧ pluginStatus .ok true ["-H", "depth=1"] = none := by
  refine ⟨rfl, rfl, rfl, rfl⟩

set_option maxRecDepth 50000 in
set_option maxHeartbeats 8000000 in
/-- C104 fails: a plugin that cannot be set up gives status 2 instead of 10 inside of a reference. -/
theorem C104_reference_false : pluginStatus .ok true ["-H", "depth={width}r"] = none ∧ pluginStatus .ok false ["-H", "depth={width}r"] = some 2 := by
  refine ⟨rfl, rfl⟩

set_option maxRecDepth 50000 in
set_option maxHeartbeats 8000000 in
/-- The hypotheses of C104_used are met by `ff width=1` and by `ff -H -S width`. -/
example : (∃ ns s, Accepted pluginWorld none (["width=1"].map String.toList) ns s ∧
      (∃ w ∈ s.fargs.tests ++ s.fargs.exclude, Word w ∧ TestOf pluginWorld.main.reg (pluginWorld.env ns).cc w "image".toList) ∧
      ∀ w ∈ s.fargs.tests ++ s.fargs.exclude, ∀ q, ¬ RefersTo pluginWorld.main.reg (pluginWorld.env ns).cc w q) ∧
    ∃ ns s, Accepted pluginWorld none (["-H", "-S", "width"].map String.toList) ns s ∧ ∃ w ∈ s.sort.getD [], FieldOf pluginWorld.main.reg w "image".toList := by
  have hx : ∃ ns s, Accepted pluginWorld none (["width=1"].map String.toList) ns s ∧ s.fargs.tests ++ s.fargs.exclude = ["width=1".toList] ∧
      ∃ t, splitTest (pluginWorld.env ns).cc "width=1".toList = some t ∧ t.attr = "width".toList ∧ t.ref = none :=
    ⟨_, _, ⟨⟨_, rfl, rfl⟩, by show NVal.unset ≠ NVal.str _; simp, _, rfl⟩, rfl, _, rfl, rfl, rfl⟩
  have ha : setupAttribute pluginWorld.main.reg "width".toList = some ("image".toList, "width".toList) := by decide
  refine ⟨?_, ⟨_, _, ⟨⟨_, rfl, rfl⟩, by show NVal.unset ≠ NVal.str _; simp, _, rfl⟩, "width".toList, ?_, ?_⟩⟩
  · obtain ⟨ns, s, h1, h2, t, h3, h4, h5⟩ := hx
    refine ⟨ns, s, h1, ⟨"width=1".toList, by rw [h2]; simp, word_of (c := 'w') rfl (by decide) (by decide), testOf_iff.2 ⟨t, _, h3, by rw [h4]; exact ha⟩⟩, ?_⟩
    rintro w hw q ⟨t', r, h6, h7, _⟩
    rw [h2, List.mem_singleton] at hw
    subst hw
    rw [h3] at h6; cases h6
    rw [h5] at h7; cases h7
  · decide
  · exact fieldOf_iff.2 ⟨"width".toList, none, none, _, by decide, ha⟩

set_option maxRecDepth 50000 in
set_option maxHeartbeats 8000000 in
/-- The hypotheses of C104_unused are met by `ff depth=1 -o path`, which does not use the plugin. -/
example : ∀ ns s, Accepted pluginWorld none (["depth=1", "-o", "path"].map String.toList) ns s → ¬ Uses pluginWorld ns s "image".toList := by
  have hx : ∃ ns s, Accepted pluginWorld none (["depth=1", "-o", "path"].map String.toList) ns s ∧ s.fargs.tests ++ s.fargs.exclude = ["depth=1".toList] ∧
      s.output = ["path".toList] ∧ s.sort.getD [] = [] ∧ s.fargs.count.getD [] = [] ∧ s.exec.getD [] = [] ∧ s.execBatch.getD [] = [] ∧
      ∃ t, splitTest (pluginWorld.env ns).cc "depth=1".toList = some t ∧ t.attr = "depth".toList ∧ t.ref = none :=
    ⟨_, _, ⟨⟨_, rfl, rfl⟩, by show NVal.unset ≠ NVal.str _; simp, _, rfl⟩, rfl, rfl, rfl, rfl, rfl, rfl, _, rfl, rfl, rfl⟩
  obtain ⟨ns, s, h1, h2, o1, o2, o3, o4, o5, t, h3, h4, h5⟩ := hx
  intro ns' s' h1'
  obtain ⟨args, c1, c2⟩ := h1.parsed
  obtain ⟨args', c1', c2'⟩ := h1'.parsed
  rw [c1] at c1'; cases c1'
  rw [c2] at c2'; cases c2'
  obtain ⟨w, d⟩ := h1.settings
  obtain ⟨w', d'⟩ := h1'.settings
  rw [d] at d'; cases d'
  have ha : setupAttribute pluginWorld.main.reg "depth".toList = some ("file".toList, "depth".toList) := by decide
  have hb : setupAttribute pluginWorld.main.reg "path".toList = some ("file".toList, "path".toList) := by decide
  rintro (⟨w, hw, hf⟩ | ⟨w, hw, ht⟩)
  · unfold GivenField at hw
    rw [o1, o2, o3, o4, o5] at hw
    rcases hw with hw | hw | hw | ⟨v, hv, _⟩ | ⟨v, hv, _⟩
    · rw [List.mem_singleton] at hw
      subst hw
      obtain ⟨n, wd, m, a, e1, e2⟩ := fieldOf_iff.1 hf
      have : splitField "path".toList = some ("path".toList, none, none) := by decide
      rw [this] at e1; cases e1
      rw [hb] at e2; simp at e2
    · cases hw
    · cases hw
    · cases hv
    · cases hv
  · rw [h2, List.mem_singleton] at hw
    subst hw
    rcases ht with ht | ⟨t', r, h6, h7, _⟩
    · obtain ⟨t', a, e1, e2⟩ := testOf_iff.1 ht
      rw [h3] at e1; cases e1
      rw [h4, ha] at e2; simp at e2
    · rw [h3] at h6; cases h6
      rw [h5] at h7; cases h7

end FF
