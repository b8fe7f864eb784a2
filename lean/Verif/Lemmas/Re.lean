import Verif.Model.Re
namespace FF
variable {β : Type}

theorem starG_some {p : Char → Bool} {k : Str → Option β} {w r : Str} {v : β} (hw : ∀ x ∈ w, p x = true)
    (hr : ∀ x xs, r = x :: xs → p x = false) (hk : k r = some v) : starG p k (w ++ r) = some v := by
  induction w with
  | nil =>
    cases r with
    | nil => simpa [starG] using hk
    | cons x xs => simp [starG, hr x xs rfl, hk]
  | cons x xs ih =>
    rw [List.cons_append, starG, if_pos (hw x (by simp)), ih (fun y hy => hw y (by simp [hy]))]

/-- Backing off by `u`: the continuation fails on everything longer. -/
theorem starG_backoff {p : Char → Bool} {k : Str → Option β} {w u : Str} {v : β} (hw : ∀ x ∈ w, p x = true)
    (hu : starG p k u = none) (hk : ∀ a b, w = a ++ b → b ≠ [] → a ≠ [] → k (b ++ u) = none)
    (hkw : k (w ++ u) = some v) (hne : w ≠ []) : starG p k (w ++ u) = some v := by
  have aux : ∀ w', (∀ x ∈ w', p x = true) → (∀ a b, w' = a ++ b → b ≠ [] → k (b ++ u) = none) → starG p k (w' ++ u) = none := by
    intro w'
    induction w' with
    | nil => intro _ _; simpa using hu
    | cons x xs ih =>
      intro h1 h2
      rw [List.cons_append, starG, if_pos (h1 x (by simp)),
        ih (fun y hy => h1 y (by simp [hy])) (fun a b hab hb => h2 (x :: a) b (by simp [hab]) hb)]
      exact h2 [] (x :: xs) rfl (by simp)
  cases w with
  | nil => exact absurd rfl hne
  | cons x xs =>
    rw [List.cons_append, starG, if_pos (hw x (by simp)),
      aux xs (fun y hy => hw y (by simp [hy])) (fun a b hab hb => hk (x :: a) b (by simp [hab]) hb (by simp))]
    simpa using hkw

theorem starG_none {p : Char → Bool} {k : Str → Option β} {s : Str}
    (h : ∀ a b, s = a ++ b → (∀ x ∈ a, p x = true) → k b = none) : starG p k s = none := by
  induction s with
  | nil => exact h [] [] rfl (by simp)
  | cons x xs ih =>
    rw [starG]
    have hk : k (x :: xs) = none := h [] (x :: xs) rfl (by simp)
    by_cases hp : p x = true
    · rw [if_pos hp, ih]
      · simpa using hk
      · intro a b hab ha
        refine h (x :: a) b (by simp [hab]) ?_
        intro y hy
        rcases List.mem_cons.1 hy with rfl | hy
        · exact hp
        · exact ha y hy
    · rw [if_neg hp]; exact hk

theorem starL_some {p : Char → Bool} {k : Str → Option β} {w r : Str} {v : β} (hw : ∀ x ∈ w, p x = true)
    (hbefore : ∀ a b, w = a ++ b → b ≠ [] → k (b ++ r) = none) (hk : k r = some v) : starL p k (w ++ r) = some v := by
  induction w with
  | nil =>
    cases r with
    | nil => simpa [starL] using hk
    | cons x xs => simp [starL, hk]
  | cons x xs ih =>
    have h0 := hbefore [] (x :: xs) rfl (by simp)
    rw [List.cons_append] at h0 ⊢
    rw [starL, h0, if_pos (hw x (by simp))]
    exact ih (fun y hy => hw y (by simp [hy])) (fun a b hab hb => hbefore (x :: a) b (by simp [hab]) hb)

theorem starL_none {p : Char → Bool} {k : Str → Option β} {s : Str}
    (h : ∀ a b, s = a ++ b → (∀ x ∈ a, p x = true) → k b = none) : starL p k s = none := by
  induction s with
  | nil => exact h [] [] rfl (by simp)
  | cons x xs ih =>
    have hk : k (x :: xs) = none := h [] (x :: xs) rfl (by simp)
    rw [starL, hk]
    by_cases hp : p x = true
    · simp only [hp, if_true]
      apply ih
      intro a b hab ha
      refine h (x :: a) b (by simp [hab]) ?_
      intro y hy
      rcases List.mem_cons.1 hy with rfl | hy
      · exact hp
      · exact ha y hy
    · simp [hp]

theorem starG_of_not {p : Char → Bool} {k : Str → Option β} {s : Str} (h : ∀ x xs, s = x :: xs → p x = false) : starG p k s = k s := by
  cases s with
  | nil => rfl
  | cons x xs => simp [starG, h x xs rfl]

/-- What a successful greedy star tells. -/
theorem starG_eq_some {p : Char → Bool} {k : Str → Option β} {s : Str} {v : β} (h : starG p k s = some v) :
    ∃ a b, s = a ++ b ∧ (∀ x ∈ a, p x = true) ∧ k b = some v := by
  induction s with
  | nil => exact ⟨[], [], rfl, by simp, h⟩
  | cons x xs ih =>
    rw [starG] at h
    by_cases hp : p x = true
    · rw [if_pos hp] at h
      cases hs : starG p k xs with
      | some v' =>
        rw [hs] at h; cases h
        obtain ⟨a, b, rfl, h1, h2⟩ := ih hs
        refine ⟨x :: a, b, rfl, ?_, h2⟩
        intro y hy
        rcases List.mem_cons.1 hy with rfl | hy
        · exact hp
        · exact h1 y hy
      | none => rw [hs] at h; exact ⟨[], x :: xs, rfl, by simp, h⟩
    · rw [if_neg hp] at h; exact ⟨[], x :: xs, rfl, by simp, h⟩

theorem starL_eq_some {p : Char → Bool} {k : Str → Option β} {s : Str} {v : β} (h : starL p k s = some v) :
    ∃ a b, s = a ++ b ∧ (∀ x ∈ a, p x = true) ∧ k b = some v := by
  induction s with
  | nil => exact ⟨[], [], rfl, by simp, h⟩
  | cons x xs ih =>
    rw [starL] at h
    cases hk : k (x :: xs) with
    | some v' => rw [hk] at h; cases h; exact ⟨[], x :: xs, rfl, by simp, hk⟩
    | none =>
      rw [hk] at h
      by_cases hp : p x = true
      · simp only [hp, if_true] at h
        obtain ⟨a, b, rfl, h1, h2⟩ := ih h
        refine ⟨x :: a, b, rfl, ?_, h2⟩
        intro y hy
        rcases List.mem_cons.1 hy with rfl | hy
        · exact hp
        · exact h1 y hy
      · simp [hp] at h

theorem starG_isSome_iff {p : Char → Bool} {k : Str → Option β} {s : Str} :
    (starG p k s).isSome = true ↔ ∃ a b, s = a ++ b ∧ (∀ x ∈ a, p x = true) ∧ (k b).isSome = true := by
  constructor
  · intro h
    obtain ⟨v, hv⟩ := Option.isSome_iff_exists.1 h
    obtain ⟨a, b, h1, h2, h3⟩ := starG_eq_some hv
    exact ⟨a, b, h1, h2, by simp [h3]⟩
  · rintro ⟨a, b, rfl, h1, h2⟩
    by_cases hn : starG p k (a ++ b) = none
    · exfalso
      have : ∀ a', (∀ x ∈ a', p x = true) → starG p k (a' ++ b) ≠ none := by
        intro a'
        induction a' with
        | nil =>
          intro _
          rw [List.nil_append]
          cases b with
          | nil => rw [starG]; intro h; simp [h] at h2
          | cons y ys =>
            rw [starG]
            split
            · split
              · simp
              · intro h; simp [h] at h2
            · intro h; simp [h] at h2
        | cons x xs ih =>
          intro hx
          rw [List.cons_append, starG, if_pos (hx x (by simp))]
          have := ih (fun y hy => hx y (by simp [hy]))
          split
          · simp
          · rename_i heq; exact absurd heq this
      exact this a h1 hn
    · exact Option.isSome_iff_ne_none.2 hn

theorem Re.run_opt {a : Re} {s : Str} {c : Caps} {k : Str → Caps → Option β} :
    (Re.opt a).run s c k = match a.run s c k with
      | some v => some v
      | none => k s c := rfl

theorem Re.run_lit_cons {x y : Char} {s : Str} {c : Caps} {k : Str → Caps → Option β} :
    (Re.lit x).run (y :: s) c k = if y = x then k s c else none := by
  simp [Re.lit, Re.run]

theorem Re.run_lit_nil {x : Char} {c : Caps} {k : Str → Caps → Option β} : (Re.lit x).run [] c k = none := rfl

theorem Re.run_str {w s : Str} {c : Caps} {k : Str → Caps → Option β} : (Re.str w).run (w ++ s) c k = k s c := by
  induction w with
  | nil => rfl
  | cons x xs ih => simp [Re.str, Re.run, Re.lit, ih]

/-- A literal string matches nothing else. -/
theorem Re.run_str_eq {w s : Str} {c : Caps} {k : Str → Caps → Option β} :
    (Re.str w).run s c k = if w.isPrefixOf s then k (s.drop w.length) c else none := by
  induction w generalizing s with
  | nil => simp [Re.str, Re.run]
  | cons x xs ih =>
    cases s with
    | nil => simp [Re.str, Re.run, Re.lit]
    | cons y ys =>
      by_cases h : y = x
      · subst h; simp [Re.str, Re.run, Re.lit, ih]
      · simp [Re.str, Re.run, Re.lit, h, Ne.symm h]

theorem take_sub_length (w r : Str) : (w ++ r).take ((w ++ r).length - r.length) = w := by
  simp

end FF

namespace FF
variable {β : Type}

/-- Nondeterministic reading of a regular expression: some way to match from `s` to `s'`. -/
def Re.Mat : Re → Str → Caps → Str → Caps → Prop
  | .eps, s, c, s', c' => s' = s ∧ c' = c
  | .chr p, s, c, s', c' => ∃ x, s = x :: s' ∧ p x = true ∧ c' = c
  | .seq a b, s, c, s', c' => ∃ s1 c1, a.Mat s c s1 c1 ∧ b.Mat s1 c1 s' c'
  | .alt a b, s, c, s', c' => a.Mat s c s' c' ∨ b.Mat s c s' c'
  | .star _ p, s, c, s', c' => ∃ w, s = w ++ s' ∧ (∀ x ∈ w, p x = true) ∧ c' = c
  | .cap n a, s, c, s', c' => ∃ c1, a.Mat s c s' c1 ∧ c' = (n, s.take (s.length - s'.length)) :: c1
  | .eol, s, c, s', c' => (s = [] ∨ s = ['\n']) ∧ s' = s ∧ c' = c

theorem Re.run_eq_some : ∀ {r : Re} {s : Str} {c : Caps} {k : Str → Caps → Option β} {v : β}, r.run s c k = some v →
    ∃ s' c', r.Mat s c s' c' ∧ k s' c' = some v := by
  intro r
  induction r with
  | eps => intro s c k v h; exact ⟨s, c, ⟨rfl, rfl⟩, h⟩
  | chr p =>
    intro s c k v h
    cases s with
    | nil => simp [Re.run] at h
    | cons x xs =>
      simp only [Re.run] at h
      split at h
      · rename_i hp; exact ⟨xs, c, ⟨x, rfl, hp, rfl⟩, h⟩
      · cases h
  | seq a b iha ihb =>
    intro s c k v h
    obtain ⟨s1, c1, h1, h2⟩ := iha h
    obtain ⟨s2, c2, h3, h4⟩ := ihb h2
    exact ⟨s2, c2, ⟨s1, c1, h1, h3⟩, h4⟩
  | alt a b iha ihb =>
    intro s c k v h
    simp only [Re.run] at h
    split at h
    · rename_i v' heq
      cases h
      obtain ⟨s1, c1, h1, h2⟩ := iha heq
      exact ⟨s1, c1, .inl h1, h2⟩
    · obtain ⟨s1, c1, h1, h2⟩ := ihb h
      exact ⟨s1, c1, .inr h1, h2⟩
  | star g p =>
    intro s c k v h
    cases g with
    | true => obtain ⟨a, b, h1, h2, h3⟩ := starG_eq_some h; exact ⟨b, c, ⟨a, h1, h2, rfl⟩, h3⟩
    | false => obtain ⟨a, b, h1, h2, h3⟩ := starL_eq_some h; exact ⟨b, c, ⟨a, h1, h2, rfl⟩, h3⟩
  | cap n a ih =>
    intro s c k v h
    obtain ⟨s1, c1, h1, h2⟩ := ih h
    exact ⟨s1, _, ⟨c1, h1, rfl⟩, h2⟩
  | eol =>
    intro s c k v h
    simp only [Re.run] at h
    split at h
    · rename_i hs; exact ⟨s, c, ⟨hs, rfl, rfl⟩, h⟩
    · cases h

theorem Re.run_isSome_of_mat : ∀ {r : Re} {s : Str} {c : Caps} {k : Str → Caps → Option β} {s' : Str} {c' : Caps},
    r.Mat s c s' c' → (k s' c').isSome = true → (r.run s c k).isSome = true := by
  intro r
  induction r with
  | eps => intro s c k s' c' ⟨h1, h2⟩ hk; subst h1 h2; exact hk
  | chr p => intro s c k s' c' ⟨x, h1, h2, h3⟩ hk; subst h1 h3; simp [Re.run, h2, hk]
  | seq a b iha ihb => intro s c k s' c' ⟨s1, c1, h1, h2⟩ hk; exact iha h1 (ihb h2 hk)
  | alt a b iha ihb =>
    intro s c k s' c' h hk
    simp only [Re.run]
    split
    · rfl
    · rename_i heq
      rcases h with h | h
      · have := iha h hk; simp [heq] at this
      · exact ihb h hk
  | star g p =>
    intro s c k s' c' ⟨w, h1, h2, h3⟩ hk
    subst h1 h3
    cases g with
    | true => exact starG_isSome_iff.2 ⟨w, s', rfl, h2, hk⟩
    | false =>
      simp only [Re.run]
      by_cases hn : starL p (fun s'' => k s'' c') (w ++ s') = none
      · exfalso
        have : ∀ a', (∀ x ∈ a', p x = true) → starL p (fun s'' => k s'' c') (a' ++ s') ≠ none := by
          intro a'
          induction a' with
          | nil =>
            intro _ h
            rw [List.nil_append] at h
            cases s' with
            | nil => rw [starL] at h; simp [h] at hk
            | cons y ys =>
              rw [starL] at h
              split at h
              · cases h
              · rename_i heq; simp [heq] at hk
          | cons x xs ih =>
            intro hx h
            rw [List.cons_append, starL] at h
            split at h
            · cases h
            · simp only [hx x (by simp), if_true] at h
              exact ih (fun y hy => hx y (by simp [hy])) h
        exact this w h2 hn
      · exact Option.isSome_iff_ne_none.2 hn
  | cap n a ih =>
    intro s c k s' c' ⟨c1, h1, h2⟩ hk
    subst h2
    exact ih h1 hk
  | eol => intro s c k s' c' ⟨h1, h2, h3⟩ hk; subst h2 h3; simp [Re.run, h1, hk]

/-- A match exists iff some way to match exists. -/
theorem Re.run_isSome_iff {r : Re} {s : Str} {c : Caps} {k : Str → Caps → Option β} :
    (r.run s c k).isSome = true ↔ ∃ s' c', r.Mat s c s' c' ∧ (k s' c').isSome = true := by
  constructor
  · intro h
    obtain ⟨v, hv⟩ := Option.isSome_iff_exists.1 h
    obtain ⟨s', c', h1, h2⟩ := Re.run_eq_some hv
    exact ⟨s', c', h1, by simp [h2]⟩
  · rintro ⟨s', c', h1, h2⟩; exact Re.run_isSome_of_mat h1 h2

theorem Re.run_none_of {r : Re} {s : Str} {c : Caps} {k : Str → Caps → Option β}
    (h : ∀ s' c', r.Mat s c s' c' → k s' c' = none) : r.run s c k = none := by
  cases hr : r.run s c k with
  | none => rfl
  | some v =>
    obtain ⟨s', c', h1, h2⟩ := Re.run_eq_some hr
    rw [h s' c' h1] at h2; cases h2

theorem Re.mat_lit {x : Char} {s s' : Str} {c c' : Caps} : (Re.lit x).Mat s c s' c' ↔ s = x :: s' ∧ c' = c := by
  simp only [Re.lit, Re.Mat, decide_eq_true_eq]
  constructor
  · rintro ⟨y, h1, rfl, h2⟩; exact ⟨h1, h2⟩
  · rintro ⟨h1, h2⟩; exact ⟨x, h1, rfl, h2⟩

theorem Re.mat_str {w s s' : Str} {c c' : Caps} : (Re.str w).Mat s c s' c' ↔ s = w ++ s' ∧ c' = c := by
  induction w generalizing s c with
  | nil => simp [Re.str, Re.Mat, eq_comm]
  | cons x xs ih =>
    have e : (Re.str (x :: xs)).Mat s c s' c' ↔ ∃ s1 c1, (Re.lit x).Mat s c s1 c1 ∧ (Re.str xs).Mat s1 c1 s' c' := Iff.rfl
    rw [e]
    simp only [Re.mat_lit, ih]
    constructor
    · rintro ⟨s1, c1, ⟨rfl, rfl⟩, rfl, rfl⟩; exact ⟨rfl, rfl⟩
    · rintro ⟨rfl, rfl⟩; exact ⟨_, _, ⟨rfl, rfl⟩, rfl, rfl⟩

theorem Re.mat_plus {g : Bool} {p : Char → Bool} {s s' : Str} {c c' : Caps} :
    (Re.plus g p).Mat s c s' c' ↔ ∃ w, w ≠ [] ∧ s = w ++ s' ∧ (∀ x ∈ w, p x = true) ∧ c' = c := by
  simp only [Re.plus, Re.Mat]
  constructor
  · rintro ⟨s1, c1, ⟨x, rfl, hx, rfl⟩, w, rfl, hw, rfl⟩
    refine ⟨x :: w, by simp, rfl, ?_, rfl⟩
    intro y hy
    rcases List.mem_cons.1 hy with rfl | hy
    · exact hx
    · exact hw y hy
  · rintro ⟨w, hne, rfl, hw, rfl⟩
    cases w with
    | nil => exact absurd rfl hne
    | cons x xs => exact ⟨_, _, ⟨x, rfl, hw x (by simp), rfl⟩, xs, rfl, fun y hy => hw y (by simp [hy]), rfl⟩

theorem Re.mat_opt {a : Re} {s s' : Str} {c c' : Caps} : (Re.opt a).Mat s c s' c' ↔ a.Mat s c s' c' ∨ (s' = s ∧ c' = c) := Iff.rfl

end FF
