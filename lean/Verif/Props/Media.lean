import Verif.Spec.Media
import Verif.Lemmas.PyInt
/-! C95, C96: the plugins medium and pacman. -/
namespace FF
open Spec

/-! ### C95 -/

theorem addTrack_general (t : Tracks) (u : Track) : (addTrack t u).general = if u.kind = kindGeneral then t.general ++ [u] else t.general := by
  unfold addTrack
  by_cases h : u.kind = kindGeneral
  · rw [if_pos h, if_neg, if_neg, if_neg, if_pos h] <;> (rw [h]; rintro ⟨e, _⟩; exact absurd e (by decide))
  · rw [if_neg h]
    repeat' split
    all_goals first | rfl | (rename_i h'; exact absurd h' h)

theorem addTrack_video (t : Tracks) (u : Track) : (addTrack t u).video = if u.kind = kindVideo then t.video <|> some u else t.video := by
  unfold addTrack
  by_cases h : u.kind = kindVideo
  · rw [if_pos h, if_neg (by rw [h]; rintro ⟨e, _⟩; exact absurd e (by decide))]
    cases hv : t.video with
    | none => rw [if_pos ⟨h, rfl⟩]; rfl
    | some v =>
      rw [if_neg (by rintro ⟨_, e⟩; cases e), if_neg (by rw [h]; rintro ⟨e, _⟩; exact absurd e (by decide)), if_neg (by rw [h]; decide), hv]; rfl
  · rw [if_neg h]
    repeat' split
    all_goals first | rfl | (rename_i h'; exact absurd h'.1 h)

theorem addTrack_audio (t : Tracks) (u : Track) : (addTrack t u).audio = if u.kind = kindAudio then t.audio <|> some u else t.audio := by
  unfold addTrack
  by_cases h : u.kind = kindAudio
  · rw [if_pos h]
    cases hv : t.audio with
    | none => rw [if_pos ⟨h, rfl⟩]; rfl
    | some v =>
      rw [if_neg (by rintro ⟨_, e⟩; cases e), if_neg (by rw [h]; rintro ⟨e, _⟩; exact absurd e (by decide)),
        if_neg (by rw [h]; rintro ⟨e, _⟩; exact absurd e (by decide)), if_neg (by rw [h]; decide), hv]; rfl
  · rw [if_neg h]
    repeat' split
    all_goals first | rfl | (rename_i h'; exact absurd h'.1 h)

theorem addTrack_image (t : Tracks) (u : Track) : (addTrack t u).image = if u.kind = kindImage then t.image <|> some u else t.image := by
  unfold addTrack
  by_cases h : u.kind = kindImage
  · rw [if_pos h, if_neg (by rw [h]; rintro ⟨e, _⟩; exact absurd e (by decide)), if_neg (by rw [h]; rintro ⟨e, _⟩; exact absurd e (by decide))]
    cases hv : t.image with
    | none => rw [if_pos ⟨h, rfl⟩]; rfl
    | some v =>
      rw [if_neg (by rintro ⟨_, e⟩; cases e), if_neg (by rw [h]; decide), hv]; rfl
  · rw [if_neg h]
    repeat' split
    all_goals first | rfl | (rename_i h'; exact absurd h'.1 h)

/-- A slot that takes the first track of its kind. -/
theorem fold_first {kind : Str} (slot : Tracks → Option Track) (h : ∀ t u, slot (addTrack t u) = if u.kind = kind then slot t <|> some u else slot t) :
    ∀ (l : List Track) (t : Tracks), slot (l.foldl addTrack t) = (slot t <|> l.find? (fun u => u.kind = kind)) := by
  intro l
  induction l with
  | nil => intro t; show slot t = _; cases slot t <;> rfl
  | cons u l ih =>
    intro t
    rw [List.foldl_cons, ih, h, List.find?]
    by_cases hu : u.kind = kind
    · rw [if_pos hu, decide_eq_true hu]
      cases slot t <;> rfl
    · rw [if_neg hu, decide_eq_false hu]

theorem find_first {kind : Str} {l : List Track} {t : Track} : l.find? (fun u => u.kind = kind) = some t ↔ FirstTrack kind l t := by
  rw [List.find?_eq_some_iff_append]
  simp only [decide_eq_true_eq, Bool.not_eq_true', decide_eq_false_iff_not, FirstTrack]
  constructor
  · rintro ⟨h, a, b, e, h2⟩; exact ⟨a, b, e, h, h2⟩
  · rintro ⟨a, b, e, h, h2⟩; exact ⟨h, a, b, e, h2⟩

theorem find_no {kind : Str} {l : List Track} : l.find? (fun u => u.kind = kind) = none ↔ NoTrack kind l := by
  rw [List.find?_eq_none]; simp only [decide_eq_true_eq]; rfl

theorem prepare_general (l : List Track) : (prepareTracks l).general = l.filter (fun u => u.kind = kindGeneral) := by
  have : ∀ (l : List Track) (t : Tracks), (l.foldl addTrack t).general = t.general ++ l.filter (fun u => u.kind = kindGeneral) := by
    intro l
    induction l with
    | nil => intro t; simp
    | cons u l ih =>
      intro t
      rw [List.foldl_cons, ih, addTrack_general]
      by_cases h : u.kind = kindGeneral
      · simp [h]
      · simp [h]
  have h := this l ⟨none, none, none, []⟩
  rw [List.nil_append] at h
  exact h

/-- The last value that is not empty. -/
theorem mediumTag_iff (attr : Track → Option Str) (tracks : List Track) (v : Str) :
    mediumTag attr (prepareTracks tracks).general = some v ↔ LastTag attr tracks v := by
  rw [prepare_general]
  have hsnoc : ∀ (l : List Track) (t : Track), mediumTag attr (l ++ [t]) = match attr t with
      | none => mediumTag attr l
      | some v => if v = [] then mediumTag attr l else some v := by
    intro l t; rw [mediumTag, List.foldl_append]; rfl
  generalize hn : tracks.length = n
  induction n generalizing tracks with
  | zero =>
    rw [List.length_eq_zero_iff.mp hn]
    simp only [List.filter_nil, mediumTag, List.foldl_nil, reduceCtorEq, false_iff]
    rintro ⟨a, t, b, h, _⟩
    simp at h
  | succ n ih =>
    have hne : tracks ≠ [] := by rintro rfl; simp at hn
    obtain ⟨l, t, rfl⟩ : ∃ u x, tracks = u ++ [x] := ⟨_, _, (List.dropLast_concat_getLast hne).symm⟩
    have hl : l.length = n := by simpa using hn
    have hih := ih l hl
    -- a last track that says nothing
    have hskip : (t.kind = kindGeneral → attr t = none ∨ attr t = some []) → (LastTag attr (l ++ [t]) v ↔ LastTag attr l v) := by
      intro ht
      constructor
      · rintro ⟨a, u, b, e, h1, h2, h3, h4⟩
        rcases List.eq_nil_or_concat b with rfl | ⟨b', x, rfl⟩
        · have := (List.append_inj' e rfl).2
          simp only [List.cons.injEq, and_true] at this
          subst this
          rcases ht h1 with h | h
          · rw [h] at h2; cases h2
          · rw [h] at h2; cases h2; exact absurd rfl h3
        · rw [List.concat_eq_append, ← List.cons_append, ← List.append_assoc] at e
          obtain ⟨e1, _⟩ := List.append_inj' e rfl
          exact ⟨a, u, b', e1, h1, h2, h3, fun w hw => h4 w (by simp [hw])⟩
      · rintro ⟨a, u, b, e, h1, h2, h3, h4⟩
        refine ⟨a, u, b ++ [t], by rw [e]; simp, h1, h2, h3, fun w hw hk => ?_⟩
        rcases List.mem_append.mp hw with hw | hw
        · exact h4 w hw hk
        · rw [List.mem_singleton.mp hw] at hk ⊢; exact ht hk
    by_cases hk : t.kind = kindGeneral
    · rw [List.filter_append, show [t].filter (fun u => decide (u.kind = kindGeneral)) = [t] by simp [hk], hsnoc]
      cases ha : attr t with
      | none => rw [hskip (fun _ => .inl ha)]; exact hih
      | some w =>
        by_cases hw : w = []
        · rw [hskip (fun _ => .inr (by rw [ha, hw]))]
          simp only [hw, if_true]; exact hih
        · simp only [hw, if_false, Option.some.injEq]
          constructor
          · rintro rfl
            exact ⟨l, t, [], rfl, hk, ha, hw, fun _ h => by simp at h⟩
          · rintro ⟨a, u, b, e, h1, h2, h3, h4⟩
            rcases List.eq_nil_or_concat b with rfl | ⟨b', x, rfl⟩
            · have := (List.append_inj' e rfl).2
              simp only [List.cons.injEq, and_true] at this
              subst this
              rw [ha] at h2; cases h2; rfl
            · rw [List.concat_eq_append, ← List.cons_append, ← List.append_assoc] at e
              have := (List.append_inj' e rfl).2
              simp only [List.cons.injEq, and_true] at this
              subst this
              rcases h4 t (by simp) hk with h | h
              · rw [h] at ha; cases ha
              · rw [h] at ha; cases ha; exact absurd rfl hw
    · rw [List.filter_append, show [t].filter (fun u => decide (u.kind = kindGeneral)) = [] by simp [hk], List.append_nil, hskip (fun h => absurd h hk)]
      exact hih

/-- **C95** (tags). Each of the tags is the last one that is not empty in the tracks that describe the file as a whole. -/
theorem C95_tags (lower : Str → Str) (tracks : List Track) (v : Str) :
    ((mediumProcess lower tracks).artist = some v ↔ LastTag Track.performer tracks v) ∧
    ((mediumProcess lower tracks).album = some v ↔ LastTag Track.album tracks v) ∧
    ((mediumProcess lower tracks).title = some v ↔ LastTag Track.title tracks v) ∧
    ((mediumProcess lower tracks).genre = some v ↔ LastTag Track.genre tracks v) ∧
    ((mediumProcess lower tracks).date = some v ↔ LastTag Track.recordedDate tracks v) :=
  ⟨mediumTag_iff _ _ _, mediumTag_iff _ _ _, mediumTag_iff _ _ _, mediumTag_iff _ _ _, mediumTag_iff _ _ _⟩

theorem prepare_slots (tracks : List Track) : (prepareTracks tracks).video = tracks.find? (fun u => u.kind = kindVideo) ∧
    (prepareTracks tracks).audio = tracks.find? (fun u => u.kind = kindAudio) ∧ (prepareTracks tracks).image = tracks.find? (fun u => u.kind = kindImage) :=
  ⟨fold_first Tracks.video addTrack_video tracks ⟨none, none, none, []⟩, fold_first Tracks.audio addTrack_audio tracks ⟨none, none, none, []⟩,
    fold_first Tracks.image addTrack_image tracks ⟨none, none, none, []⟩⟩

/-- **C95** (size). Width and height are those of the first video track, or of the first image track if there is no video track; they are missing together. -/
theorem C95_size (lower : Str → Str) (tracks : List Track) (w h : Nat) :
    ((mediumProcess lower tracks).width = some w ∧ (mediumProcess lower tracks).height = some h ↔
      ∃ t, (FirstTrack ['v', 'i', 'd', 'e', 'o'] tracks t ∨ NoTrack ['v', 'i', 'd', 'e', 'o'] tracks ∧ FirstTrack ['i', 'm', 'a', 'g', 'e'] tracks t) ∧ t.width = some w ∧ t.height = some h) ∧
    ((mediumProcess lower tracks).width = none ↔ (mediumProcess lower tracks).height = none) := by
  rw [show (['v', 'i', 'd', 'e', 'o'] : Str) = kindVideo from rfl, show (['i', 'm', 'a', 'g', 'e'] : Str) = kindImage from rfl]
  obtain ⟨hv, _, hi⟩ := prepare_slots tracks
  have key : ∀ t : Track, ((if t.height.isSome && t.width.isSome then (t.width, t.height) else (none, none)) : Option Nat × Option Nat).1 = some w ∧
      ((if t.height.isSome && t.width.isSome then (t.width, t.height) else (none, none)) : Option Nat × Option Nat).2 = some h ↔
      t.width = some w ∧ t.height = some h := by
    intro t
    cases t.height <;> cases t.width <;> simp
  have key2 : ∀ t : Track, ((if t.height.isSome && t.width.isSome then (t.width, t.height) else (none, none)) : Option Nat × Option Nat).1 = none ↔
      ((if t.height.isSome && t.width.isSome then (t.width, t.height) else (none, none)) : Option Nat × Option Nat).2 = none := by
    intro t
    cases t.height <;> cases t.width <;> simp
  have hone : ∀ {k : Str} {t u : Track}, tracks.find? (fun x => x.kind = k) = some t → FirstTrack k tracks u → u = t := by
    intro k t u h1 h2
    rw [find_first.mpr h2] at h1; cases h1; rfl
  simp only [mediumProcess, mediumSize, hv, hi]
  cases h1 : tracks.find? (fun u => u.kind = kindVideo) with
  | some t =>
    refine ⟨?_, key2 t⟩
    refine (key t).trans ⟨fun hk => ⟨t, .inl (find_first.mp h1), hk⟩, ?_⟩
    rintro ⟨u, hu | ⟨hu, _⟩, hk⟩
    · rw [hone h1 hu] at hk; exact hk
    · rw [find_no.mpr hu] at h1; cases h1
  | none =>
    cases h2 : tracks.find? (fun u => u.kind = kindImage) with
    | some t =>
      refine ⟨?_, key2 t⟩
      refine (key t).trans ⟨fun hk => ⟨t, .inr ⟨find_no.mp h1, find_first.mp h2⟩, hk⟩, ?_⟩
      rintro ⟨u, hu | ⟨_, hu⟩, hk⟩
      · rw [find_first.mpr hu] at h1; cases h1
      · rw [hone h2 hu] at hk; exact hk
    | none =>
      refine ⟨⟨fun hk => absurd hk.1 (by simp), ?_⟩, by simp⟩
      rintro ⟨u, hu | ⟨_, hu⟩, hk⟩
      · rw [find_first.mpr hu] at h1; cases h1
      · rw [find_first.mpr hu] at h2; cases h2

/-- **C95** (format). Only images have a format: that of the first image track of a file without video, in lower case. -/
theorem C95_format (lower : Str → Str) (tracks : List Track) (v : Str) : (mediumProcess lower tracks).format = some v ↔
    NoTrack ['v', 'i', 'd', 'e', 'o'] tracks ∧ ∃ t f, FirstTrack ['i', 'm', 'a', 'g', 'e'] tracks t ∧ t.format = some f ∧ v = lower f := by
  rw [show (['v', 'i', 'd', 'e', 'o'] : Str) = kindVideo from rfl, show (['i', 'm', 'a', 'g', 'e'] : Str) = kindImage from rfl]
  obtain ⟨hv, _, hi⟩ := prepare_slots tracks
  simp only [mediumProcess, mediumFormat, hv, hi]
  cases h1 : tracks.find? (fun u => u.kind = kindVideo) with
  | some t =>
    simp only [reduceCtorEq, false_iff]
    rintro ⟨h, _⟩
    rw [find_no.mpr h] at h1; cases h1
  | none =>
    cases h2 : tracks.find? (fun u => u.kind = kindImage) with
    | some t =>
      simp only [Option.map_eq_some_iff]
      constructor
      · rintro ⟨f, hf, rfl⟩; exact ⟨find_no.mp h1, t, f, find_first.mp h2, hf, rfl⟩
      · rintro ⟨_, u, f, hu, hf, rfl⟩
        rw [find_first.mpr hu] at h2; cases h2
        exact ⟨f, hf, rfl⟩
    | none =>
      simp only [reduceCtorEq, false_iff]
      rintro ⟨_, u, f, hu, _⟩
      rw [find_first.mpr hu] at h2; cases h2

/-- **C95** (duration). The duration is that of the first audio track, or of the first video track if the former has none, in whole seconds. -/
theorem C95_duration (lower : Str → Str) (tracks : List Track) (n : Int) (hpos : ∀ t ∈ tracks, ∀ d, t.duration = some d → 0 ≤ d) :
    (mediumProcess lower tracks).duration = some n ↔ ∃ (t : Track) (ms : Nat), t.duration = some (ms : Int) ∧ Seconds ms n ∧
      (FirstTrack ['a', 'u', 'd', 'i', 'o'] tracks t ∨ FirstTrack ['v', 'i', 'd', 'e', 'o'] tracks t ∧ ∀ u, FirstTrack ['a', 'u', 'd', 'i', 'o'] tracks u → u.duration = none) := by
  rw [show (['v', 'i', 'd', 'e', 'o'] : Str) = kindVideo from rfl, show (['a', 'u', 'd', 'i', 'o'] : Str) = kindAudio from rfl]
  obtain ⟨hv, ha, _⟩ := prepare_slots tracks
  have hsec : ∀ (ms : Nat) (n : Int), Int.tdiv (ms : Int) 1000 = n ↔ Seconds ms n := by
    intro ms n
    have e : Int.tdiv (ms : Int) 1000 = ((ms / 1000 : Nat) : Int) := rfl
    rw [e]
    constructor
    · rintro rfl; exact ⟨_, rfl, by omega, by omega⟩
    · rintro ⟨k, rfl, h1, h2⟩
      have : ms / 1000 = k := by omega
      rw [this]
  have hnat : ∀ {k : Str} {t : Track}, FirstTrack k tracks t → ∀ d, t.duration = some d → ∃ ms : Nat, d = (ms : Int) := by
    rintro k t ⟨a, b, e, _, _⟩ d hd
    exact ⟨d.toNat, (Int.toNat_of_nonneg (hpos t (by rw [e]; simp) d hd)).symm⟩
  have hone : ∀ {k : Str} {t u : Track}, tracks.find? (fun x => x.kind = k) = some t → FirstTrack k tracks u → u = t := by
    intro k t u h1 h2
    rw [find_first.mpr h2] at h1; cases h1; rfl
  -- the video track decides
  have video : (∀ u, FirstTrack kindAudio tracks u → u.duration = none) →
      ((match tracks.find? (fun u => u.kind = kindVideo) with
        | none => none
        | some t => match t.duration with
          | none => none
          | some d => some (Int.tdiv d 1000)) = some n ↔ ∃ (t : Track) (ms : Nat), t.duration = some (ms : Int) ∧ Seconds ms n ∧
      (FirstTrack kindAudio tracks t ∨ FirstTrack kindVideo tracks t ∧ ∀ u, FirstTrack kindAudio tracks u → u.duration = none)) := by
    intro hno
    cases h1 : tracks.find? (fun u => u.kind = kindVideo) with
    | none =>
      simp only [reduceCtorEq, false_iff]
      rintro ⟨t, ms, hd, _, h | ⟨h, _⟩⟩
      · rw [hno t h] at hd; cases hd
      · rw [find_first.mpr h] at h1; cases h1
    | some t =>
      have ht := find_first.mp h1
      cases hd : t.duration with
      | none =>
        simp only [hd, reduceCtorEq, false_iff]
        rintro ⟨u, ms, hu, _, h | ⟨h, _⟩⟩
        · rw [hno u h] at hu; cases hu
        · rw [hone h1 h, hd] at hu; cases hu
      | some d =>
        obtain ⟨ms, rfl⟩ := hnat ht d hd
        simp only [hd, Option.some.injEq, hsec]
        constructor
        · intro hs; exact ⟨t, ms, hd, hs, .inr ⟨ht, hno⟩⟩
        · rintro ⟨u, ms', hu, hs, h | ⟨h, _⟩⟩
          · rw [hno u h] at hu; cases hu
          · rw [hone h1 h, hd] at hu
            simp only [Option.some.injEq] at hu
            rw [show ms = ms' by omega]; exact hs
  simp only [mediumProcess, mediumDuration, hv, ha, List.foldl_cons, List.foldl_nil]
  cases h1 : tracks.find? (fun u => u.kind = kindAudio) with
  | none =>
    refine video ?_
    intro u hu
    rw [find_first.mpr hu] at h1; cases h1
  | some t =>
    have ht := find_first.mp h1
    cases hd : t.duration with
    | none =>
      simp only [hd]
      refine video ?_
      intro u hu
      rw [hone h1 hu]; exact hd
    | some d =>
      obtain ⟨ms, rfl⟩ := hnat ht d hd
      simp only [hd, Option.some.injEq, hsec]
      constructor
      · intro hs; exact ⟨t, ms, hd, hs, .inl ht⟩
      · rintro ⟨u, ms', hu, hs, h | ⟨_, h⟩⟩
        · rw [hone h1 h, hd] at hu
          simp only [Option.some.injEq] at hu
          rw [show ms = ms' by omega]; exact hs
        · rw [h t ht] at hd; cases hd

def demoTracks : List Track :=
  [⟨kindGeneral, some ['A'], none, none, none, none, none, none, none, none⟩, ⟨kindVideo, none, none, none, none, none, some 4, some 3, none, some 2500⟩,
   ⟨kindAudio, none, none, none, none, none, none, none, none, some 1999⟩, ⟨kindImage, none, none, none, none, none, some 9, some 9, some ['J'], none⟩]

example : mediumProcess id demoTracks = ⟨some ['A'], none, none, none, none, none, some 4, some 3, some 1⟩ ∧
    (∀ t ∈ demoTracks, ∀ d, t.duration = some d → 0 ≤ d) := by
  refine ⟨by decide, ?_⟩
  intro t ht d hd
  simp only [demoTracks, List.mem_cons, List.not_mem_nil, or_false] at ht
  rcases ht with rfl | rfl | rfl | rfl <;> simp at hd <;> omega

/-! ### C96 -/

/-- The output of `pacman -Ql` for a list of packages and paths. -/
def pacmanOutput (db : List (Str × Str)) : List Str := db.map (fun p => p.1 ++ ' ' :: p.2 ++ ['\n'])

/-- What pacman prints can be taken apart: the names of packages contain no white space, and paths are absolute and do not end in white space. -/
structure Printable (p : Str × Str) : Prop where
  name : p.1 ≠ [] ∧ ∀ c ∈ p.1, isSpace c = false
  path : ∃ q, p.2 = '/' :: q
  last : ∀ q c, p.2 = q ++ [c] → isSpace c = false

theorem dropWhile_stop_at {α : Type _} {p : α → Bool} {a : List α} {x : α} {b : List α} (ha : ∀ c ∈ a, p c = true) (hx : p x = false) :
    (a ++ x :: b).dropWhile p = x :: b := by
  induction a with
  | nil => simp [List.dropWhile, hx]
  | cons c a ih => simp [List.dropWhile, ha c (by simp), ih (fun d hd => ha d (by simp [hd]))]

theorem takeWhile_stop_at {α : Type _} {p : α → Bool} {a : List α} {x : α} {b : List α} (ha : ∀ c ∈ a, p c = true) (hx : p x = false) :
    (a ++ x :: b).takeWhile p = a := by
  induction a with
  | nil => simp [List.takeWhile, hx]
  | cons c a ih => simp [List.takeWhile, ha c (by simp), ih (fun d hd => ha d (by simp [hd]))]

theorem pacmanLine_printable {p : Str × Str} (h : Printable p) : pacmanLine (p.1 ++ ' ' :: p.2 ++ ['\n']) = some (p.1, rstripChar '/' p.2) := by
  obtain ⟨name, path⟩ := p
  obtain ⟨⟨h0, h1⟩, ⟨q, hq⟩, h3⟩ := h
  simp only at h0 h1 hq h3 ⊢
  obtain ⟨c, n, rfl⟩ : ∃ c n, name = c :: n := by
    cases name with
    | nil => exact absurd rfl h0
    | cons c n => exact ⟨c, n, rfl⟩
  have hc : isSpace c = false := h1 c (by simp)
  have hne : path ≠ [] := by rw [hq]; simp
  obtain ⟨r, d, hr⟩ : ∃ r d, path = r ++ [d] := ⟨_, _, (List.dropLast_concat_getLast hne).symm⟩
  have hd := h3 r d hr
  have hstrip : strip (c :: n ++ ' ' :: path ++ ['\n']) = c :: n ++ ' ' :: path := by
    have e1 : (c :: n ++ ' ' :: path ++ ['\n']).dropWhile isSpace = c :: n ++ ' ' :: path ++ ['\n'] := by
      simp [List.dropWhile, hc]
    rw [strip, e1, List.reverse_append, hr]
    have e2 : (['\n'].reverse ++ (c :: n ++ ' ' :: (r ++ [d])).reverse).dropWhile isSpace = (c :: n ++ ' ' :: (r ++ [d])).reverse := by
      have : (c :: n ++ ' ' :: (r ++ [d])).reverse = d :: (c :: n ++ ' ' :: r).reverse := by
        simp
      rw [this]
      exact dropWhile_stop_at (a := ['\n']) (by intro c hc; rw [List.mem_singleton.mp hc]; decide) hd
    rw [e2, List.reverse_reverse]
  rw [pacmanLine, hstrip, splitWord]
  have f1 : (c :: n ++ ' ' :: path).dropWhile isSpace = c :: n ++ ' ' :: path := by simp [List.dropWhile, hc]
  have hn : ∀ x ∈ c :: n, (!isSpace x) = true := fun x hx => by rw [h1 x hx]; rfl
  have f2 : (c :: n ++ ' ' :: path).dropWhile (fun c => !isSpace c) = ' ' :: path := dropWhile_stop_at hn (by decide)
  have f3 : (c :: n ++ ' ' :: path).takeWhile (fun c => !isSpace c) = c :: n := takeWhile_stop_at hn (by decide)
  have f4 : (' ' :: path).dropWhile isSpace = path := by
    rw [hq]
    simp [List.dropWhile, show isSpace ' ' = true by decide, show isSpace '/' = false by decide]
  simp only [f1, f2, f3, f4]
  rw [if_neg (by rintro (h | h); exact absurd h (by simp); exact hne h)]
  rfl

theorem pacmanSetup_printable {db : List (Str × Str)} (h : ∀ p ∈ db, Printable p) :
    pacmanSetup (pacmanOutput db) = some (db.map (fun p => (p.1, rstripChar '/' p.2))) := by
  induction db with
  | nil => rfl
  | cons p db ih =>
    have h1 := pacmanLine_printable (h p (by simp))
    have h2 := ih (fun q hq => h q (by simp [hq]))
    rw [pacmanSetup] at h2 ⊢
    rw [pacmanOutput, List.map_cons, List.mapM_cons, h1]
    rw [pacmanOutput] at h2
    rw [h2]; rfl

theorem rstripChar_plain {c : Char} {s : Str} (h : ∀ q, s ≠ q ++ [c]) : rstripChar c s = s := by
  rcases List.eq_nil_or_concat s with rfl | ⟨r, d, rfl⟩
  · rfl
  · rw [List.concat_eq_append] at h ⊢
    have : d ≠ c := fun e => h r (by rw [e])
    simp [rstripChar, List.dropWhile, this]

theorem rstripChar_one {c : Char} {s : Str} : rstripChar c (s ++ [c]) = rstripChar c s := by
  simp [rstripChar, List.dropWhile]

/-- Paths of files, as they are found and as they are listed. -/
theorem rstrip_owns {path q : Str} (hp : ∀ r, path ≠ r ++ ['/']) (hq : ∀ r, q ≠ r ++ ['/', '/']) (h0 : path ≠ []) :
    rstripChar '/' q = path ↔ q = path ∨ q = path ++ ['/'] := by
  constructor
  · intro h
    by_cases h1 : ∃ r, q = r ++ ['/']
    · obtain ⟨r, rfl⟩ := h1
      rw [rstripChar_one, rstripChar_plain] at h
      · rw [h]; exact .inr rfl
      · rintro s rfl; exact hq s (by simp)
    · rw [rstripChar_plain (fun r e => h1 ⟨r, e⟩)] at h
      exact .inl h
  · rintro (rfl | rfl)
    · exact rstripChar_plain hp
    · rw [rstripChar_one]; exact rstripChar_plain hp

theorem mem_pkgNames {l : List (Str × Str)} {n : Str} : n ∈ pkgNames l ↔ ∃ p, (n, p) ∈ l := by
  induction l with
  | nil => simp [pkgNames]
  | cons x l ih =>
    obtain ⟨m, q⟩ := x
    simp only [pkgNames, List.mem_cons, List.mem_filter, ih, decide_eq_true_eq, Prod.mk.injEq]
    constructor
    · rintro (rfl | ⟨⟨p, h⟩, _⟩)
      · exact ⟨q, .inl ⟨rfl, rfl⟩⟩
      · exact ⟨p, .inr h⟩
    · rintro ⟨p, ⟨rfl, _⟩ | h⟩
      · exact .inl rfl
      · by_cases e : n = m
        · exact .inl e
        · exact .inr ⟨⟨p, h⟩, e⟩

/-- **C96** (partial: files that are found under their absolute paths). A file is reported as installed iff it belongs to a package, and then `pkgname` is the
name of a package it belongs to; otherwise there is no `pkgname`. -/
theorem C96_installed_partial (db : List (Str × Str)) (hdb : ∀ p ∈ db, Printable p) (hs : ∀ p ∈ db, ∀ r, p.2 ≠ r ++ ['/', '/']) (path : Str)
    (h0 : path ≠ []) (hp : ∀ r, path ≠ r ++ ['/']) : ∃ files, pacmanSetup (pacmanOutput db) = some files ∧
      ((pacmanProcess files path).1 = true ↔ ∃ pkg, Owns db pkg path) ∧
      (∀ pkg, (pacmanProcess files path).2 = some pkg → Owns db pkg path) ∧
      ((pacmanProcess files path).2 = none ↔ ¬ ∃ pkg, Owns db pkg path) := by
  refine ⟨_, pacmanSetup_printable hdb, ?_⟩
  have hmem : ∀ n, (n, path) ∈ db.map (fun p => (p.1, rstripChar '/' p.2)) ↔ Owns db n path := by
    intro n
    rw [List.mem_map]
    constructor
    · rintro ⟨⟨m, q⟩, hq, e⟩
      simp only [Prod.mk.injEq] at e
      obtain ⟨rfl, e⟩ := e
      rcases (rstrip_owns hp (hs _ hq) h0).mp e with rfl | rfl
      · exact .inl hq
      · exact .inr hq
    · rintro (h | h)
      · exact ⟨_, h, by simp [rstripChar_plain hp]⟩
      · exact ⟨_, h, by simp [rstripChar_one, rstripChar_plain hp]⟩
  have hin : path ∈ (db.map (fun p => (p.1, rstripChar '/' p.2))).map Prod.snd ↔ ∃ pkg, Owns db pkg path := by
    rw [List.mem_map]
    constructor
    · rintro ⟨⟨n, q⟩, h, rfl⟩; exact ⟨n, (hmem n).mp h⟩
    · rintro ⟨n, h⟩; exact ⟨_, (hmem n).mpr h, rfl⟩
  rw [pacmanProcess]
  by_cases h : path ∈ (db.map (fun p => (p.1, rstripChar '/' p.2))).map Prod.snd
  · rw [if_pos h]
    refine ⟨by simp [hin.mp h], ?_, ?_⟩
    · intro pkg hk
      have := List.mem_of_getLast? hk
      rw [List.mem_filter] at this
      exact (hmem pkg).mp (by simpa using this.2)
    · obtain ⟨n, hn⟩ := hin.mp h
      simp only [List.getLast?_eq_none_iff]
      constructor
      · intro e
        have : n ∈ (pkgNames (db.map (fun p => (p.1, rstripChar '/' p.2)))).filter (fun n => decide ((n, path) ∈ db.map (fun p => (p.1, rstripChar '/' p.2)))) :=
          List.mem_filter.mpr ⟨mem_pkgNames.mpr ⟨path, (hmem n).mpr hn⟩, by simpa using (hmem n).mpr hn⟩
        rw [e] at this; simp at this
      · intro e; exact absurd ⟨n, hn⟩ e
  · rw [if_neg h]
    have hno : ¬ ∃ pkg, Owns db pkg path := fun e => h (hin.mpr e)
    refine ⟨by simpa using hno, by simp, by simpa using hno⟩

example : ∃ files, pacmanSetup (pacmanOutput [(['g', 'o'], ['/', 'a', '/']), (['g', 'o'], ['/', 'a', '/', 'b', ' ', 'c'])]) = some files ∧
    pacmanProcess files ['/', 'a'] = (true, some ['g', 'o']) ∧ pacmanProcess files ['/', 'a', '/', 'b', ' ', 'c'] = (true, some ['g', 'o']) ∧
    pacmanProcess files ['/', 'c'] = (false, none) := ⟨_, rfl, by decide, by decide, by decide⟩

/-- **C96** (false). A file that is found under a relative path is never reported as installed. -/
theorem C96_relative_false (db : List (Str × Str)) (hdb : ∀ p ∈ db, Printable p) (path : Str) (hp : ∀ q, path ≠ '/' :: q) (h0 : path ≠ []) :
    ∃ files, pacmanSetup (pacmanOutput db) = some files ∧ pacmanProcess files path = (false, none) := by
  refine ⟨_, pacmanSetup_printable hdb, ?_⟩
  rw [pacmanProcess, if_neg]
  rw [List.mem_map]
  rintro ⟨x, hx, rfl⟩
  obtain ⟨p, hp', rfl⟩ := List.mem_map.mp hx
  obtain ⟨q, hq⟩ := (hdb p hp').path
  have key : ∀ s : Str, (∃ t, rstripChar '/' ('/' :: s) = '/' :: t) ∨ rstripChar '/' ('/' :: s) = [] := by
    intro s
    have : ∃ w, '/' :: s = rstripChar '/' ('/' :: s) ++ w :=
      ⟨((('/' :: s).reverse).takeWhile (· = '/')).reverse, by
        rw [rstripChar, ← List.reverse_append, List.takeWhile_append_dropWhile, List.reverse_reverse]⟩
    obtain ⟨w, hw⟩ := this
    cases hr : rstripChar '/' ('/' :: s) with
    | nil => exact .inr rfl
    | cons c t =>
      rw [hr] at hw
      simp only [List.cons_append, List.cons.injEq] at hw
      exact .inl ⟨t, by rw [← hw.1]⟩
  simp only [hq] at hp h0
  rcases key q with ⟨t, ht⟩ | ht
  · exact hp t ht
  · exact h0 ht

/-- The same for a particular file: `/a/b` belongs to a package, and is not reported as installed when `/a` is searched from `/` under the name `a`. -/
theorem C96_witness_false : ∃ db path files, Owns db ['g', 'o'] ('/' :: path) ∧ pacmanSetup (pacmanOutput db) = some files ∧ pacmanProcess files path = (false, none) :=
  ⟨[(['g', 'o'], ['/', 'a', '/', 'b'])], ['a', '/', 'b'], _, .inl (by simp), rfl, by decide⟩

/-- **C96** (false). A path that ends in a blank is misread. -/
theorem C96_blank_false : ∃ db path files, Owns db ['g', 'o'] path ∧ pacmanSetup (pacmanOutput db) = some files ∧ pacmanProcess files path = (false, none) :=
  ⟨[(['g', 'o'], ['/', 'a', ' '])], ['/', 'a', ' '], _, .inl (by simp), rfl, by decide⟩

end FF
