import Verif.Model.Git
import Verif.Spec.Git
import Verif.Spec.Arguments
import Verif.Props.Ignore
import Verif.Props.Reference
/-! C75, C76: the git plugin. -/
namespace FF
open Spec

/-! ### Lines -/

theorem splitlinesLoop_line {l : Str} (h : ∀ c ∈ l, isLineBreak c = false) (cur rest : Str) :
    splitlinesLoop cur (l ++ '\n' :: rest) = (cur.reverse ++ l) :: splitlinesLoop [] rest := by
  induction l generalizing cur with
  | nil => rw [List.nil_append, splitlinesLoop]; simp [isLineBreak]; simp
  | cons c l ih =>
    have hc := h c (by simp)
    have hr : c ≠ '\r' := by rintro rfl; simp [isLineBreak] at hc
    rw [List.cons_append, splitlinesLoop, hc, if_neg (by simp), ih (fun x hx => h x (by simp [hx]))]
    · simp
    · rintro s rfl; exact absurd rfl hr

theorem splitlines_lines {ls : List Str} (h : ∀ l ∈ ls, ∀ c ∈ l, isLineBreak c = false) : splitlines (ls.flatMap (· ++ ['\n'])) = ls := by
  unfold splitlines
  induction ls with
  | nil => rfl
  | cons l ls ih =>
    rw [List.flatMap_cons, List.append_assoc, List.singleton_append, splitlinesLoop_line (h l (by simp)), ih (fun x hx => h x (by simp [hx]))]
    rfl

theorem printable_no_break {c : Char} (h : ' ' ≤ c ∧ c ≤ '~') : isLineBreak c = false := by
  obtain ⟨h1, h2⟩ := h
  unfold isLineBreak
  simp only [Bool.or_eq_false_iff, decide_eq_false_iff_not]
  refine ⟨⟨⟨⟨⟨⟨⟨⟨⟨?_, ?_⟩, ?_⟩, ?_⟩, ?_⟩, ?_⟩, ?_⟩, ?_⟩, ?_⟩, ?_⟩ <;> rintro rfl <;> revert h1 h2 <;> decide

theorem octal_printable (b : UInt8) : ∀ c ∈ octal b, ' ' ≤ c ∧ c ≤ '~' := by
  have hb : b.toNat < 256 := b.toNat_lt
  have key : ∀ k, k < 8 → ' ' ≤ Char.ofNat (48 + k) ∧ Char.ofNat (48 + k) ≤ '~' := by decide
  intro c hc
  simp only [octal, List.mem_cons, List.not_mem_nil, or_false] at hc
  rcases hc with rfl | rfl | rfl <;> exact key _ (by omega)

theorem gitEscape_printable (x : Char) : ∀ c ∈ gitEscape x, ' ' ≤ c ∧ c ≤ '~' := by
  unfold gitEscape
  intro c hc
  split at hc
  · rename_i h; simp at hc; subst hc; exact ⟨h.1, h.2.1⟩
  repeat (split at hc; · simp only [List.mem_cons, List.not_mem_nil, or_false] at hc; rcases hc with rfl | rfl <;> decide)
  obtain ⟨b, _, hb⟩ := List.mem_flatMap.1 hc
  rcases List.mem_cons.1 hb with rfl | hb
  · decide
  · exact octal_printable b c hb

theorem gitQuoted_printable (n : Str) : ∀ c ∈ gitQuoted n, ' ' ≤ c ∧ c ≤ '~' := by
  intro c hc
  simp only [gitQuoted, List.cons_append, List.mem_cons, List.mem_append, List.not_mem_nil, or_false] at hc
  rcases hc with rfl | hc | rfl
  · decide
  · obtain ⟨x, _, hx⟩ := List.mem_flatMap.1 hc
    exact gitEscape_printable x c hx
  · decide

theorem gitStatusName_printable (f : List Str) : ∀ c ∈ gitStatusName f, ' ' ≤ c ∧ c ≤ '~' := by
  unfold gitStatusName
  split
  · rename_i h; intro c hc; exact ⟨(h.1 c hc).1, (h.1 c hc).2.1⟩
  · exact gitQuoted_printable _

/-! ### The output of git -/

theorem filelist_eq (w : GitWorld) (dir : Str) {files : List (List Str)} (h : w.lsFiles dir = gitLsFiles files) :
    gitFilelist w dir = files.map (fun f => osJoin dir (if ∀ c ∈ pathOf f, PlainChar c then pathOf f else gitQuoted (pathOf f))) := by
  unfold gitFilelist
  rw [h]
  have : gitLsFiles files = (files.map (fun f => if ∀ c ∈ pathOf f, PlainChar c then pathOf f else gitQuoted (pathOf f))).flatMap (· ++ ['\n']) := by
    simp [gitLsFiles, List.flatMap_map]
  rw [this, splitlines_lines, List.map_map]
  · rfl
  · intro l hl
    obtain ⟨f, _, rfl⟩ := List.mem_map.1 hl
    intro c hc
    apply printable_no_break
    split at hc
    · rename_i h; exact ⟨(h c hc).1, (h c hc).2.1⟩
    · exact gitQuoted_printable _ c hc

theorem letters_printable {x : Char} (h : x ∈ " MTADRCU".toList) : ' ' ≤ x ∧ x ≤ '~' := by
  revert x; decide

theorem letters_space {x : Char} (h : x ∈ " MTADRCU".toList) : isSpace x = true ↔ x = ' ' := by
  revert x; decide

/-- A name as it begins in the status. -/
theorem gitStatusName_head {f : List Str} (hf : f ≠ []) (hn : ∀ x ∈ f, IsFileName x) : ∃ c t, gitStatusName f = c :: t ∧ isSpace c = false := by
  unfold gitStatusName
  split
  · rename_i h
    cases hp : pathOf f with
    | nil => exact absurd hp (pathOf_ne_nil hf hn)
    | cons c t =>
      refine ⟨c, t, rfl, ?_⟩
      have h1 := h.1 c (by simp [hp])
      have h2 : c ≠ ' ' := by rintro rfl; exact h.2 (by simp [hp])
      obtain ⟨h3, -, -, -⟩ := h1
      unfold isSpace
      simp only [Bool.or_eq_false_iff, decide_eq_false_iff_not]
      refine ⟨⟨⟨⟨⟨h2, ?_⟩, ?_⟩, ?_⟩, ?_⟩, ?_⟩ <;> rintro rfl <;> revert h3 <;> decide
  · exact ⟨'"', _, rfl, by decide⟩

theorem splitWord_letters {x y : Char} (h : StatusLetters x y) {n : Str} (hn : ∃ c t, n = c :: t ∧ isSpace c = false) :
    ∃ s, splitWord (x :: y :: ' ' :: n) = some (s, n) ∧ s ≠ ['?', '?'] := by
  obtain ⟨hx, hy, hxy⟩ := h
  obtain ⟨c, t, rfl, hc⟩ := hn
  have hs : isSpace ' ' = true := by decide
  have qx : x ≠ '?' := by rintro rfl; revert hx; decide
  have qy : y ≠ '?' := by rintro rfl; revert hy; decide
  by_cases x0 : x = ' '
  · subst x0
    have y0 : y ≠ ' ' := fun e => hxy ⟨rfl, e⟩
    have ys : isSpace y = false := by simpa using fun e => y0 ((letters_space hy).1 e)
    exact ⟨[y], by simp [splitWord, hs, ys, hc], by simp⟩
  · have xs : isSpace x = false := by simpa using fun e => x0 ((letters_space hx).1 e)
    by_cases y0 : y = ' '
    · subst y0
      exact ⟨[x], by simp [splitWord, hs, xs, hc], by simp⟩
    · have ys : isSpace y = false := by simpa using fun e => y0 ((letters_space hy).1 e)
      exact ⟨[x, y], by simp [splitWord, hs, xs, ys, hc], by simp [qx]⟩

/-- What the plugin takes for the name of a changed file. -/
def changeText : GitChange → Option Str
  | .changed _ _ f => some (gitStatusName f)
  | .renamed _ _ a b => some (gitStatusName a ++ " -> ".toList ++ gitStatusName b)
  | .untracked _ => none

theorem statusLine_eq (dir : Str) {c : GitChange} (h : c.Proper) : gitStatusLine dir c.line = some ((changeText c).toList.map (osJoin dir)) := by
  unfold gitStatusLine
  cases c with
  | changed x y f =>
    obtain ⟨s, h1, h2⟩ := splitWord_letters h.1 (gitStatusName_head h.2.1 h.2.2)
    simp [GitChange.line, h1, h2, changeText]
  | renamed x y a b =>
    obtain ⟨c, t, e, hc⟩ := gitStatusName_head h.2.1.1 h.2.1.2
    obtain ⟨s, h1, h2⟩ := splitWord_letters h.1 (n := gitStatusName a ++ " -> ".toList ++ gitStatusName b) ⟨c, t ++ " -> ".toList ++ gitStatusName b, by rw [e]; rfl, hc⟩
    have : GitChange.line (.renamed x y a b) = x :: y :: ' ' :: (gitStatusName a ++ " -> ".toList ++ gitStatusName b) := rfl
    rw [this, h1]
    simp [h2, changeText]
  | untracked f =>
    obtain ⟨c, t, e, hc⟩ := gitStatusName_head h.1 h.2
    have hs : isSpace ' ' = true := by decide
    have hq : isSpace '?' = false := by decide
    simp [GitChange.line, e, splitWord, hs, hq, hc, changeText]

theorem line_printable {c : GitChange} (h : c.Proper) : ∀ x ∈ c.line, ' ' ≤ x ∧ x ≤ '~' := by
  intro z hz
  cases c with
  | changed x y f =>
    simp only [GitChange.line, List.mem_cons] at hz
    rcases hz with rfl | rfl | rfl | hz
    · exact letters_printable h.1.1
    · exact letters_printable h.1.2.1
    · decide
    · exact gitStatusName_printable f z hz
  | renamed x y a b =>
    simp only [GitChange.line, List.mem_cons, List.cons_append, List.mem_append] at hz
    rcases hz with rfl | rfl | rfl | (hz | hz) | hz
    · exact letters_printable h.1.1
    · exact letters_printable h.1.2.1
    · decide
    · exact gitStatusName_printable a z hz
    · revert z; decide
    · exact gitStatusName_printable b z hz
  | untracked f =>
    simp only [GitChange.line, List.mem_cons] at hz
    rcases hz with rfl | rfl | rfl | hz
    · decide
    · decide
    · decide
    · exact gitStatusName_printable f z hz

theorem mapM_some {α β : Type} {f : α → Option β} {g : α → β} {l : List α} (h : ∀ x ∈ l, f x = some (g x)) : l.mapM f = some (l.map g) := by
  induction l with
  | nil => rfl
  | cons x l ih => simp [List.mapM_cons, h x (by simp), ih (fun y hy => h y (by simp [hy]))]

theorem status_eq (w : GitWorld) (dir : Str) {cs : List GitChange} (h : w.status dir = gitPorcelain cs) (hp : ∀ c ∈ cs, c.Proper) :
    gitStatus w dir = some ((cs.filterMap changeText).map (osJoin dir)) := by
  unfold gitStatus
  have : gitPorcelain cs = (cs.map GitChange.line).flatMap (· ++ ['\n']) := by simp [gitPorcelain, List.flatMap_map]
  rw [h, this, splitlines_lines]
  · have e : (cs.map GitChange.line).mapM (gitStatusLine dir) = some (cs.map (fun c => (changeText c).toList.map (osJoin dir))) := by
      rw [List.mapM_map]
      exact mapM_some (fun c hc => statusLine_eq dir (hp c hc))
    rw [e]
    simp only [Option.map_some, Option.some.injEq]
    clear h hp this e
    induction cs with
    | nil => rfl
    | cons c cs ih =>
      rw [List.map_cons, List.flatten_cons, ih, List.filterMap_cons]
      cases changeText c <;> simp
  · intro l hl
    obtain ⟨c, hc, rfl⟩ := List.mem_map.1 hl
    exact fun x hx => printable_no_break (line_printable (hp c hc) x hx)

/-! ### The repository of a directory -/

theorem absPath_ne_nil (p : List Str) : absPath p ≠ [] := by simp [absPath]

theorem absPath_eq_root {p : List Str} (h : ∀ x ∈ p, IsFileName x) : absPath p = ['/'] ↔ p = [] := by
  constructor
  · intro e
    exact Classical.byContradiction (fun hp => pathOf_ne_nil hp h (by simpa [absPath] using e))
  · rintro rfl; rfl

theorem absPath_inj {a b : List Str} (ha : ∀ x ∈ a, IsFileName x) (hb : ∀ x ∈ b, IsFileName x) (h : absPath a = absPath b) : a = b :=
  pathOf_inj ha hb (by simpa [absPath] using h)

theorem dirname_absPath {p : List Str} (h : ∀ x ∈ p, IsFileName x) (hp : p ≠ []) : dirname (absPath p) = absPath p.dropLast := by
  have := allSlash_dirname_abs h hp
  have e1 : absOf ['/'] p = absPath p := by simp [absOf, absPath]
  have e2 : absDir ['/'] p.dropLast = absPath p.dropLast := by
    unfold absDir
    split
    · rename_i h; rw [h]; rfl
    · simp [absOf, absPath]
  rw [← e1, this, e2]

theorem pathOf_last {p : List Str} (h : ∀ x ∈ p, IsFileName x) (hp : p ≠ []) : ∃ t c, pathOf p = t ++ [c] ∧ c ≠ '/' := by
  obtain ⟨i, m, rfl⟩ : ∃ i m, p = i ++ [m] := ⟨_, _, (List.dropLast_concat_getLast hp).symm⟩
  have hm := h m (by simp)
  obtain ⟨m2, c, rfl⟩ : ∃ m2 c, m = m2 ++ [c] := ⟨_, _, (List.dropLast_concat_getLast hm.1).symm⟩
  have hc : c ≠ '/' := by rintro rfl; exact hm.2 (by simp)
  by_cases h2 : i = []
  · subst h2; exact ⟨m2, c, by simp [pathOf], hc⟩
  · exact ⟨pathOf i ++ '/' :: m2, c, by rw [pathOf_append h2 (by simp)]; simp [pathOf], hc⟩

/-- Joining a directory and a relative name. -/
theorem osJoin_absPath {p : List Str} (h : ∀ x ∈ p, IsFileName x) {n : Str} (hn : startsWith n ['/'] = false) :
    osJoin (absPath p) n = if p = [] then '/' :: n else '/' :: pathOf p ++ '/' :: n := by
  unfold osJoin
  rw [hn, if_neg (by simp)]
  by_cases hp : p = []
  · subst hp; simp [absPath, pathOf]
  · obtain ⟨t, c, e, hc⟩ := pathOf_last h hp
    rw [if_neg, if_neg hp]
    · rfl
    · rw [absPath, e]
      rintro (h | h)
      · simp at h
      · rw [← List.cons_append, List.getLast?_append] at h
        simp [hc] at h

theorem pathOf_first {f : List Str} (hf : RepoFile f) : ∃ c t, pathOf f = c :: t ∧ c ≠ '/' := by
  obtain ⟨hne, hn⟩ := hf
  cases f with
  | nil => exact absurd rfl hne
  | cons x f =>
    have hx := hn x (by simp)
    cases x with
    | nil => exact absurd rfl hx.1
    | cons c t =>
      have hc : c ≠ '/' := by rintro rfl; exact hx.2 (by simp)
      cases f with
      | nil => exact ⟨c, t, rfl, hc⟩
      | cons y f => exact ⟨c, _, rfl, hc⟩

theorem osJoin_file {p f : List Str} (h : ∀ x ∈ p, IsFileName x) (hf : RepoFile f) : osJoin (absPath p) (pathOf f) = absPath (p ++ f) := by
  obtain ⟨c, t, e, hc⟩ := pathOf_first hf
  rw [osJoin_absPath h (by rw [e]; simp [startsWith, List.isPrefixOf, Ne.symm hc])]
  split
  · rename_i hp; subst hp; rfl
  · rename_i hp; rw [absPath, pathOf_append hp hf.1]; rfl

/-- What is true about the repository of a directory, without the cache. -/
def repoOf (w : GitWorld) (files : Str → List Str) : List Str → GitRepo
  | [] => if w.isdir (osJoin ['/'] ".git".toList) then some (['/'], gitFilelist w ['/'], files ['/']) else none
  | c :: r =>
    let dir := absPath (c :: r).reverse
    if w.isdir (osJoin dir ".git".toList) then some (dir, gitFilelist w dir, files dir) else repoOf w files r

theorem findRepo_eq (w : GitWorld) (files : Str → List Str) (hst : ∀ p, gitStatus w (absPath p) = some (files (absPath p)))
    (r : List Str) (hr : ∀ x ∈ r, IsFileName x) (n : Nat) (hn : r.length < n) (cache : List (Str × GitRepo))
    (hc : ∀ q, (∀ x ∈ q, IsFileName x) → ∀ v, cache.lookup (absPath q.reverse) = some v → v = repoOf w files q) :
    ∃ cache', findRepo w n cache (absPath r.reverse) = some (repoOf w files r, cache') ∧
      ∀ q, (∀ x ∈ q, IsFileName x) → ∀ v, cache'.lookup (absPath q.reverse) = some v → v = repoOf w files q := by
  have add : ∀ (cache : List (Str × GitRepo)), (∀ q, (∀ x ∈ q, IsFileName x) → ∀ v, cache.lookup (absPath q.reverse) = some v → v = repoOf w files q) →
      ∀ r, (∀ x ∈ r, IsFileName x) → ∀ q, (∀ x ∈ q, IsFileName x) → ∀ v, ((absPath r.reverse, repoOf w files r) :: cache).lookup (absPath q.reverse) = some v → v = repoOf w files q := by
    intro cache hc r hr q hq v hv
    rw [List.lookup_cons] at hv
    by_cases e : absPath q.reverse = absPath r.reverse
    · have e2 := absPath_inj (by simpa using hq) (by simpa using hr) e
      have e3 : q = r := by simpa using e2
      subst e3
      simp at hv
      exact hv.symm
    · have : (absPath q.reverse == absPath r.reverse) = false := by simpa using e
      rw [this] at hv
      exact hc q hq v hv
  induction r generalizing n cache with
  | nil =>
    obtain ⟨n, rfl⟩ : ∃ m, n = m + 1 := ⟨n - 1, by simp at hn; omega⟩
    rw [findRepo]
    cases hl : cache.lookup (absPath [].reverse) with
    | some v => exact ⟨cache, by rw [hc [] (by simp) v hl], hc⟩
    | none =>
      have e : absPath ([] : List Str).reverse = ['/'] := rfl
      have ha := add cache hc [] (by simp)
      rw [e] at ha ⊢
      have hs := hst []
      rw [show absPath [] = ['/'] from rfl] at hs
      simp only
      by_cases hd : w.isdir (osJoin ['/'] ".git".toList) = true
      · rw [if_pos hd, hs, Option.map_some]
        simp only [repoOf, if_pos hd] at ha ⊢
        exact ⟨_, rfl, ha⟩
      · rw [if_neg hd]; simp only [if_true]
        have e4 : repoOf w files [] = none := by simp only [repoOf, if_neg hd]
        rw [e4] at ha ⊢
        exact ⟨_, rfl, ha⟩
  | cons c r ih =>
    obtain ⟨n, rfl⟩ : ∃ m, n = m + 1 := ⟨n - 1, by simp at hn; omega⟩
    rw [findRepo]
    cases hl : cache.lookup (absPath (c :: r).reverse) with
    | some v => exact ⟨cache, by rw [hc (c :: r) hr v hl], hc⟩
    | none =>
      have hrev : ∀ x ∈ (c :: r).reverse, IsFileName x := fun x hx => hr x (List.mem_reverse.1 hx)
      have hs := hst (c :: r).reverse
      simp only
      by_cases hd : w.isdir (osJoin (absPath (c :: r).reverse) ".git".toList) = true
      · have ha := add cache hc (c :: r) hr
        have e4 : repoOf w files (c :: r) = some (absPath (c :: r).reverse, gitFilelist w (absPath (c :: r).reverse), files (absPath (c :: r).reverse)) := by
          rw [repoOf]; exact if_pos hd
        rw [if_pos hd, hs, Option.map_some]
        rw [e4] at ha ⊢
        exact ⟨_, rfl, ha⟩
      · have e4 : repoOf w files (c :: r) = repoOf w files r := by rw [repoOf]; exact if_neg hd
        have hroot : absPath (c :: r).reverse ≠ ['/'] := by rw [Ne, absPath_eq_root hrev]; simp
        have hdn : dirname (absPath (c :: r).reverse) = absPath r.reverse := by rw [dirname_absPath hrev (by simp)]; simp
        obtain ⟨cache', h1, h2⟩ := ih (fun x hx => hr x (by simp [hx])) n (by simp at hn; omega) cache hc
        rw [if_neg hd, if_neg hroot, hdn, h1, Option.map_some]
        have ha := add cache' h2 (c :: r) hr
        rw [e4] at ha ⊢
        exact ⟨_, rfl, ha⟩

theorem gitName_file : RepoFile [".git".toList] := ⟨by simp, by intro x hx; simp only [List.mem_singleton] at hx; subst hx; exact ⟨by decide, by decide⟩⟩

theorem repoOf_nearest (w : GitWorld) (files : Str → List Str) (r : List Str) (hr : ∀ x ∈ r, IsFileName x) :
    ∃ x, Nearest (fun q => w.isdir (absPath (q ++ [".git".toList])) = true) r.reverse x ∧
      repoOf w files r = x.map (fun p => (absPath p, gitFilelist w (absPath p), files (absPath p))) := by
  have hj : ∀ r : List Str, (∀ x ∈ r, IsFileName x) → osJoin (absPath r.reverse) ".git".toList = absPath (r.reverse ++ [".git".toList]) := by
    intro r hr
    have := osJoin_file (p := r.reverse) (fun x hx => hr x (List.mem_reverse.1 hx)) gitName_file
    rwa [show pathOf [".git".toList] = ".git".toList from rfl] at this
  induction r with
  | nil =>
    have := hj [] (by simp)
    rw [show absPath ([] : List Str).reverse = ['/'] from rfl, List.reverse_nil] at this
    by_cases hd : w.isdir (osJoin ['/'] ".git".toList) = true
    · refine ⟨some [], ⟨List.nil_prefix, by simp only; rw [← this]; exact hd, fun q hq _ => by simpa using hq⟩, ?_⟩
      simp only [repoOf, if_pos hd]; rfl
    · refine ⟨none, ?_, ?_⟩
      · intro q hq
        have e : q = [] := by simpa using hq
        subst e
        simp only; rw [← this]; exact hd
      · simp only [repoOf, if_neg hd]; rfl
  | cons c r ih =>
    have := hj (c :: r) hr
    by_cases hd : w.isdir (osJoin (absPath (c :: r).reverse) ".git".toList) = true
    · refine ⟨some (c :: r).reverse, ⟨List.prefix_rfl, by simp only; rw [← this]; exact hd, fun q hq _ => hq⟩, ?_⟩
      rw [repoOf]; exact if_pos hd
    · obtain ⟨x, h1, h2⟩ := ih (fun x hx => hr x (by simp [hx]))
      refine ⟨x, ?_, by rw [← h2, repoOf]; exact if_neg hd⟩
      rw [List.reverse_cons]
      have key : ∀ q, q <+: r.reverse ++ [c] → w.isdir (absPath (q ++ [".git".toList])) = true → q <+: r.reverse := by
        intro q hq hw
        rcases List.prefix_concat_iff.1 hq with rfl | h
        · rw [this, List.reverse_cons] at hd; exact absurd hw hd
        · exact h
      cases x with
      | none => exact fun q hq hw => h1 q (key q hq hw) hw
      | some p => exact ⟨h1.1.trans (List.prefix_append _ _), h1.2.1, fun q hq hw => h1.2.2 q (key q hq hw) hw⟩

theorem pathOf_length {p : List Str} (h : ∀ x ∈ p, IsFileName x) : p.length ≤ (pathOf p).length := by
  induction p with
  | nil => simp [pathOf]
  | cons x p ih =>
    have hx : 0 < x.length := List.length_pos_iff.2 (h x (by simp)).1
    have := ih (fun y hy => h y (by simp [hy]))
    cases p with
    | nil => simp [pathOf]; omega
    | cons y p => simp [pathOf] at this ⊢; omega

/-- The directory in which the plugin starts to look. -/
def lookDir (e : List Str × Bool) : List Str := if e.2 then e.1 else e.1.dropLast

theorem gitEntries_eq (w : GitWorld) (files : Str → List Str) (hst : ∀ p, gitStatus w (absPath p) = some (files (absPath p)))
    (es : List (List Str × Bool)) (he : ∀ e ∈ es, RepoFile e.1) (cache : List (Str × GitRepo))
    (hc : ∀ q, (∀ x ∈ q, IsFileName x) → ∀ v, cache.lookup (absPath q.reverse) = some v → v = repoOf w files q) :
    gitEntries w cache (es.map (fun e => (absPath e.1, e.2))) = some (es.map (fun e => (repoOf w files (lookDir e).reverse).map
      (fun g => ⟨g.1, g.1 = absPath e.1, gitIn (absPath e.1) e.2 g.2.1, gitIn (absPath e.1) e.2 g.2.2⟩))) := by
  induction es generalizing cache with
  | nil => rfl
  | cons e es ih =>
    have hee := he e (by simp)
    have hdir : (if e.2 = true then absPath e.1 else dirname (absPath e.1)) = absPath (lookDir e).reverse.reverse := by
      unfold lookDir
      split
      · simp
      · rw [dirname_absPath hee.2 hee.1, List.reverse_reverse]
    have hn : ∀ x ∈ (lookDir e).reverse, IsFileName x := by
      intro x hx
      rw [List.mem_reverse] at hx
      unfold lookDir at hx
      split at hx
      · exact hee.2 x hx
      · exact hee.2 x (List.dropLast_subset _ hx)
    obtain ⟨cache', h1, h2⟩ := findRepo_eq w files hst (lookDir e).reverse hn ((absPath (lookDir e).reverse.reverse).length + 1) (by
      have := pathOf_length (p := (lookDir e).reverse.reverse) (fun x hx => hn x (List.mem_reverse.1 hx))
      simp [absPath] at this ⊢; omega) cache hc
    rw [List.map_cons, gitEntries]
    simp only [gitProcess, hdir, h1, Option.map_some]
    rw [ih (fun x hx => he x (by simp [hx])) cache' h2]
    simp

theorem status_total {w : GitWorld} {tracked : List Str → List (List Str)} {changes : List Str → List GitChange} (hg : GitPrints w.lsFiles w.status tracked changes) :
    ∃ files : Str → List Str, ∀ p, gitStatus w (absPath p) = some (files (absPath p)) :=
  ⟨fun d => (gitStatus w d).getD [], fun p => by simp only; rw [status_eq w _ (hg.st p) (hg.proper p)]; rfl⟩

/-- C75: whatever the plugin was asked before, `repo_dir` is the nearest directory, among the directory of a file and those it is in, that contains a directory
`.git`; without one there is no data. `repo` holds exactly for directories that contain a directory `.git`. -/
theorem C75_repo {w : GitWorld} {tracked : List Str → List (List Str)} {changes : List Str → List GitChange} (hg : GitPrints w.lsFiles w.status tracked changes)
    (es : List (List Str × Bool)) (he : ∀ e ∈ es, RepoFile e.1) :
    ∃ rs, gitEntries w [] (es.map (fun e => (absPath e.1, e.2))) = some rs ∧ All2 (fun e d =>
      ∃ r, Nearest (fun q => w.isdir (absPath (q ++ [".git".toList])) = true) (if e.2 then e.1 else e.1.dropLast) r ∧
        d.map GitData.repoDir = r.map absPath ∧
        ∀ x, d = some x → (x.repo = true ↔ e.2 = true ∧ w.isdir (absPath (e.1 ++ [".git".toList])) = true)) es rs := by
  obtain ⟨files, hst⟩ := status_total hg
  refine ⟨_, gitEntries_eq w files hst es he [] (by simp), ?_⟩
  clear hst
  induction es with
  | nil => exact .nil
  | cons e es ih =>
    refine .cons ?_ (ih (fun x hx => he x (by simp [hx])))
    have hee := he e (by simp)
    have hn : ∀ x ∈ lookDir e, IsFileName x := by
      intro x hx
      unfold lookDir at hx
      split at hx
      · exact hee.2 x hx
      · exact hee.2 x (List.dropLast_subset _ hx)
    obtain ⟨r, h1, h2⟩ := repoOf_nearest w files (lookDir e).reverse (fun x hx => hn x (List.mem_reverse.1 hx))
    rw [List.reverse_reverse] at h1
    refine ⟨r, h1, by simp only; rw [h2]; cases r <;> rfl, ?_⟩
    intro x hx
    simp only at hx
    rw [h2] at hx
    cases r with
    | none => simp at hx
    | some p =>
      simp only [Option.map_some, Option.some.injEq] at hx
      subst hx
      have hp : ∀ x ∈ p, IsFileName x := fun x hx => hn x (h1.1.subset hx)
      simp only [decide_eq_true_eq]
      constructor
      · intro e1
        have e2 := absPath_inj hp hee.2 e1
        subst e2
        have : e.2 = true := by
          apply Classical.byContradiction
          intro hf
          have := h1.1
          unfold lookDir at this
          rw [if_neg hf] at this
          have := this.length_le
          have := List.length_pos_iff.2 hee.1
          simp at *
          omega
        exact ⟨this, h1.2.1⟩
      · rintro ⟨e1, e2⟩
        have : lookDir e = e.1 := by simp [lookDir, e1]
        rw [this] at h1
        exact congrArg absPath (h1.1.eq_of_length_le (h1.2.2 e.1 List.prefix_rfl e2).length_le)

example : gitEntries ⟨fun p => p = "/r/.git".toList, fun _ => "a\nb/c\n".toList, fun _ => " M a\n".toList⟩ [] [("/r/b/c".toList, false), ("/r/b".toList, true), ("/r".toList, true), ("/x".toList, false)] =
    some [some ⟨"/r".toList, false, true, false⟩, some ⟨"/r".toList, false, true, false⟩, some ⟨"/r".toList, true, true, true⟩, none] := by decide

/-- C75 fails in linked working trees and submodules, where `.git` is a file (gitrepository-layout(5)): only directories `.git` are looked for. -/
theorem C75_gitfile_false (lsFiles status : Str → Str) : ∃ isdir isfile : Str → Bool, isfile "/r/.git".toList = true ∧ (∀ p, ¬ (isdir p = true ∧ isfile p = true)) ∧
    gitEntries ⟨isdir, lsFiles, status⟩ [] [("/r/a".toList, false)] = some [none] :=
  ⟨fun p => p = ['/'] || p = "/r".toList, fun p => p = "/r/.git".toList, by decide, by
    intro p
    simp only [Bool.or_eq_true, decide_eq_true_eq]
    rintro ⟨rfl | rfl, h⟩ <;> revert h <;> decide, by rfl⟩

/-! ### Tracked and changed files -/

theorem prefix_pathOf {a b : List Str} (ha : ∀ x ∈ a, IsFileName x) (hb : ∀ x ∈ b, IsFileName x) (hne : a ≠ []) :
    pathOf a ++ ['/'] <+: pathOf b ↔ a <+: b ∧ a ≠ b := by
  constructor
  · rintro ⟨t, ht⟩
    have hbne : b ≠ [] := by
      rintro rfl
      simp [pathOf] at ht
    have e := congrArg (splitOn '/') ht
    rw [List.append_assoc, List.singleton_append, splitOn_append_sep', splitOn_pathOf hne (fun x hx => (ha x hx).2),
      splitOn_pathOf hbne (fun x hx => (hb x hx).2)] at e
    refine ⟨⟨_, e⟩, ?_⟩
    rintro rfl
    have := congrArg List.length e
    have h2 : splitOn '/' t ≠ [] := by
      cases t with
      | nil => simp [splitOn]
      | cons c t =>
        rw [splitOn]
        split
        · simp
        · split <;> simp
    have h3 := List.length_pos_iff.2 h2
    rw [List.length_append] at this
    omega
  · rintro ⟨⟨t, rfl⟩, h⟩
    have ht : t ≠ [] := by rintro rfl; simp at h
    exact ⟨pathOf t, by rw [pathOf_append hne ht]; simp⟩

theorem gitIn_iff {p rel : List Str} (hp : ∀ x ∈ p, IsFileName x) (hr : ∀ x ∈ rel, IsFileName x) (hne : p ++ rel ≠ []) {isDir : Bool} (hd : isDir = false → rel ≠ [])
    {α : Type} (items : List α) (text : α → Str) (file : α → List Str) (h1 : ∀ i ∈ items, startsWith (text i) ['/'] = false ∧ file i ≠ [])
    (h2 : isDir = false → ∀ i ∈ items, text i = pathOf rel ↔ rel = file i)
    (h3 : isDir = true → rel ≠ [] → ∀ i ∈ items, pathOf rel ++ ['/'] <+: text i ↔ rel <+: file i ∧ rel ≠ file i) :
    gitIn (absPath (p ++ rel)) isDir (items.map (fun i => osJoin (absPath p) (text i))) = true ↔ ∃ i ∈ items, Concerns rel isDir (file i) := by
  obtain ⟨base, hb1, hb2⟩ : ∃ base, (∀ n, startsWith n ['/'] = false → osJoin (absPath p) n = base ++ n) ∧ (rel ≠ [] → absPath (p ++ rel) = base ++ pathOf rel) ∧
      (rel = [] → absPath (p ++ rel) ++ ['/'] = base) := by
    by_cases hp0 : p = []
    · subst hp0
      refine ⟨['/'], fun n hn => by rw [osJoin_absPath hp hn]; simp, fun _ => rfl, fun h => ?_⟩
      subst h; exact absurd rfl hne
    · refine ⟨'/' :: pathOf p ++ ['/'], fun n hn => by rw [osJoin_absPath hp hn]; simp [hp0], fun h => by rw [absPath, pathOf_append hp0 h]; simp, ?_⟩
      rintro rfl; simp [absPath]
  have hm : items.map (fun i => osJoin (absPath p) (text i)) = items.map (fun i => base ++ text i) :=
    List.map_congr_left (fun i hi => hb1 _ (h1 i hi).1)
  rw [hm]
  unfold gitIn Concerns
  cases isDir with
  | false =>
    have hr0 := hd rfl
    simp only [Bool.false_eq_true, if_false, List.contains_iff_mem, List.mem_map, hb2.1 hr0, List.append_cancel_left_eq]
    exact exists_congr (fun i => and_congr_right (fun hi => h2 rfl i hi))
  | true =>
    simp only [if_true, List.any_map, List.any_eq_true, Function.comp]
    refine exists_congr (fun i => and_congr_right (fun hi => ?_))
    rw [startsWith_iff_prefix]
    by_cases hr0 : rel = []
    · rw [hb2.2 hr0]
      have := (h1 i hi).2
      subst hr0
      simpa using Ne.symm this
    · rw [hb2.1 hr0, List.append_assoc, List.prefix_append_right_inj]
      exact h3 rfl hr0 i hi

theorem plain_first {rel : List Str} (hr : ∀ x ∈ rel, IsFileName x) (hne : rel ≠ []) (hp : PlainFile rel) : ∃ c t, pathOf rel = c :: t ∧ c ≠ '"' := by
  cases h : pathOf rel with
  | nil => exact absurd h (pathOf_ne_nil hne hr)
  | cons c t => exact ⟨c, t, rfl, (hp c (by rw [h]; simp)).2.2.1⟩

theorem entry_place (w : GitWorld) (files : Str → List Str) {e : List Str × Bool} (he : RepoFile e.1) {x : GitData}
    (hx : (repoOf w files (lookDir e).reverse).map (fun g => (⟨g.1, g.1 = absPath e.1, gitIn (absPath e.1) e.2 g.2.1, gitIn (absPath e.1) e.2 g.2.2⟩ : GitData)) = some x) :
    ∃ p rel, e.1 = p ++ rel ∧ (∀ x ∈ p, IsFileName x) ∧ (∀ x ∈ rel, IsFileName x) ∧ (e.2 = false → rel ≠ []) ∧ x.repoDir = absPath p ∧
      x.tracked = gitIn (absPath (p ++ rel)) e.2 (gitFilelist w (absPath p)) ∧ x.dirty = gitIn (absPath (p ++ rel)) e.2 (files (absPath p)) := by
  have hn : ∀ x ∈ lookDir e, IsFileName x := by
    intro x hx
    unfold lookDir at hx
    split at hx
    · exact he.2 x hx
    · exact he.2 x (List.dropLast_subset _ hx)
  obtain ⟨r, h1, h2⟩ := repoOf_nearest w files (lookDir e).reverse (fun x hx => hn x (List.mem_reverse.1 hx))
  rw [List.reverse_reverse] at h1
  rw [h2] at hx
  cases r with
  | none => simp at hx
  | some p =>
    simp only [Option.map_some, Option.some.injEq] at hx
    obtain ⟨t, ht⟩ := h1.1
    have hp : ∀ x ∈ p, IsFileName x := fun x hx => hn x (h1.1.subset hx)
    obtain ⟨rel, hrel, hd⟩ : ∃ rel, e.1 = p ++ rel ∧ (e.2 = false → rel ≠ []) := by
      unfold lookDir at ht
      split at ht
      · rename_i h; exact ⟨t, ht.symm, by simp [h]⟩
      · refine ⟨t ++ [e.1.getLast he.1], ?_, by simp⟩
        rw [← List.append_assoc, ht, List.dropLast_concat_getLast]
    refine ⟨p, rel, hrel, hp, fun x hx => he.2 x (by rw [hrel]; simp [hx]), hd, ?_⟩
    subst hx
    rw [hrel]
    exact ⟨rfl, rfl, rfl⟩

theorem gitStatusName_noslash {f : List Str} (hf : RepoFile f) : ∃ c t, gitStatusName f = c :: t ∧ c ≠ '/' := by
  unfold gitStatusName
  split
  · exact pathOf_first hf
  · exact ⟨'"', _, rfl, by decide⟩

theorem prefix_before {c : Char} {l : Str} (hl : c ∉ l) {A B : Str} (h : l <+: A ++ c :: B) : l <+: A := by
  induction A generalizing l with
  | nil =>
    cases l with
    | nil => exact List.nil_prefix
    | cons x l => exact absurd (List.cons_prefix_cons.1 h).1 (fun e => hl (by simp [e]))
  | cons y A ih =>
    cases l with
    | nil => exact List.nil_prefix
    | cons x l =>
      rw [List.cons_append, List.cons_prefix_cons] at h
      exact List.cons_prefix_cons.2 ⟨h.1, ih (fun hx => hl (by simp [hx])) h.2⟩

theorem quoted_first (n : Str) : ∃ t, gitQuoted n = '"' :: t := ⟨_, rfl⟩

/-- C76, what is true: `tracked` holds for the files that git tracks, and for directories with a tracked file in them.
Missing: names with special characters, in particular other than ASCII, which git prints in quotes. -/
theorem C76_tracked_partial {w : GitWorld} {tracked : List Str → List (List Str)} {changes : List Str → List GitChange} (hg : GitPrints w.lsFiles w.status tracked changes)
    (es : List (List Str × Bool)) (he : ∀ e ∈ es, RepoFile e.1) :
    ∃ rs, gitEntries w [] (es.map (fun e => (absPath e.1, e.2))) = some rs ∧ All2 (fun e d => ∀ x, d = some x →
      ∃ p rel, x.repoDir = absPath p ∧ e.1 = p ++ rel ∧ (PlainFile rel → (∀ f ∈ tracked p, rel <+: f → PlainFile f) →
        (x.tracked = true ↔ ∃ f ∈ tracked p, Concerns rel e.2 f))) es rs := by
  obtain ⟨files, hst⟩ := status_total hg
  refine ⟨_, gitEntries_eq w files hst es he [] (by simp), ?_⟩
  clear hst
  induction es with
  | nil => exact .nil
  | cons e es ih =>
    refine .cons ?_ (ih (fun x hx => he x (by simp [hx])))
    intro x hx
    obtain ⟨p, rel, hrel, hp, hr, hd, h1, h2, -⟩ := entry_place w files (he e (by simp)) hx
    refine ⟨p, rel, h1, hrel, ?_⟩
    intro hpl hall
    rw [h2, filelist_eq w _ (hg.ls p)]
    have hne := (he e (by simp)).1
    rw [hrel] at hne
    refine gitIn_iff hp hr hne hd (tracked p) (fun f => if ∀ c ∈ pathOf f, PlainChar c then pathOf f else gitQuoted (pathOf f)) id ?_ ?_ ?_
    · intro f hf
      refine ⟨?_, (hg.files p f hf).1⟩
      split
      · obtain ⟨c, t, e, hc⟩ := pathOf_first (hg.files p f hf)
        rw [e]; simp [startsWith, List.isPrefixOf, Ne.symm hc]
      · obtain ⟨t, e⟩ := quoted_first (pathOf f)
        rw [e]; rfl
    · intro hf0 f hf
      simp only [id]
      split
      · exact ⟨fun h => (pathOf_inj (hg.files p f hf).2 hr h).symm, fun h => by rw [h]⟩
      · rename_i hnp
        obtain ⟨t, e⟩ := quoted_first (pathOf f)
        obtain ⟨c, t', e', hc⟩ := plain_first hr (hd hf0) hpl
        constructor
        · intro h; rw [e, e'] at h; simp [Ne.symm hc] at h
        · intro h; exact absurd (hall f hf (h ▸ List.prefix_rfl)) hnp
    · intro _ hr0 f hf
      simp only [id]
      split
      · exact prefix_pathOf hr (hg.files p f hf).2 hr0
      · rename_i hnp
        obtain ⟨t, e⟩ := quoted_first (pathOf f)
        obtain ⟨c, t', e', hc⟩ := plain_first hr hr0 hpl
        constructor
        · intro h; rw [e, e', List.cons_append] at h; exact absurd (List.cons_prefix_cons.1 h).1 hc
        · intro h; exact absurd (hall f hf h.1) hnp

/-- C76, what is true: `dirty` holds for the files of which git says that they have changed, and for directories with such a file in them.
Missing: names with special characters or spaces, which git prints in quotes, and renamed files. -/
theorem C76_dirty_partial {w : GitWorld} {tracked : List Str → List (List Str)} {changes : List Str → List GitChange} (hg : GitPrints w.lsFiles w.status tracked changes)
    (es : List (List Str × Bool)) (he : ∀ e ∈ es, RepoFile e.1) :
    ∃ rs, gitEntries w [] (es.map (fun e => (absPath e.1, e.2))) = some rs ∧ All2 (fun e d => ∀ x, d = some x →
      ∃ p rel, x.repoDir = absPath p ∧ e.1 = p ++ rel ∧ (SimpleFile rel → (∀ c ∈ changes p, ∀ f, c.file = some f → rel <+: f → SimpleFile f) →
        (∀ c ∈ changes p, ∀ x y a b, c = .renamed x y a b → ¬ rel <+: a ∧ ¬ rel <+: b) →
        (x.dirty = true ↔ ∃ c ∈ changes p, ∃ f, c.file = some f ∧ Concerns rel e.2 f))) es rs := by
  refine ⟨_, gitEntries_eq w (fun d => (gitStatus w d).getD []) (fun p => by rw [status_eq w _ (hg.st p) (hg.proper p)]; rfl) es he [] (by simp), ?_⟩
  induction es with
  | nil => exact .nil
  | cons e es ih =>
    refine .cons ?_ (ih (fun x hx => he x (by simp [hx])))
    intro x hx
    obtain ⟨p, rel, hrel, hp, hr, hd, h1, -, h2⟩ := entry_place w _ (he e (by simp)) hx
    refine ⟨p, rel, h1, hrel, ?_⟩
    intro hpl hall hren
    rw [h2, status_eq w _ (hg.st p) (hg.proper p), Option.getD_some]
    have hne := (he e (by simp)).1
    rw [hrel] at hne
    have hitems : ((changes p).filterMap changeText).map (osJoin (absPath p)) =
        ((changes p).filter (fun c => c.file.isSome)).map (fun c => osJoin (absPath p) ((changeText c).getD [])) := by
      generalize changes p = l
      induction l with
      | nil => rfl
      | cons c l ih => cases c <;> simp [changeText, GitChange.file, List.filterMap_cons, ih] at ih ⊢
    have key : (∃ c ∈ changes p, ∃ f, c.file = some f ∧ Concerns rel e.2 f) ↔
        ∃ c ∈ (changes p).filter (fun c => c.file.isSome), Concerns rel e.2 (c.file.getD []) := by
      constructor
      · rintro ⟨c, hc, f, hf, h⟩
        exact ⟨c, by simp [hc, hf], by rw [hf]; exact h⟩
      · rintro ⟨c, hc, h⟩
        obtain ⟨hc, hs⟩ := List.mem_filter.1 hc
        obtain ⟨f, hf⟩ := Option.isSome_iff_exists.1 hs
        rw [hf] at h
        exact ⟨c, hc, f, hf, h⟩
    rw [hitems, key]
    refine gitIn_iff hp hr hne hd _ _ _ ?_ ?_ ?_
    · intro c hc
      obtain ⟨hc, hs⟩ := List.mem_filter.1 hc
      have hpr := hg.proper p c hc
      cases c with
      | changed x y f =>
        obtain ⟨c, t, e, hc⟩ := gitStatusName_noslash hpr.2
        simp [changeText, GitChange.file, e, startsWith, List.isPrefixOf, Ne.symm hc, hpr.2.1]
      | renamed x y a b =>
        obtain ⟨c, t, e, hc⟩ := gitStatusName_noslash hpr.2.1
        simp [changeText, GitChange.file, e, startsWith, List.isPrefixOf, Ne.symm hc, hpr.2.2.1]
      | untracked f => simp [GitChange.file] at hs
    · intro hf0 c hc
      obtain ⟨hc, hs⟩ := List.mem_filter.1 hc
      have hpr := hg.proper p c hc
      cases c with
      | changed x y f =>
        simp only [changeText, GitChange.file, Option.getD_some]
        unfold gitStatusName
        split
        · exact ⟨fun h => (pathOf_inj hpr.2.2 hr h).symm, fun h => by rw [h]⟩
        · rename_i hnp
          obtain ⟨t, e⟩ := quoted_first (pathOf f)
          obtain ⟨c, t', e', hc'⟩ := plain_first hr (hd hf0) hpl.1
          constructor
          · intro h; rw [e, e'] at h; simp [Ne.symm hc'] at h
          · intro h; exact absurd (hall _ hc f rfl (h ▸ List.prefix_rfl)) hnp
      | renamed x y a b =>
        obtain ⟨h5, h6⟩ := hren _ hc x y a b rfl
        simp only [changeText, GitChange.file, Option.getD_some]
        constructor
        · intro h
          exact absurd (show ' ' ∈ pathOf rel by rw [← h]; simp) hpl.2
        · intro h; exact absurd (h ▸ List.prefix_rfl) h6
      | untracked f => simp [GitChange.file] at hs
    · intro _ hr0 c hc
      obtain ⟨hc, hs⟩ := List.mem_filter.1 hc
      have hpr := hg.proper p c hc
      have quoted : ∀ n B, ¬ pathOf rel ++ ['/'] <+: gitQuoted n ++ B := by
        intro n B h
        obtain ⟨t, e⟩ := quoted_first n
        obtain ⟨c, t', e', hc'⟩ := plain_first hr hr0 hpl.1
        rw [e, e', List.cons_append, List.cons_append] at h
        exact hc' (List.cons_prefix_cons.1 h).1
      cases c with
      | changed x y f =>
        simp only [changeText, GitChange.file, Option.getD_some]
        unfold gitStatusName
        split
        · exact prefix_pathOf hr hpr.2.2 hr0
        · rename_i hnp
          constructor
          · intro h; exact absurd (by simpa using h) (quoted (pathOf f) [])
          · intro h; exact absurd (hall _ hc f rfl h.1) hnp
      | renamed x y a b =>
        obtain ⟨h5, h6⟩ := hren _ hc x y a b rfl
        simp only [changeText, GitChange.file, Option.getD_some]
        constructor
        · intro h
          exfalso
          have h7 : pathOf rel ++ ['/'] <+: gitStatusName a ++ ' ' :: ("-> ".toList ++ gitStatusName b) := by simpa using h
          have h8 := prefix_before (by
            intro h; rcases List.mem_append.1 h with h | h
            · exact hpl.2 h
            · simp at h) h7
          unfold gitStatusName at h8
          split at h8
          · exact h5 ((prefix_pathOf hr hpr.2.1.2 hr0).1 h8).1
          · exact quoted (pathOf a) [] (by simpa using h8)
        · intro h; exact absurd h.1 h6
      | untracked f => simp [GitChange.file] at hs

/-- The hypotheses are met by a repository with a changed file. -/
example : GitPrints (fun _ => "a\nb/c\n".toList) (fun _ => " M a\n?? x\n".toList) (fun _ => [["a".toList], ["b".toList, "c".toList]])
    (fun _ => [.changed ' ' 'M' ["a".toList], .untracked ["x".toList]]) :=
  ⟨fun _ => by decide, fun _ => by decide, fun _ f hf => by
    simp only [List.mem_cons, List.not_mem_nil, or_false] at hf
    rcases hf with rfl | rfl <;> unfold RepoFile IsFileName <;> decide, fun _ c hc => by
    simp only [List.mem_cons, List.not_mem_nil, or_false] at hc
    rcases hc with rfl | rfl <;> unfold GitChange.Proper RepoFile IsFileName <;> try unfold StatusLetters
    all_goals decide⟩

/-- C76 fails for names other than ASCII: git prints them in quotes, and the file is not `tracked`. -/
theorem C76_quoted_false : gitEntries ⟨fun p => p = "/r/.git".toList, fun _ => gitLsFiles [["é".toList]], fun _ => gitPorcelain [.changed ' ' 'M' ["é".toList]]⟩ []
    [("/r/é".toList, false)] = some [some ⟨"/r".toList, false, false, false⟩] := by decide

/-- C76 fails for names with spaces: the file is `tracked` but never `dirty`. -/
theorem C76_space_false : gitEntries ⟨fun p => p = "/r/.git".toList, fun _ => gitLsFiles [["a b".toList]], fun _ => gitPorcelain [.changed ' ' 'M' ["a b".toList]]⟩ []
    [("/r/a b".toList, false)] = some [some ⟨"/r".toList, false, true, false⟩] := by decide

/-- C76 fails for renamed files, which are not `dirty`. -/
theorem C76_renamed_false : gitEntries ⟨fun p => p = "/r/.git".toList, fun _ => gitLsFiles [["new".toList]], fun _ => gitPorcelain [.renamed 'R' 'M' ["old".toList] ["new".toList]]⟩ []
    [("/r/new".toList, false)] = some [some ⟨"/r".toList, false, true, false⟩] := by decide

end FF
