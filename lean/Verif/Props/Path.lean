import Verif.Lemmas.Path
import Verif.Spec.Path
namespace FF
open Spec

theorem exists_dir_name (p : Str) : ∃ d b, p = d ++ b ∧ '/' ∉ b ∧ (d = [] ∨ ∃ d', d = d' ++ ['/']) := by
  rcases exists_last_split p '/' with h | ⟨a, b, rfl, hb⟩
  · exact ⟨[], p, by simp, h, .inl rfl⟩
  · exact ⟨a ++ ['/'], b, by simp, hb, .inr ⟨a, rfl⟩⟩

theorem rfind_sep_of_dir {d b : Str} (hb : '/' ∉ b) (hd : d = [] ∨ ∃ d', d = d' ++ ['/']) :
    rfind (d ++ b) '/' = (d.length : Int) - 1 := by
  rcases hd with rfl | ⟨d', rfl⟩
  · simpa using rfind_not_mem hb
  · rw [List.append_assoc, List.singleton_append, rfind_split d' hb]; simp

theorem all_dots_eq {l : Str} (h : ∀ x ∈ l, x = '.') : l = List.replicate l.length '.' :=
  List.eq_replicate_of_mem h

/-- C59: `splitext` computes the documented stem/extension decomposition of every path. -/
theorem C59_splitext_spec (p : Str) : StemExt p (splitext p).1 (splitext p).2 := by
  obtain ⟨d, b, rfl, hb, hd⟩ := exists_dir_name p
  have hsep := rfind_sep_of_dir hb hd
  rcases exists_last_split b '.' with h | ⟨lead, e, rfl, he⟩
  · have : ¬ rfind (d ++ b) '.' > rfind (d ++ b) '/' := by
      rw [hsep]
      rcases exists_last_split d '.' with h' | ⟨x, y, rfl, hy⟩
      · rw [rfind_not_mem (by simp [h, h'])]; omega
      · rw [List.append_assoc, List.cons_append, rfind_split x (by simp [hy, h])]
        simp; omega
    simp only [splitext, this, if_false]
    simpa using StemExt.none d 0 b hb h hd
  · have hdot : rfind (d ++ (lead ++ '.' :: e)) '.' = ((d ++ lead).length : Int) := by
      rw [← List.append_assoc, rfind_split _ he]
    have hb' : '/' ∉ lead ∧ '/' ∉ e := by
      simp only [List.mem_append, List.mem_cons, not_or] at hb; exact ⟨hb.1, hb.2.2⟩
    have hgt : rfind (d ++ (lead ++ '.' :: e)) '.' > rfind (d ++ (lead ++ '.' :: e)) '/' := by
      rw [hdot, hsep]; simp; omega
    simp only [splitext, hgt, if_true]
    rw [hdot, hsep]
    have e1 : ((d.length : Int) - 1 + 1).toNat = d.length := by omega
    have e2 : (((d ++ lead).length : Int) - ((d.length : Int) - 1 + 1)).toNat = lead.length := by
      rw [List.length_append]; omega
    rw [e1, e2]
    have hl := splitextLoop_iff (d ++ (lead ++ '.' :: e)) d.length lead.length (by simp)
    simp only [List.drop_left, List.take_left'] at hl
    by_cases hlead : ∃ x ∈ lead, x ≠ '.'
    · rw [if_pos (hl.2 hlead)]
      have : sliceTo (d ++ (lead ++ '.' :: e)) ((d ++ lead).length : Int) = d ++ lead := by
        rw [sliceTo, Int.toNat_natCast, ← List.append_assoc, List.take_left]
      have h2 : sliceFrom (d ++ (lead ++ '.' :: e)) ((d ++ lead).length : Int) = '.' :: e := by
        rw [sliceFrom, Int.toNat_natCast, ← List.append_assoc, List.drop_left]
      rw [this, h2, ← List.append_assoc]
      exact StemExt.ext d lead e hb'.1 hb'.2 he hd hlead
    · rw [if_neg (fun h => hlead (hl.1 h))]
      have hall : ∀ x ∈ lead, x = '.' := by
        intro x hx; by_cases hx' : x = '.'; exact hx'; exact absurd ⟨x, hx, hx'⟩ hlead
      have hr := all_dots_eq hall
      have : d ++ (lead ++ '.' :: e) = d ++ List.replicate (lead.length + 1) '.' ++ e := by
        rw [List.replicate_succ', ← hr]; simp
      simp only [this]
      exact StemExt.none d _ e hb'.2 he hd

theorem last_split_unique {a a' b b' : Str} {c : Char} (hb : c ∉ b) (hb' : c ∉ b')
    (h : a ++ c :: b = a' ++ c :: b') : a = a' ∧ b = b' := by
  have h1 := rfind_split a hb
  rw [h, rfind_split a' hb'] at h1
  have := List.append_inj h (by omega)
  exact ⟨this.1, by simpa using this.2⟩

theorem dir_name_unique {d d' b b' : Str} (hb : '/' ∉ b) (hb' : '/' ∉ b')
    (hd : d = [] ∨ ∃ x, d = x ++ ['/']) (hd' : d' = [] ∨ ∃ x, d' = x ++ ['/'])
    (h : d ++ b = d' ++ b') : d = d' ∧ b = b' := by
  have h1 := rfind_sep_of_dir hb hd
  rw [h, rfind_sep_of_dir hb' hd'] at h1
  exact List.append_inj h (by omega)

/-- C59: the specification determines the result, so `splitext` is the only function meeting it. -/
theorem C59_splitext_unique {p r e r' e' : Str} (h : StemExt p r e) (h' : StemExt p r' e') :
    r = r' ∧ e = e' := by
  have key : ∀ {lead e : Str} {k : Nat} {w : Str}, '.' ∉ e → '.' ∉ w → (∃ x ∈ lead, x ≠ '.') →
      lead ++ '.' :: e = List.replicate k '.' ++ w → False := by
    intro lead e k w he hw hx heq
    cases k with
    | zero => simp at heq; subst heq; simp at hw
    | succ k =>
      rw [List.replicate_succ', List.append_assoc, List.singleton_append] at heq
      obtain ⟨rfl, _⟩ := last_split_unique he hw heq
      obtain ⟨x, hx, hne⟩ := hx
      exact hne (List.eq_of_mem_replicate hx)
  have nosl : ∀ {k : Nat} {w : Str}, '/' ∉ w → '/' ∉ List.replicate k '.' ++ w := by
    intro k w hw; simp [hw]
  generalize hp : p = q at h'
  cases h with
  | ext d lead e hl1 hl2 hl3 hd hx =>
    cases h' with
    | ext d' lead' e' hl1' hl2' hl3' hd' hx' =>
      rw [List.append_assoc, List.append_assoc] at hp
      obtain ⟨rfl, h2⟩ := dir_name_unique (by simp [hl1, hl2]) (by simp [hl1', hl2']) hd hd' hp
      obtain ⟨rfl, rfl⟩ := last_split_unique hl3 hl3' h2
      exact ⟨rfl, rfl⟩
    | none d' k w hw hw' hd' =>
      rw [List.append_assoc, List.append_assoc] at hp
      obtain ⟨rfl, h2⟩ := dir_name_unique (by simp [hl1, hl2]) (nosl hw) hd hd' hp
      exact (key hl3 hw' hx h2).elim
  | none d k w hw hw' hd =>
    cases h' with
    | ext d' lead' e' hl1' hl2' hl3' hd' hx' =>
      rw [List.append_assoc, List.append_assoc] at hp
      obtain ⟨rfl, h2⟩ := dir_name_unique (nosl hw) (by simp [hl1', hl2']) hd hd' hp
      exact (key hl3' hw' hx' h2.symm).elim
    | none d' k w hw hw' hd' => exact ⟨hp, rfl⟩

example : splitext "a.b/.x.tar.gz".toList = ("a.b/.x.tar".toList, ".gz".toList) := by decide
example : splitext "a.b/...x".toList = ("a.b/...x".toList, []) := by decide
example : splitext "a.b/foo.".toList = ("a.b/foo".toList, ".".toList) := by decide

end FF
