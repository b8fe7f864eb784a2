import Verif.Props.Time
/-! C25: numbers in scientific notation as seconds since epoch. -/
namespace FF
open Spec

/-- An exponent and the power of ten it stands for, as a fraction. -/
inductive Spec.Exponent : Str → Nat → Nat → Prop
  | none : Spec.Exponent [] 1 1
  | plain {c : Char} {xs : Str} : c = 'e' ∨ c = 'E' → Digits xs → Spec.Exponent (c :: xs) (10 ^ natOfDigits xs) 1
  | plus {c : Char} {xs : Str} : c = 'e' ∨ c = 'E' → Digits xs → Spec.Exponent (c :: '+' :: xs) (10 ^ natOfDigits xs) 1
  | minus {c : Char} {xs : Str} : c = 'e' ∨ c = 'E' → Digits xs → Spec.Exponent (c :: '-' :: xs) 1 (10 ^ natOfDigits xs)

/-- A number without a sign: digits, perhaps a point and digits, and an exponent; `num / den` is its value. -/
inductive Spec.Scientific : Str → Nat → Nat → Prop
  | int {ds ex : Str} {a b : Nat} : Digits ds → Spec.Exponent ex a b → Spec.Scientific (ds ++ ex) (natOfDigits ds * a) b
  | point {ds fs ex : Str} {a b : Nat} : (∀ c ∈ ds, isDigit c = true) → (∀ c ∈ fs, isDigit c = true) → (ds ≠ [] ∨ fs ≠ []) → Spec.Exponent ex a b →
      Spec.Scientific (ds ++ '.' :: (fs ++ ex)) (natOfDigits (ds ++ fs) * a) (10 ^ fs.length * b)

/-- A number, perhaps with a sign. -/
inductive Spec.SignedNumber : Str → Bool → Nat → Nat → Prop
  | plain {s : Str} {a b : Nat} : Spec.Scientific s a b → Spec.SignedNumber s false a b
  | plus {s : Str} {a b : Nat} : Spec.Scientific s a b → Spec.SignedNumber ('+' :: s) false a b
  | minus {s : Str} {a b : Nat} : Spec.Scientific s a b → Spec.SignedNumber ('-' :: s) true a b

theorem takeWhile_digits_app {ds r : Str} (hd : ∀ c ∈ ds, isDigit c = true) (hr : ∀ c, r.head? = some c → isDigit c = false) :
    (ds ++ r).takeWhile isDigit = ds ∧ (ds ++ r).dropWhile isDigit = r := by
  induction ds with
  | nil =>
    cases r with
    | nil => exact ⟨rfl, rfl⟩
    | cons c r => simp [hr c rfl]
  | cons c ds ih =>
    have := ih (fun x hx => hd x (by simp [hx]))
    simp only [List.cons_append, List.takeWhile_cons, List.dropWhile_cons, hd c (by simp), if_true, this]
    exact ⟨trivial, trivial⟩

theorem all_digits {xs : Str} (h : Digits xs) : xs ≠ [] ∧ xs.all isDigit = true := ⟨h.1, by simpa using h.2⟩

theorem digits_head {xs : Str} (h : Digits xs) : ∃ c r, xs = c :: r ∧ isDigit c = true := by
  obtain ⟨hne, hd⟩ := h
  cases xs with
  | nil => exact absurd rfl hne
  | cons c r => exact ⟨c, r, rfl, hd c (by simp)⟩

theorem exponent_floatExp {ex : Str} {a b : Nat} (h : Spec.Exponent ex a b) : ∃ e : Int, floatExp ex = some e ∧ a = 10 ^ e.toNat ∧ b = 10 ^ (-e).toNat := by
  cases h with
  | none => exact ⟨0, rfl, rfl, rfl⟩
  | @plain c xs hc hx =>
    refine ⟨natOfDigits xs, ?_, by simp, by simp⟩
    obtain ⟨x, r, rfl, hx'⟩ := digits_head hx
    unfold floatExp
    simp only [hc, if_true]
    have h1 : x ≠ '-' := by rintro rfl; revert hx'; decide
    have h2 : x ≠ '+' := by rintro rfl; revert hx'; decide
    split
    · rename_i he; cases he; exact absurd rfl h1
    · rename_i he; cases he; exact absurd rfl h2
    · rw [if_pos (all_digits hx)]
  | @plus c xs hc hx =>
    refine ⟨natOfDigits xs, ?_, by simp, by simp⟩
    unfold floatExp
    simp only [hc, if_true]
    rw [if_pos (all_digits hx)]
  | @minus c xs hc hx =>
    refine ⟨-(natOfDigits xs : Int), ?_, by simp, by simp⟩
    unfold floatExp
    simp only [hc, if_true]
    rw [if_pos (all_digits hx)]

theorem exponent_head {ex : Str} {a b : Nat} (h : Spec.Exponent ex a b) : ∀ c, ex.head? = some c → isDigit c = false ∧ c ≠ '.' := by
  intro c hc
  cases h with
  | none => cases hc
  | plain hc' _ => cases hc; rcases hc' with rfl | rfl <;> decide
  | plus hc' _ => cases hc; rcases hc' with rfl | rfl <;> decide
  | minus hc' _ => cases hc; rcases hc' with rfl | rfl <;> decide

/-- What `floatAbs` makes of the parts. -/
def absOf (a b r : Str) : Option Nat :=
  if a = [] ∧ b = [] then none else
  match floatExp r with
  | none => none
  | some e =>
    let x := roundDouble (natOfDigits (a ++ b) * 10 ^ e.toNat, 10 ^ b.length * 10 ^ (-e).toNat)
    some (x.1 / x.2)

/-- The number that is nearest to the value, without its fractional part. -/
theorem floatAbs_scientific {s : Str} {a b : Nat} (h : Spec.Scientific s a b) : floatAbs s = some ((roundDouble (a, b)).1 / (roundDouble (a, b)).2) := by
  cases h with
  | @int ds ex a b hd he =>
    obtain ⟨e, h1, h2, h3⟩ := exponent_floatExp he
    obtain ⟨t1, t2⟩ := takeWhile_digits_app hd.2 (fun c hc => (exponent_head he c hc).1)
    have hform : ex = [] ∨ ∃ r, ex = 'e' :: r ∨ ex = 'E' :: r := by
      cases he with
      | none => exact .inl rfl
      | plain hc _ => rcases hc with rfl | rfl; exact .inr ⟨_, .inl rfl⟩; exact .inr ⟨_, .inr rfl⟩
      | plus hc _ => rcases hc with rfl | rfl; exact .inr ⟨_, .inl rfl⟩; exact .inr ⟨_, .inr rfl⟩
      | minus hc _ => rcases hc with rfl | rfl; exact .inr ⟨_, .inl rfl⟩; exact .inr ⟨_, .inr rfl⟩
    have hshow : floatAbs (ds ++ ex) = absOf ds [] ex := by
      unfold floatAbs
      rw [t1, t2]
      rcases hform with rfl | ⟨r, rfl | rfl⟩ <;> rfl
    rw [hshow, absOf, if_neg (by simp [hd.1]), h1]
    simp only [List.append_nil, List.length_nil, Nat.pow_zero, Nat.one_mul, h2, h3]
  | @point ds fs ex a b hd hf hne he =>
    obtain ⟨e, h1, h2, h3⟩ := exponent_floatExp he
    obtain ⟨t1, t2⟩ := takeWhile_digits_app (r := '.' :: (fs ++ ex)) hd (fun c hc => by cases hc; decide)
    obtain ⟨t3, t4⟩ := takeWhile_digits_app hf (fun c hc => (exponent_head he c hc).1)
    unfold floatAbs
    rw [t1, t2]
    simp only [t3, t4]
    rw [if_neg (by intro h; rcases hne with hn | hn; exact hn h.1; exact hn h.2), h1]
    simp only [h2, h3]

/-- The characters of numbers. -/
theorem scientific_chars {s : Str} {a b : Nat} (h : Spec.Scientific s a b) : ∀ c ∈ s, isDigit c = true ∨ c ∈ ['.', 'e', 'E', '+', '-'] := by
  have hex : ∀ {ex : Str} {a b : Nat}, Spec.Exponent ex a b → ∀ c ∈ ex, isDigit c = true ∨ c ∈ ['.', 'e', 'E', '+', '-'] := by
    intro ex a b he c hc
    cases he with
    | none => cases hc
    | plain hc' hx => rcases List.mem_cons.1 hc with rfl | hc
                      · rcases hc' with rfl | rfl <;> simp
                      · exact .inl (hx.2 c hc)
    | plus hc' hx => rcases List.mem_cons.1 hc with rfl | hc
                     · rcases hc' with rfl | rfl <;> simp
                     · rcases List.mem_cons.1 hc with rfl | hc
                       · simp
                       · exact .inl (hx.2 c hc)
    | minus hc' hx => rcases List.mem_cons.1 hc with rfl | hc
                      · rcases hc' with rfl | rfl <;> simp
                      · rcases List.mem_cons.1 hc with rfl | hc
                        · simp
                        · exact .inl (hx.2 c hc)
  cases h with
  | int hd he => intro c hc; rcases List.mem_append.1 hc with hc | hc
                 · exact .inl (hd.2 c hc)
                 · exact hex he c hc
  | point hd hf _ he => intro c hc
                        rcases List.mem_append.1 hc with hc | hc
                        · exact .inl (hd c hc)
                        · rcases List.mem_cons.1 hc with rfl | hc
                          · simp
                          · rcases List.mem_append.1 hc with hc | hc
                            · exact .inl (hf c hc)
                            · exact hex he c hc

theorem underscoresOk_none : ∀ (s : Str) p, '_' ∉ s → underscoresOk p s = true
  | [], _, _ => rfl
  | c :: s, p, h => by
    simp only [List.mem_cons, not_or] at h
    have := underscoresOk_none s (some c) h.2
    unfold underscoresOk
    split
    · rfl
    · rename_i he; cases he; exact absurd rfl h.1
    · rename_i he; cases he; exact this

theorem scientific_head {s : Str} {a b : Nat} (h : Spec.Scientific s a b) : ∀ c, s.head? = some c → c ≠ '+' ∧ c ≠ '-' := by
  intro c hc
  have dig : ∀ c, isDigit c = true → c ≠ '+' ∧ c ≠ '-' := by
    intro c h
    exact ⟨by rintro rfl; revert h; decide, by rintro rfl; revert h; decide⟩
  cases h with
  | int hd he =>
    obtain ⟨x, r, rfl, hx⟩ := digits_head hd
    cases hc
    exact dig _ hx
  | @point ds fs ex a b hd hf _ he =>
    cases ds with
    | nil => cases hc; decide
    | cons x r => cases hc; exact dig _ (hd _ (by simp))

theorem floatInt_signed {s : Str} {neg : Bool} {a b : Nat} (h : Spec.SignedNumber s neg a b) :
    floatInt s = some (if neg then -(((roundDouble (a, b)).1 / (roundDouble (a, b)).2 : Nat) : Int) else (((roundDouble (a, b)).1 / (roundDouble (a, b)).2 : Nat) : Int)) := by
  have hch : ∀ c ∈ s, isDigit c = true ∨ c ∈ ['.', 'e', 'E', '+', '-'] := by
    cases h with
    | plain h => exact scientific_chars h
    | plus h => intro c hc; rcases List.mem_cons.1 hc with rfl | hc
                · simp
                · exact scientific_chars h c hc
    | minus h => intro c hc; rcases List.mem_cons.1 hc with rfl | hc
                 · simp
                 · exact scientific_chars h c hc
  have hu : '_' ∉ s := by
    intro hc
    have := hch _ hc
    revert this; decide
  have hs : strip s = s := strip_of_not_space (fun c hc => by
    rcases hch c hc with h | h
    · exact digit_not_space h
    · simp only [List.mem_cons, List.not_mem_nil, or_false] at h
      rcases h with rfl | rfl | rfl | rfl | rfl <;> decide)
  have hf : s.filter (· ≠ '_') = s := by
    rw [List.filter_eq_self]
    intro c hc
    have : c ≠ '_' := by rintro rfl; exact hu hc
    simpa using this
  unfold floatInt
  rw [hs]
  simp only [underscoresOk_none s none hu, hf, Bool.true_eq_false, if_false]
  cases h with
  | plain h =>
    split
    · exact absurd rfl (scientific_head h _ rfl).2
    · exact absurd rfl (scientific_head h _ rfl).1
    · rw [floatAbs_scientific h]; rfl
  | plus h => simp only [floatAbs_scientific h]; rfl
  | minus h => simp only [floatAbs_scientific h]; rfl

/-- C25: a number is read as seconds since epoch, in whatever way it is written, exactly if it is an integer below 2^53. -/
theorem C25_float_partial (z : Zone) (now : Int) {s : Str} {neg : Bool} {a b n : Nat} (h : Spec.SignedNumber s neg a b) (hb : 0 < b) (hn : a = n * b) (hlt : n < 2 ^ 53) :
    parseTime (localTimes z now) s = some (if neg then -(n : Int) else n) := by
  unfold parseTime
  rw [show (localTimes z now).float s = _ from floatInt_signed h]
  have := roundDouble_exact (num := a) (den := b) (m := n) (s := 0) (t := 0) hb hlt (by simpa using hn)
  obtain ⟨p1, p2⟩ := this
  have e : (roundDouble (a, b)).1 / (roundDouble (a, b)).2 = n := by
    have : (roundDouble (a, b)).1 = n * (roundDouble (a, b)).2 := by
      rw [hn, Nat.mul_right_comm] at p1
      rw [hn]
      exact Nat.eq_of_mul_eq_mul_right hb p1
    rw [this]
    exact Nat.mul_div_cancel _ p2
  rw [e]

example : Spec.SignedNumber "-1.5e+3".toList true (natOfDigits "15".toList * 10 ^ natOfDigits "3".toList) (10 ^ "5".toList.length * 1) ∧
    natOfDigits "15".toList * 10 ^ natOfDigits "3".toList = 1500 * (10 ^ "5".toList.length * 1) :=
  ⟨.minus (.point (ds := "1".toList) (fs := "5".toList) (by decide) (by decide) (.inl (by decide)) (.plus (.inl rfl) ⟨by decide, by decide⟩)), by decide⟩

example : Spec.SignedNumber "150E-1".toList false (natOfDigits "150".toList * 1) (10 ^ natOfDigits "1".toList) ∧
    natOfDigits "150".toList * 1 = 15 * 10 ^ natOfDigits "1".toList :=
  ⟨.plain (.int (ds := "150".toList) ⟨by decide, by decide⟩ (.minus (.inr rfl) ⟨by decide, by decide⟩)), by decide⟩

end FF
