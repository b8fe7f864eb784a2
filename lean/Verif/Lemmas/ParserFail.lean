import Verif.Lemmas.ParserGrammar
/-! What the parser does with an expression that contains a test which is not accepted. -/
namespace FF
open Spec
variable {T : Type}

/-- What parsing a derivable piece of the token list does, by precedence level, if the first test that is not accepted gives the error `e`. -/
def FailSpec (pt : Str → Except PErr T) (ts : List Str) (e : PErr) : Level → Prop
  | .prim => (∃ t, ts = [t] ∧ Word t ∧ pt t = .error e) ∨
      (∃ o us c, ts = o :: us ++ [c] ∧ isOpen o = true ∧ ∀ rest, PS pt (us ++ c :: rest) [[]] = .error e)
  | .item | .conj => ∀ rest pre cur, PS pt (ts ++ rest) (pre ++ [cur]) = .error e
  | .disj => ∀ rest pre, PS pt (ts ++ rest) (pre ++ [[]]) = .error e

/-- Where the first test that is not accepted is. -/
theorem fail_split {pt : Str → Except PErr T} {e : PErr} {as bs xs ys : List Str} {t : Str} (h : xs ++ ys = as ++ t :: bs)
    (hok : ∀ a ∈ as, ∃ x, pt a = .ok x) (ht : pt t = .error e) :
    (∃ bs', xs = as ++ t :: bs') ∨ ((∀ a ∈ xs, ∃ x, pt a = .ok x) ∧ ∃ as' bs', ys = as' ++ t :: bs' ∧ ∀ a ∈ as', ∃ x, pt a = .ok x) := by
  rcases List.append_eq_append_iff.1 h with ⟨u, rfl, h2⟩ | ⟨u, rfl, h2⟩
  · right
    exact ⟨fun a ha => hok a (by simp [ha]), u, bs, h2, fun a ha => hok a (by simp [ha])⟩
  · cases u with
    | nil => right; simp at h2; exact ⟨fun a ha => hok a (by simpa using ha), [], bs, by simp [h2], by simp⟩
    | cons c cs => left; simp only [List.cons_append, List.cons.injEq] at h2; exact ⟨cs, by rw [h2.1]⟩

theorem derives_fail (pt : Str → Except PErr T) {l : Level} {ts : List Str} {f : Formula} (h : Derives l ts f) {e : PErr} :
    ∀ {as bs t}, f.atoms = as ++ t :: bs → (∀ a ∈ as, ∃ x, pt a = .ok x) → pt t = .error e → FailSpec pt ts e l := by
  induction h with
  | @atom t hw =>
    intro as bs u h1 h2 h3
    simp only [Formula.atoms] at h1
    cases as with
    | nil => simp at h1; rw [← h1.1] at h3; exact .inl ⟨t, rfl, hw, h3⟩
    | cons a as => simp at h1
  | @group o ts c f ho hc _ ih =>
    intro as bs t h1 h2 h3
    refine .inr ⟨o, ts, c, rfl, isOpen_iff.2 ho, fun rest => ?_⟩
    have := ih h1 h2 h3 (c :: rest) []
    simpa using this
  | @prim ts f _ ih =>
    intro as bs t h1 h2 h3 rest pre cur
    rcases ih h1 h2 h3 with ⟨u, rfl, hw, hu⟩ | ⟨o, us, c, rfl, ho, hp⟩
    · simp only [List.cons_append, List.nil_append]
      rw [PS_word hw, hu]
    · have e1 : o :: us ++ [c] ++ rest = o :: (us ++ c :: rest) := by simp
      rw [e1, PS_open ho, hp]; rfl
  | @neg n ts f hn _ ih =>
    intro as bs t h1 h2 h3 rest pre cur
    have hn' := isNot_iff.2 hn
    rcases ih h1 h2 h3 with ⟨u, rfl, hw, hu⟩ | ⟨o, us, c, rfl, ho, hp⟩
    · simp only [List.cons_append, List.nil_append]
      rw [PS_not_word hn' hw, hu]
    · have e1 : n :: (o :: us ++ [c]) ++ rest = n :: o :: (us ++ c :: rest) := by simp
      rw [e1, PS_not_open hn' ho, hp]; rfl
  | @item ts f _ ih => intro as bs t h1 h2 h3; exact ih h1 h2 h3
  | @andBefore a ts f ha _ ih =>
    intro as bs t h1 h2 h3 rest pre cur
    rw [List.cons_append, PS_and (isAnd_iff.2 ha), ih h1 h2 h3]
  | @andAfter a ts f ha _ ih =>
    intro as bs t h1 h2 h3 rest pre cur
    rw [List.append_assoc, ih h1 h2 h3]
  | @conj ts us f g hf _ ih1 ih2 =>
    intro as bs t h1 h2 h3 rest pre cur
    rw [List.append_assoc]
    rcases fail_split h1 h2 h3 with ⟨bs', hx⟩ | ⟨hall, as', bs', hy, hok⟩
    · exact ih1 hx h2 h3 _ _ _
    · obtain ⟨ns, _, hp, _⟩ := derives_spec pt hf hall
      rw [hp]; exact ih2 hy hok h3 _ _ _
  | @single ts f _ ih => intro as bs t h1 h2 h3 rest pre; exact ih h1 h2 h3 _ _ _
  | @disj ts o us f g hf ho _ ih1 ih2 =>
    intro as bs t h1 h2 h3 rest pre
    rw [List.append_assoc]
    rcases fail_split h1 h2 h3 with ⟨bs', hx⟩ | ⟨hall, as', bs', hy, hok⟩
    · exact ih1 hx h2 h3 _ _
    · obtain ⟨qs, _, _, hp, _⟩ := derives_spec pt hf hall
      rw [hp, List.cons_append, PS_or (isOr_iff.2 ho)]; exact ih2 hy hok h3 _ _

/-- An expression with a test that is not accepted gives the error of the first such test. -/
theorem parse_fail (pt : Str → Except PErr T) {ts : List Str} {f : Formula} (h : Derives .disj ts f) {as bs : List Str} {t : Str} {e : PErr}
    (h1 : f.atoms = as ++ t :: bs) (h2 : ∀ a ∈ as, ∃ x, pt a = .ok x) (h3 : pt t = .error e) : parse pt ts = .error e := by
  have := derives_fail pt h h1 h2 h3 [] []
  simp only [List.append_nil, List.nil_append] at this
  rw [parse_eq, this]

/-- What is left of the words is a part of them. -/
theorem PS_suffix_aux (pt : Str → Except PErr T) : ∀ n ts seqs rest out, ts.length ≤ n → PS pt ts seqs = .ok (rest, out) → ∀ t ∈ rest, t ∈ ts := by
  intro n
  induction n with
  | zero =>
    intro ts seqs rest out h
    cases ts with
    | nil => rw [PS_nil]; split <;> simp_all
    | cons t ts => simp at h
  | succ n ih =>
    intro ts seqs rest out h
    have hsub : ∀ mk ts', ts'.length ≤ n → afterSub pt mk seqs (PS pt ts' [[]]) = .ok (rest, out) → ∀ t ∈ rest, t ∈ ts' := by
      intro mk ts' hl
      unfold afterSub
      split
      · simp
      · simp
      · rename_i heq
        have h2 := PS_length heq
        intro he t ht
        exact ih _ _ _ _ hl heq t (List.mem_cons_of_mem _ (ih _ _ _ _ (by simp at h2; omega) he t ht))
    cases ts with
    | nil => rw [PS_nil]; split <;> simp_all
    | cons t ts =>
      simp only [List.length_cons] at h
      have hc : ∀ {us : List Str}, (∀ u ∈ us, u ∈ ts) → ∀ u ∈ us, u ∈ t :: ts := fun h u hu => List.mem_cons_of_mem _ (h u hu)
      rcases token_cases t with h1 | h1 | h1 | h1 | h1 | h1
      · rw [PS_open h1]; exact fun he => hc (hsub _ _ (by omega) he)
      · rw [PS_close h1]
        split
        · simp
        · intro he; cases he; exact fun u hu => hu
      · rw [PS_and h1]; exact fun he => hc (ih _ _ _ _ (by omega) he)
      · rw [PS_or h1]; exact fun he => hc (ih _ _ _ _ (by omega) he)
      · cases ts with
        | nil => rw [PS_not_nil h1]; simp
        | cons t2 ts =>
          simp only [List.length_cons] at h
          by_cases h2 : isOpen t2 = true
          · rw [PS_not_open h1 h2]; exact fun he => hc (fun u hu => List.mem_cons_of_mem _ (hsub _ _ (by omega) he u hu))
          · by_cases h3 : Word t2
            · rw [PS_not_word h1 h3]
              split
              · simp
              · exact fun he => hc (fun u hu => List.mem_cons_of_mem _ (ih _ _ _ _ (by omega) he u hu))
            · rw [PS_not_bad h1 (by simpa using h2) h3]; simp
      · rw [PS_word h1]
        split
        · simp
        · exact fun he => hc (ih _ _ _ _ (by omega) he)

theorem PS_suffix {pt : Str → Except PErr T} {ts seqs rest out} (h : PS pt ts seqs = .ok (rest, out)) : ∀ t ∈ rest, t ∈ ts :=
  PS_suffix_aux pt _ _ _ _ _ (Nat.le_refl _) h

/-- An error of a test comes from a word that is parsed as a test. -/
theorem PS_bad_test (pt : Str → Except PErr T) (f : Fail) : ∀ n ts seqs, ts.length ≤ n →
    PS pt ts seqs = .error (.badTest f) → ∃ t ∈ ts, Word t ∧ pt t = .error (.badTest f) := by
  intro n
  induction n with
  | zero =>
    intro ts seqs h
    cases ts with
    | nil => rw [PS_nil]; split <;> simp
    | cons t ts => simp at h
  | succ n ih =>
    intro ts seqs h
    have hsub : ∀ mk ts', ts'.length ≤ n → afterSub pt mk seqs (PS pt ts' [[]]) = .error (.badTest f) → ∃ t ∈ ts', Word t ∧ pt t = .error (.badTest f) := by
      intro mk ts' hl
      have h1 := ih ts' [[]] hl
      unfold afterSub
      split
      · rename_i heq; rw [heq] at h1; simpa using h1
      · simp
      · rename_i heq
        have h2 := PS_length heq
        have h3 := PS_suffix heq
        intro he
        obtain ⟨t, ht, h4⟩ := ih _ _ (by simp at h2; omega) he
        exact ⟨t, h3 t (by simp [ht]), h4⟩
    have hmono : ∀ {us : List Str}, (∀ t ∈ us, t ∈ ts) → (∃ t ∈ us, Word t ∧ pt t = .error (.badTest f)) → ∃ t ∈ ts, Word t ∧ pt t = .error (.badTest f) :=
      fun hs ⟨t, ht, h⟩ => ⟨t, hs t ht, h⟩
    cases ts with
    | nil => rw [PS_nil]; split <;> simp
    | cons t ts =>
      simp only [List.length_cons] at h
      rcases token_cases t with h1 | h1 | h1 | h1 | h1 | h1
      · rw [PS_open h1]; exact fun he => hmono (by simp_all) (hsub _ _ (by omega) he)
      · rw [PS_close h1]; split <;> simp
      · rw [PS_and h1]; exact fun he => hmono (by simp_all) (ih _ _ (by omega) he)
      · rw [PS_or h1]; exact fun he => hmono (by simp_all) (ih _ _ (by omega) he)
      · cases ts with
        | nil => rw [PS_not_nil h1]; simp
        | cons t2 ts =>
          simp only [List.length_cons] at h
          by_cases h2 : isOpen t2 = true
          · rw [PS_not_open h1 h2]; exact fun he => hmono (by simp_all) (hsub _ _ (by omega) he)
          · by_cases h3 : Word t2
            · rw [PS_not_word h1 h3]
              split
              · rename_i heq; intro hc; simp at hc; subst hc; exact ⟨t2, by simp, h3, heq⟩
              · exact fun he => hmono (by simp_all) (ih _ _ (by omega) he)
            · rw [PS_not_bad h1 (by simpa using h2) h3]; simp
      · rw [PS_word h1]
        split
        · rename_i heq; intro hc; simp at hc; subst hc; exact ⟨t, by simp, h1, heq⟩
        · exact fun he => hmono (by simp_all) (ih _ _ (by omega) he)

theorem parse_bad_test (pt : Str → Except PErr T) {ts : List Str} {f : Fail} (h : parse pt ts = .error (.badTest f)) :
    ∃ t ∈ ts, Word t ∧ pt t = .error (.badTest f) := by
  rw [parse_eq] at h
  split at h
  · rename_i heq; cases h; exact PS_bad_test pt f _ _ _ (Nat.le_refl _) heq
  · cases h
  · cases h

end FF
