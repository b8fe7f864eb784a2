import Verif.Props.Field
/-! Command templates (C40). -/
namespace FF
open Spec

theorem mapOption_append {α β : Type} (f : α → Option β) (a b : List α) :
    mapOption f (a ++ b) = match mapOption f a, mapOption f b with
      | some x, some y => some (x ++ y)
      | _, _ => none := by
  induction a with
  | nil => cases h : mapOption f b <;> simp [mapOption, h]
  | cons x xs ih =>
    rw [List.cons_append, mapOption, ih, mapOption]
    cases f x with
    | none => rfl
    | some y => cases mapOption f xs <;> cases mapOption f b <;> rfl

/-- Pieces of single characters. -/
def atoms : List Seg → List Seg
  | [] => []
  | .text s :: rest => s.map (fun c => .text [c]) ++ atoms rest
  | .hole n :: rest => .hole n :: atoms rest

/-- How a word is written. -/
def spellWord (w : List Seg) : Str := (w.map Seg.spell).flatten

theorem spellWord_append (a b : List Seg) : spellWord (a ++ b) = spellWord a ++ spellWord b := by simp [spellWord]

theorem double_cons (c : Char) (s : Str) : double (c :: s) = double [c] ++ double s := by
  by_cases h1 : c = '{'
  · subst h1; rfl
  · by_cases h2 : c = '}'
    · subst h2; rfl
    · have : ∀ t, double (c :: t) = c :: double t := by
        intro t
        rw [double]
        · exact fun h => h1 h
        · exact fun h => h2 h
      rw [this, this]; rfl

theorem spellWord_atoms (w : List Seg) : spellWord (atoms w) = spellWord w := by
  induction w with
  | nil => rfl
  | cons s rest ih =>
    cases s with
    | hole n => show (Seg.hole n).spell ++ spellWord (atoms rest) = (Seg.hole n).spell ++ spellWord rest; rw [ih]
    | text s =>
      rw [atoms, spellWord_append, ih]
      show _ = double s ++ spellWord rest
      congr 1
      induction s with
      | nil => rfl
      | cons c cs ih2 => rw [double_cons, ← ih2]; rfl

theorem wordValue_append (val : Str → Option Str) (a b : List Seg) :
    wordValue val (a ++ b) = match wordValue val a, wordValue val b with
      | some x, some y => some (x ++ y)
      | _, _ => none := by
  induction a with
  | nil => cases h : wordValue val b <;> simp [wordValue, h]
  | cons x xs ih =>
    rw [List.cons_append, wordValue, ih, wordValue]
    cases x.value val with
    | none => rfl
    | some y => cases wordValue val xs <;> cases wordValue val b <;> simp

theorem wordValue_chars (val : Str → Option Str) (s : Str) : wordValue val (s.map (fun c => Seg.text [c])) = some s := by
  induction s with
  | nil => rfl
  | cons c cs ih => rw [List.map_cons, wordValue, ih]; rfl

theorem wordValue_atoms (val : Str → Option Str) (w : List Seg) : wordValue val (atoms w) = wordValue val w := by
  induction w with
  | nil => rfl
  | cons s rest ih =>
    cases s with
    | hole n => rw [atoms, wordValue, wordValue, ih]
    | text s => rw [atoms, wordValue_append, ih, wordValue_chars, wordValue]; cases wordValue val rest <;> rfl

theorem hasHole_append (a b : List Seg) : hasHole (a ++ b) = (hasHole a || hasHole b) := by simp [hasHole]

theorem hasHole_atoms (w : List Seg) : hasHole (atoms w) = hasHole w := by
  induction w with
  | nil => rfl
  | cons s rest ih =>
    cases s with
    | hole n => rfl
    | text s =>
      rw [atoms, hasHole_append, ih]
      have : hasHole (s.map (fun c => Seg.text [c])) = false := by simp [hasHole]
      rw [this]; rfl

theorem mem_atoms {w : List Seg} {s : Seg} (h : s ∈ atoms w) : (∃ c, s = .text [c]) ∨ ∃ n, s = .hole n ∧ s ∈ w := by
  induction w with
  | nil => cases h
  | cons t rest ih =>
    cases t with
    | hole n =>
      rcases List.mem_cons.1 h with rfl | h
      · exact .inr ⟨n, rfl, by simp⟩
      · rcases ih h with h | ⟨n, rfl, h⟩
        · exact .inl h
        · exact .inr ⟨n, rfl, by simp [h]⟩
    | text s =>
      rcases List.mem_append.1 h with h | h
      · obtain ⟨c, _, rfl⟩ := List.mem_map.1 h; exact .inl ⟨c, rfl⟩
      · rcases ih h with h | ⟨n, rfl, h⟩
        · exact .inl h
        · exact .inr ⟨n, rfl, by simp [h]⟩

theorem findChar_append {c : Char} {n rest : Str} (h : c ∉ n) : findChar c (n ++ c :: rest) = some n.length := by
  induction n with
  | nil => simp [findChar]
  | cons x xs ih =>
    have h1 : x ≠ c := fun e => h (by simp [e])
    rw [List.cons_append, findChar, if_neg h1, ih (fun hx => h (by simp [hx]))]; rfl

theorem placeholderLen_hole {n rest : Str} (h : (Seg.hole n).Ok) : placeholderLen ('{' :: (n ++ '}' :: rest)) = n.length + 2 := by
  have hf := findChar_append (rest := rest) h.1
  cases n with
  | nil => rfl
  | cons x xs =>
    have hx : x ≠ '{' := by intro e; exact h.2 (by simp [e])
    rw [List.cons_append] at hf ⊢
    unfold placeholderLen
    split
    · rename_i heq; simp only [List.cons.injEq] at heq; exact absurd heq.2.1 hx
    · rename_i heq; simp at heq
    · rename_i r _ heq
      simp only [List.cons.injEq, true_and] at heq
      subst heq
      rw [hf]
    · rename_i h3
      exact absurd rfl (h3 _)

theorem placeholderLen_plain {c : Char} {s : Str} (h1 : c ≠ '{') (h2 : c ≠ '}') : placeholderLen (c :: s) = 0 := by
  unfold placeholderLen
  split
  · rename_i heq; simp only [List.cons.injEq] at heq; exact absurd heq.1 h1
  · rename_i heq; simp only [List.cons.injEq] at heq; exact absurd heq.1 h2
  · rename_i heq; simp only [List.cons.injEq] at heq; exact absurd heq.1 h1
  · rfl

theorem replacePart_text (reg : List PluginDef) {s : Str} (h1 : '{' ∉ s) (h2 : '}' ∉ s) (hne : s ≠ []) : replacePart reg s = some (.text s) := by
  have hh : s.head? ≠ some '{' := by
    cases s with
    | nil => exact absurd rfl hne
    | cons x xs => intro h; simp only [List.head?_cons, Option.some.injEq] at h; exact h1 (by simp [h])
  have hn : ∀ t : Str, t.head? = some '{' → s ≠ t := by intro t ht e; exact hh (e ▸ ht)
  have h3 : s ≠ "}}".toList := by intro e; exact h2 (by rw [e]; decide)
  unfold replacePart
  rw [if_neg (hn _ (by decide)), if_neg h3, if_neg (hn _ (by decide)), if_neg (hn _ (by decide)), if_neg (hn _ (by decide)), if_neg (hn _ (by decide)),
    if_neg (hn _ (by decide)), if_neg (hn _ (by decide)), if_neg (fun h => hh h.1)]

theorem hole_inj {n m : Str} : '{' :: (n ++ ['}']) = '{' :: (m ++ ['}']) ↔ n = m := by simp

theorem replacePart_hole (reg : List PluginDef) (n : Str) :
    replacePart reg ('{' :: (n ++ ['}'])) = (makeField reg (holeAttr n)).map .field := by
  have e0 : ∀ m : Str, ('{' :: (n ++ ['}']) = '{' :: (m ++ ['}'])) = (n = m) := fun m => propext hole_inj
  have h1 : '{' :: (n ++ ['}']) ≠ "{{".toList := by
    intro e
    have e : '{' :: (n ++ ['}']) = ['{', '{'] := e
    simp only [List.cons.injEq, true_and] at e
    have := congrArg List.getLast? e
    simp at this
  have h2 : '{' :: (n ++ ['}']) ≠ "}}".toList := by
    intro e
    have e : '{' :: (n ++ ['}']) = ['}', '}'] := e
    simp at e
  unfold replacePart holeAttr
  rw [if_neg h1, if_neg h2]
  rw [show "{}".toList = '{' :: ([] ++ ['}']) from rfl, show "{/}".toList = '{' :: ("/".toList ++ ['}']) from rfl,
    show "{//}".toList = '{' :: ("//".toList ++ ['}']) from rfl, show "{.}".toList = '{' :: (".".toList ++ ['}']) from rfl,
    show "{/.}".toList = '{' :: ("/.".toList ++ ['}']) from rfl, show "{..}".toList = '{' :: ("..".toList ++ ['}']) from rfl]
  simp only [e0]
  by_cases c1 : n = []
  · rw [if_pos c1, if_pos c1]
  rw [if_neg c1, if_neg c1]
  by_cases c2 : n = "/".toList
  · rw [if_pos c2, if_pos c2]
  rw [if_neg c2, if_neg c2]
  by_cases c3 : n = "//".toList
  · rw [if_pos c3, if_pos c3]
  rw [if_neg c3, if_neg c3]
  by_cases c4 : n = ".".toList
  · rw [if_pos c4, if_pos c4]
  rw [if_neg c4, if_neg c4]
  by_cases c5 : n = "/.".toList
  · rw [if_pos c5, if_pos c5]
  rw [if_neg c5, if_neg c5]
  by_cases c6 : n = "..".toList
  · rw [if_pos c6, if_pos c6]
  rw [if_neg c6, if_neg c6]
  rw [if_pos ⟨rfl, by rw [← List.cons_append, List.getLast?_append]; rfl⟩]
  simp

/-- The value of an attribute as a command gets it; `none` if there is none. -/
def RenderEnv.placeholder (R : RenderEnv) (i : EntInfo) (name : Str) : Option Str :=
  match makeField R.search.reg name with
  | none => none
  | some f => match R.search.attr i f.attr with
    | none => if R.all || f.modifier = some 'n' then some [] else none
    | some v => some (f.type.output R.out f.modifier v)

/-- All placeholders of a word name attributes. -/
def GoodWord (reg : List PluginDef) (w : List Seg) : Prop := ∀ n, Seg.hole n ∈ w → (Seg.hole n).Ok ∧ (makeField reg (holeAttr n)).isSome = true

/-- What the parts of a word should do. -/
structure Renders (R : RenderEnv) (parts : List Part) (cur : Str) (w : List Seg) : Prop where
  field : parts.any Part.isField = hasHole w
  value : ∀ i, R.renderArgument parts i = (wordValue (R.placeholder i) w).map (cur ++ ·)

theorem renderArgument_cons (R : RenderEnv) (i : EntInfo) (p : Part) (ps : List Part) :
    R.renderArgument (p :: ps) i = match R.renderPart i p, R.renderArgument ps i with
      | some a, some b => some (a ++ b)
      | _, _ => none := by
  unfold RenderEnv.renderArgument
  rw [mapOption]
  cases R.renderPart i p with
  | none => rfl
  | some a => cases mapOption (R.renderPart i) ps <;> simp

theorem renders_text {R : RenderEnv} {parts : List Part} {w : List Seg} (h : Renders R parts [] w) (cur : Str) : Renders R (.text cur :: parts) cur w := by
  refine ⟨by simpa [Part.isField] using h.field, fun i => ?_⟩
  rw [renderArgument_cons, h.value i]
  cases wordValue (R.placeholder i) w <;> simp [RenderEnv.renderPart]

/-- A part that is not the last one, possibly empty. -/
theorem renders_cur {R : RenderEnv} {reg : List PluginDef} {l : List Str} {parts : List Part} {cur : Str} {w : List Seg} (h1 : '{' ∉ cur) (h2 : '}' ∉ cur)
    (hp : mapOption (replacePart reg) (l.filter (· ≠ [])) = some parts) (h : Renders R parts [] w) :
    ∃ parts', mapOption (replacePart reg) ((cur :: l).filter (· ≠ [])) = some parts' ∧ Renders R parts' cur w := by
  by_cases hc : cur = []
  · subst hc
    exact ⟨parts, by simpa using hp, h⟩
  · refine ⟨.text cur :: parts, ?_, renders_text h cur⟩
    rw [List.filter_cons_of_pos (by simpa using hc), mapOption, replacePart_text reg h1 h2 hc, hp]

theorem split_atoms (R : RenderEnv) : ∀ (ts : List Seg) (cur : Str) (fuel : Nat), (∀ t ∈ ts, ∃ c, t = .text [c] ∨ ∃ n, t = .hole n) →
    GoodWord R.search.reg ts → '{' ∉ cur → '}' ∉ cur → (spellWord ts).length ≤ fuel →
    ∃ parts, mapOption (replacePart R.search.reg) ((placeholderSplit cur fuel (spellWord ts)).filter (· ≠ [])) = some parts ∧ Renders R parts cur ts := by
  intro ts
  induction ts with
  | nil =>
    intro cur fuel _ _ h1 h2 _
    have : placeholderSplit cur fuel (spellWord []) = [cur] := by cases fuel <;> rfl
    rw [this]
    exact renders_cur h1 h2 (l := []) (parts := []) rfl ⟨rfl, fun i => rfl⟩
  | cons t ts ih =>
    intro cur fuel hat hg h1 h2 hf
    have hat' : ∀ t ∈ ts, ∃ c, t = .text [c] ∨ ∃ n, t = .hole n := fun t ht => hat t (by simp [ht])
    have hg' : GoodWord R.search.reg ts := fun n hn => hg n (by simp [hn])
    have hsp : spellWord (t :: ts) = t.spell ++ spellWord ts := rfl
    rw [hsp] at hf ⊢
    obtain ⟨c, rfl | ⟨n, rfl⟩⟩ := hat t (by simp)
    · by_cases hb : c = '{' ∨ c = '}'
      · -- a doubled brace
        have hs : (Seg.text [c]).spell = [c, c] := by rcases hb with rfl | rfl <;> rfl
        have hl : placeholderLen (c :: c :: spellWord ts) = 2 := by rcases hb with rfl | rfl <;> rfl
        rw [hs] at hf ⊢
        cases fuel with
        | zero => simp at hf
        | succ fuel =>
          simp only [List.cons_append, List.nil_append] at hf ⊢
          rw [placeholderSplit, if_neg (by rw [hl]; decide), hl]
          obtain ⟨parts, hp, hr⟩ := ih [] fuel hat' hg' (by simp) (by simp) (by simp at hf; omega)
          have hrep : replacePart R.search.reg [c, c] = some (.text [c]) := by rcases hb with rfl | rfl <;> rfl
          refine renders_cur h1 h2 (parts := .text [c] :: parts) ?_ ?_
          · show mapOption _ (([c, c] :: placeholderSplit [] fuel (spellWord ts)).filter (· ≠ [])) = _
            rw [List.filter_cons_of_pos (by simp), mapOption, hrep, hp]
          · refine ⟨by simpa [Part.isField, hasHole] using hr.field, fun i => ?_⟩
            rw [renderArgument_cons, hr.value i, wordValue]
            cases wordValue (R.placeholder i) ts <;> simp [RenderEnv.renderPart, Seg.value]
      · rw [not_or] at hb
        have hs : (Seg.text [c]).spell = [c] := by
          show double [c] = [c]
          rw [double]
          · rfl
          · exact fun h => hb.1 h
          · exact fun h => hb.2 h
        rw [hs] at hf ⊢
        cases fuel with
        | zero => simp at hf
        | succ fuel =>
          simp only [List.cons_append, List.nil_append] at hf ⊢
          rw [placeholderSplit, if_pos (placeholderLen_plain hb.1 hb.2)]
          obtain ⟨parts, hp, hr⟩ := ih (cur ++ [c]) fuel hat' hg'
            (by simp only [List.mem_append, List.mem_singleton, not_or]; exact ⟨h1, fun h => hb.1 h.symm⟩)
            (by simp only [List.mem_append, List.mem_singleton, not_or]; exact ⟨h2, fun h => hb.2 h.symm⟩) (by simp at hf; omega)
          refine ⟨parts, hp, by simpa [hasHole] using hr.field, fun i => ?_⟩
          rw [hr.value i, wordValue]
          cases wordValue (R.placeholder i) ts <;> simp [Seg.value]
    · obtain ⟨hok, hmf⟩ := hg n (by simp)
      obtain ⟨f, hmf⟩ := Option.isSome_iff_exists.1 hmf
      have hs : (Seg.hole n).spell ++ spellWord ts = '{' :: (n ++ '}' :: spellWord ts) := by simp [Seg.spell]
      rw [hs] at hf ⊢
      cases fuel with
      | zero => simp at hf
      | succ fuel =>
        have hl := placeholderLen_hole (rest := spellWord ts) hok
        rw [placeholderSplit, if_neg (by rw [hl]; omega), hl]
        have htake : ('{' :: (n ++ '}' :: spellWord ts)).take (n.length + 2) = '{' :: (n ++ ['}']) := by
          rw [List.take_succ_cons, show n ++ '}' :: spellWord ts = (n ++ ['}']) ++ spellWord ts by simp, List.take_left' (by simp)]
        have hdrop : ('{' :: (n ++ '}' :: spellWord ts)).drop (n.length + 2) = spellWord ts := by
          rw [List.drop_succ_cons, show n ++ '}' :: spellWord ts = (n ++ ['}']) ++ spellWord ts by simp, List.drop_left' (by simp)]
        rw [htake, hdrop]
        obtain ⟨parts, hp, hr⟩ := ih [] fuel hat' hg' (by simp) (by simp) (by simp at hf; omega)
        refine renders_cur h1 h2 (parts := .field f :: parts) ?_ ?_
        · rw [List.filter_cons_of_pos (by simp), mapOption, replacePart_hole, hmf, hp]; rfl
        · refine ⟨rfl, fun i => ?_⟩
          rw [renderArgument_cons, hr.value i, wordValue]
          have : R.renderPart i (.field f) = (Seg.hole n).value (R.placeholder i) := by
            show _ = R.placeholder i (holeAttr n)
            rw [RenderEnv.placeholder, hmf]; rfl
          rw [this]
          cases (Seg.hole n).value (R.placeholder i) <;> cases wordValue (R.placeholder i) ts <;> simp

/-- One word of a template. -/
theorem templateWord_spell (R : RenderEnv) (w : List Seg) (hg : GoodWord R.search.reg w) :
    ∃ parts, templateWord R.search.reg (spellWord w) = some parts ∧ Renders R parts [] w := by
  obtain ⟨parts, hp, hr⟩ := split_atoms R (atoms w) [] (spellWord w).length
    (fun t ht => by
      rcases mem_atoms ht with ⟨c, h⟩ | ⟨n, h, _⟩
      · exact ⟨c, .inl h⟩
      · exact ⟨'x', .inr ⟨n, h⟩⟩)
    (fun n hn => by
      rcases mem_atoms hn with ⟨c, h⟩ | ⟨m, h, hm⟩
      · cases h
      · exact hg n hm)
    (by simp) (by simp) (by rw [spellWord_atoms]; exact Nat.le_refl _)
  rw [spellWord_atoms] at hp
  refine ⟨parts, hp, by rw [hr.field, hasHole_atoms], fun i => ?_⟩
  rw [hr.value i, wordValue_atoms]

theorem templateWords_spell (R : RenderEnv) (words : List (List Seg)) (hg : ∀ w ∈ words, GoodWord R.search.reg w) :
    ∃ fields, mapOption (templateWord R.search.reg) (words.map spellWord) = some fields ∧ All2 (fun parts w => Renders R parts [] w) fields words := by
  induction words with
  | nil => exact ⟨[], rfl, .nil⟩
  | cons w ws ih =>
    obtain ⟨fields, h1, h2⟩ := ih (fun v hv => hg v (by simp [hv]))
    obtain ⟨parts, h3, h4⟩ := templateWord_spell R w (hg w (by simp))
    exact ⟨parts :: fields, by rw [List.map_cons, mapOption, h3, h1], .cons h4 h2⟩

theorem renderArgument_plain (R : RenderEnv) (i : EntInfo) {parts : List Part} (h : parts.any Part.isField = false) :
    R.renderArgument parts i = some (parts.map Part.plain).flatten := by
  induction parts with
  | nil => rfl
  | cons p ps ih =>
    rw [List.any_cons, Bool.or_eq_false_iff] at h
    rw [renderArgument_cons, ih h.2]
    cases p with
    | field f => cases h.1
    | text s => rfl

theorem renderFields_single (R : RenderEnv) (i : EntInfo) (fields : List (List Part)) :
    R.renderFields fields [i] false = mapOption (fun parts => R.renderArgument parts i) fields := by
  unfold RenderEnv.renderFields
  induction fields with
  | nil => rfl
  | cons p ps ih =>
    rw [mapOption]
    conv => rhs; rw [mapOption, ← ih]
    have key : (if p.any Part.isField = true then
        if false = true then some (List.filterMap (R.renderArgument p) [i]) else mapOption (R.renderArgument p) [i]
      else some [(p.map Part.plain).flatten]) = (R.renderArgument p i).map (fun a => [a]) := by
      by_cases h : p.any Part.isField = true
      · rw [if_pos h, if_neg (by decide), mapOption, mapOption]; cases R.renderArgument p i <;> rfl
      · rw [if_neg h, renderArgument_plain R i (by simpa using h)]; rfl
    rw [key]
    cases R.renderArgument p i with
    | none => rfl
    | some a =>
      simp only [Option.map_some]
      generalize mapOption _ ps = x
      cases x <;> simp

theorem all2_mapOption {α β γ : Type} {f : α → Option γ} {g : β → Option γ} {as : List α} {bs : List β} (h : All2 (fun a b => f a = g b) as bs) :
    mapOption f as = mapOption g bs := by
  induction h with
  | nil => rfl
  | cons h1 _ ih => rw [mapOption, mapOption, h1, ih]

theorem all2_imp {α β : Type} {P Q : α → β → Prop} (hpq : ∀ a b, P a b → Q a b) {as : List α} {bs : List β} (h : All2 P as bs) : All2 Q as bs := by
  induction h with
  | nil => exact .nil
  | cons h1 _ ih => exact .cons (hpq _ _ h1) ih

theorem all2_append {α β : Type} {P : α → β → Prop} {as cs : List α} {bs ds : List β} (h : All2 P as bs) (h' : All2 P cs ds) : All2 P (as ++ cs) (bs ++ ds) := by
  induction h with
  | nil => exact h'
  | cons h1 _ ih => exact .cons h1 ih

theorem all2_any {α β : Type} {p : α → Bool} {q : β → Bool} {as : List α} {bs : List β} (h : All2 (fun a b => p a = q b) as bs) : as.any p = bs.any q := by
  induction h with
  | nil => rfl
  | cons h1 _ ih => rw [List.any_cons, List.any_cons, h1, ih]

theorem all2_drop {α β : Type} {P : α → β → Prop} {as : List α} {bs : List β} (h : All2 P as bs) (n : Nat) : All2 P (as.drop n) (bs.drop n) := by
  induction h generalizing n with
  | nil => simpa using All2.nil
  | cons h1 h2 ih =>
    cases n with
    | zero => exact .cons h1 h2
    | succ n => exact ih n

/-- The words of the command: the path is appended if there is no placeholder after the first word. -/
def commandWords (words : List (List Seg)) : List (List Seg) := words ++ if (words.drop 1).any hasHole then [] else [[.hole []]]

theorem execFields_spell (R : RenderEnv) (words : List (List Seg)) (hg : ∀ w ∈ words, GoodWord R.search.reg w)
    (hpath : (makeField R.search.reg "file.path".toList).isSome = true) :
    ∃ fields, execFields R.search.reg (words.map spellWord) = some fields ∧ All2 (fun parts w => Renders R parts [] w) fields (commandWords words) := by
  obtain ⟨fields, h1, h2⟩ := templateWords_spell R words hg
  have hany : (fields.drop 1).flatten.any Part.isField = (words.drop 1).any hasHole := by
    rw [← all2_any (all2_imp (fun _ _ h => h.field) (all2_drop h2 1))]
    generalize fields.drop 1 = l
    induction l with
    | nil => rfl
    | cons x xs ih => rw [List.flatten_cons, List.any_append, List.any_cons, ih]
  unfold execFields commandWords
  rw [h1]
  simp only [hany]
  by_cases h : (words.drop 1).any hasHole = true
  · rw [if_pos h, if_pos h, List.append_nil]
    exact ⟨fields, rfl, h2⟩
  · rw [if_neg h, if_neg h]
    obtain ⟨f, hf⟩ := Option.isSome_iff_exists.1 hpath
    rw [hf]
    refine ⟨fields ++ [[.field f]], rfl, all2_append h2 (.cons ⟨rfl, fun i => ?_⟩ .nil)⟩
    have hv : wordValue (R.placeholder i) [.hole []] = R.placeholder i "file.path".toList := by
      rw [wordValue, wordValue]
      show (match R.placeholder i "file.path".toList, some [] with
        | some a, some b => some (a ++ b)
        | _, _ => none) = _
      cases R.placeholder i "file.path".toList <;> simp
    rw [hv, renderArgument_cons]
    have hp : R.renderPart i (.field f) = R.placeholder i "file.path".toList := by rw [RenderEnv.placeholder, hf]; rfl
    rw [hp]
    show (match R.placeholder i "file.path".toList, some [] with
        | some a, some b => some (a ++ b)
        | _, _ => none) = _
    cases R.placeholder i "file.path".toList <;> simp

/-- C40: every word of a template gives one argument, made of the text (braces doubled) and the values of the placeholders; the path is appended iff no word
after the first contains a placeholder. There is no command for an entry iff a value is missing. -/
theorem C40_command (R : RenderEnv) (words : List (List Seg)) (hg : ∀ w ∈ words, GoodWord R.search.reg w)
    (hpath : (makeField R.search.reg "file.path".toList).isSome = true) :
    ∃ fields, execFields R.search.reg (words.map spellWord) = some fields ∧
      ∀ i, R.execRender fields i = mapOption (wordValue (R.placeholder i)) (commandWords words) := by
  obtain ⟨fields, h1, h2⟩ := execFields_spell R words hg hpath
  refine ⟨fields, h1, fun i => ?_⟩
  rw [RenderEnv.execRender, renderFields_single]
  refine all2_mapOption (all2_imp (fun parts w h => ?_) h2)
  rw [h.value i]; simp

/-- C40: every list of strings can be given to a command literally by doubling braces. -/
theorem C40_literal (R : RenderEnv) (cmd : Str) (args : List Str) (hpath : (makeField R.search.reg "file.path".toList).isSome = true) :
    ∃ fields, execFields R.search.reg ((cmd :: args).map double) = some fields ∧
      ∀ i, R.execRender fields i = (R.placeholder i "file.path".toList).map (fun p => cmd :: args ++ [p]) := by
  obtain ⟨fields, h1, h2⟩ := C40_command R ((cmd :: args).map (fun s => [.text s])) (by
    intro w hw n hn
    obtain ⟨s, _, rfl⟩ := List.mem_map.1 hw
    simp at hn) hpath
  have e : ((cmd :: args).map (fun s => [Seg.text s])).map spellWord = (cmd :: args).map double := by
    rw [List.map_map]; exact List.map_congr_left (fun s _ => by simp [spellWord, Seg.spell])
  rw [e] at h1
  refine ⟨fields, h1, fun i => ?_⟩
  rw [h2 i]
  have hno : (((cmd :: args).map (fun s => [Seg.text s])).drop 1).any hasHole = false := by simp [hasHole]
  unfold commandWords
  rw [hno, if_neg (by decide), mapOption_append]
  have hm : ∀ l : List Str, mapOption (wordValue (R.placeholder i)) (l.map (fun s => [Seg.text s])) = some l := by
    intro l
    induction l with
    | nil => rfl
    | cons x xs ih => rw [List.map_cons, mapOption, ih]; simp [wordValue, Seg.value]
  rw [hm, mapOption, mapOption]
  have hv : wordValue (R.placeholder i) [.hole []] = R.placeholder i "file.path".toList := by
    rw [wordValue, wordValue]
    show (match R.placeholder i "file.path".toList, some [] with
      | some a, some b => some (a ++ b)
      | _, _ => none) = _
    cases R.placeholder i "file.path".toList <;> simp
  rw [hv]
  cases R.placeholder i "file.path".toList <;> rfl

theorem findChar_none {c : Char} {s : Str} (h : c ∉ s) : findChar c s = none := by
  induction s with
  | nil => rfl
  | cons x xs ih => rw [findChar, if_neg (fun e => h (by simp [e])), ih (fun hx => h (by simp [hx]))]; rfl

theorem placeholderSplit_none : ∀ (s cur : Str) (fuel : Nat), s.length ≤ fuel → (∀ a b, s = a ++ b → placeholderLen b = 0) → placeholderSplit cur fuel s = [cur ++ s] := by
  intro s
  induction s with
  | nil => intro cur fuel _ _; cases fuel <;> simp [placeholderSplit]
  | cons x xs ih =>
    intro cur fuel hf h
    cases fuel with
    | zero => simp at hf
    | succ fuel =>
      rw [placeholderSplit, if_pos (h [] _ rfl), ih (cur ++ [x]) fuel (by simpa using hf) (fun a b hab => h (x :: a) b (by simp [hab]))]
      simp

/-- C40: a word in which no brace is doubled and no opening brace is closed is left unchanged. -/
theorem C40_verbatim (R : RenderEnv) (s : Str) (h1 : ∀ a b, s ≠ a ++ "{{".toList ++ b) (h2 : ∀ a b, s ≠ a ++ "}}".toList ++ b)
    (h3 : ∀ a b c, s ≠ a ++ '{' :: (b ++ '}' :: c)) : ∃ parts, templateWord R.search.reg s = some parts ∧ parts.any Part.isField = false ∧
      ∀ i, R.renderArgument parts i = some s := by
  have hs : placeholderSplit [] s.length s = [s] := by
    rw [placeholderSplit_none s [] s.length (Nat.le_refl _)]
    · rfl
    · intro a b hab
      unfold placeholderLen
      split
      · rename_i t; exact absurd (by rw [hab]; simp) (h1 a t)
      · rename_i t; exact absurd (by rw [hab]; simp) (h2 a t)
      · rename_i r _
        have : '}' ∉ r := by
          intro hx
          obtain ⟨u, v, rfl⟩ := List.append_of_mem hx
          exact h3 a u v hab
        rw [findChar_none this]
      · rfl
  unfold templateWord
  rw [hs]
  by_cases he : s = []
  · subst he
    exact ⟨[], rfl, rfl, fun i => rfl⟩
  · have hrep : replacePart R.search.reg s = some (.text s) := by
      have hn : ∀ t : Str, (∃ m, t = '{' :: (m ++ ['}'])) → s ≠ t := by
        rintro t ⟨m, rfl⟩ e
        exact h3 [] m [] (by simp [e])
      have hlast : ¬ (s.head? = some '{' ∧ s.getLast? = some '}') := by
        rintro ⟨ha, hb⟩
        cases s with
        | nil => exact he rfl
        | cons x xs =>
          simp only [List.head?_cons, Option.some.injEq] at ha
          subst ha
          cases hx : xs with
          | nil => rw [hx] at hb; simp at hb
          | cons y ys =>
            have hne : xs ≠ [] := by simp [hx]
            have hb' : xs.getLast hne = '}' := by
              rw [List.getLast?_eq_some_getLast (by simp)] at hb
              simpa [List.getLast_cons hne] using hb
            have := List.dropLast_concat_getLast hne
            rw [hb'] at this
            exact h3 [] xs.dropLast [] (by simp [this])
      unfold replacePart
      rw [if_neg (fun e => h1 [] [] (by simp [e])), if_neg (fun e => h2 [] [] (by simp [e])), if_neg (hn "{}".toList ⟨[], rfl⟩), if_neg (hn "{/}".toList ⟨"/".toList, rfl⟩),
        if_neg (hn "{//}".toList ⟨"//".toList, rfl⟩), if_neg (hn "{.}".toList ⟨".".toList, rfl⟩), if_neg (hn "{/.}".toList ⟨"/.".toList, rfl⟩), if_neg (hn "{..}".toList ⟨"..".toList, rfl⟩), if_neg hlast]
    refine ⟨[.text s], ?_, rfl, fun i => ?_⟩
    · rw [List.filter_cons_of_pos (by simpa using he)]
      show mapOption _ [s] = _
      rw [mapOption, hrep]; rfl
    · simp [RenderEnv.renderArgument, mapOption, RenderEnv.renderPart]

/-- The arguments a word gives in batch mode: one for every entry with a value, or the word itself if it has no placeholder. -/
def batchWord (val : EntInfo → Str → Option Str) (entries : List EntInfo) (w : List Seg) : List Str :=
  if hasHole w then entries.filterMap (fun i => wordValue (val i) w) else (wordValue (fun _ => none) w).toList

theorem wordValue_noHole {w : List Seg} (h : hasHole w = false) (v v' : Str → Option Str) : wordValue v w = wordValue v' w := by
  induction w with
  | nil => rfl
  | cons s rest ih =>
    cases s with
    | hole n => simp [hasHole] at h
    | text s => rw [wordValue, wordValue, ih (by simpa [hasHole] using h)]; rfl

theorem renders_plain {R : RenderEnv} {parts : List Part} {w : List Seg} (i : EntInfo) (h : Renders R parts [] w) (hh : hasHole w = false) :
    wordValue (fun _ => none) w = some (parts.map Part.plain).flatten := by
  have h1 := h.value i
  rw [renderArgument_plain R i (by rw [h.field, hh])] at h1
  rw [wordValue_noHole hh _ (R.placeholder i), h1]; simp

theorem renderFields_batch (R : RenderEnv) (i : EntInfo) (entries : List EntInfo) {fields : List (List Part)} {words : List (List Seg)}
    (h : All2 (fun parts w => Renders R parts [] w) fields words) :
    R.renderFields fields entries true = some (words.map (batchWord (R.placeholder ·) entries)).flatten := by
  unfold RenderEnv.renderFields
  induction h with
  | nil => rfl
  | @cons p w ps ws h1 h2 ih =>
    rw [mapOption]
    have key : (if p.any Part.isField = true then
        if true = true then some (List.filterMap (R.renderArgument p) entries) else mapOption (R.renderArgument p) entries
      else some [(p.map Part.plain).flatten]) = some (batchWord (R.placeholder ·) entries w) := by
      rw [h1.field]
      unfold batchWord
      by_cases hh : hasHole w = true
      · rw [if_pos hh, if_pos rfl, if_pos hh]
        congr 2
        funext i
        rw [h1.value i]; simp
      · rw [if_neg hh, if_neg hh, renders_plain i h1 (by simpa using hh)]; rfl
    rw [key]
    generalize mapOption _ ps = x at ih
    cases x with
    | none => simp at ih
    | some l =>
      simp only [Option.map_some, Option.some.injEq] at ih
      simp [ih]

/-- C40 for -X: the command is the first word, every other word gives one argument for each entry in order (without those that lack a value) or is passed on
literally if it has no placeholder; the path is used if there is no placeholder at all. -/
theorem C40_batch (R : RenderEnv) (i : EntInfo) (cmd : List Seg) (words : List (List Seg)) (hg : ∀ w ∈ cmd :: words, GoodWord R.search.reg w)
    (hpath : (makeField R.search.reg "file.path".toList).isSome = true) (hcmd : hasHole cmd = false) :
    ∃ fields, execBatchFields R.search.reg ((cmd :: words).map spellWord) = some fields ∧
      ∀ entries, R.batchRender fields entries =
        (wordValue (fun _ => none) cmd).getD [] :: (((commandWords (cmd :: words)).drop 1).map (batchWord (R.placeholder ·) entries)).flatten := by
  obtain ⟨fields, h1, h2⟩ := execFields_spell R (cmd :: words) hg hpath
  have hcw : commandWords (cmd :: words) = cmd :: (commandWords (cmd :: words)).drop 1 := by simp [commandWords]
  rw [hcw] at h2
  cases h2 with
  | @cons p _ ps _ h3 h4 =>
    refine ⟨p :: ps, ?_, fun entries => ?_⟩
    · unfold execBatchFields
      rw [h1]
      simp only [List.headD_cons, h3.field, hcmd, Bool.false_eq_true, if_false]
    · unfold RenderEnv.batchRender
      rw [List.drop_succ_cons, List.drop_zero, renderFields_batch R i entries h4, renders_plain i h3 hcmd]
      rfl

/-- A template whose command word has a placeholder is refused for -X. -/
theorem C40_batch_refused (R : RenderEnv) (cmd : List Seg) (words : List (List Seg)) (hg : ∀ w ∈ cmd :: words, GoodWord R.search.reg w)
    (hpath : (makeField R.search.reg "file.path".toList).isSome = true) (hcmd : hasHole cmd = true) :
    execBatchFields R.search.reg ((cmd :: words).map spellWord) = none := by
  obtain ⟨fields, h1, h2⟩ := execFields_spell R (cmd :: words) hg hpath
  have hcw : commandWords (cmd :: words) = cmd :: (commandWords (cmd :: words)).drop 1 := by simp [commandWords]
  rw [hcw] at h2
  cases h2 with
  | @cons p _ ps _ h3 h4 =>
    unfold execBatchFields
    rw [h1]
    simp [h3.field, hcmd]

/-- The words `convert {} new-{/.}{{}}.jpg`. -/
def demoTemplate : List (List Seg) :=
  [[.text "convert".toList], [.hole []], [.text "new-".toList, .hole "/.".toList, .text "{}.jpg".toList]]

set_option maxRecDepth 20000 in
example : demoTemplate.map spellWord = ["convert", "{}", "new-{/.}{{}}.jpg"].map String.toList ∧ (∀ w ∈ demoTemplate, GoodWord [filePlugin] w) ∧
    (makeField [filePlugin] "file.path".toList).isSome = true ∧ commandWords demoTemplate = demoTemplate := by
  refine ⟨by decide, ?_, by decide, by rfl⟩
  intro w hw n hn
  simp only [demoTemplate, List.mem_cons, List.not_mem_nil, or_false] at hw
  rcases hw with rfl | rfl | rfl
  · simp at hn
  · simp only [List.mem_cons, List.not_mem_nil, or_false, Seg.hole.injEq] at hn
    subst hn
    exact ⟨by unfold Seg.Ok; decide, by decide⟩
  · simp only [List.mem_cons, List.not_mem_nil, or_false, Seg.hole.injEq, reduceCtorEq, false_or] at hn
    subst hn
    exact ⟨by unfold Seg.Ok; decide, by decide⟩

end FF
