import Verif.Model.PyStr
/-!
A small model of CPython's `re`: backtracking with ordered choice, which is what `re.match` does.
Repetition is only supported over single character classes; this covers the regular expressions of ff.
(Library semantics, not code of /repo; the patterns themselves are cited where they are defined.)
-/
namespace FF

/-- Regular expressions. `cap` is a numbered group, `eol` is `$` (end, or before a final newline). -/
inductive Re
  | eps
  | chr (p : Char → Bool)
  | seq (a b : Re)
  | alt (a b : Re)
  | star (greedy : Bool) (p : Char → Bool)
  | cap (n : Nat) (a : Re)
  | eol

/-- Captured groups, latest first. -/
abbrev Caps := List (Nat × Str)

/-- The text captured by a group, `None` if it did not take part. -/
def Caps.get (c : Caps) (n : Nat) : Option Str := (c.find? (fun x => x.1 = n)).map Prod.snd

/-- Greedy `p*` followed by continuation `k`: longest first. -/
def starG {β : Type} (p : Char → Bool) (k : Str → Option β) : Str → Option β
  | [] => k []
  | x :: xs => if p x then (match starG p k xs with
      | some v => some v
      | none => k (x :: xs)) else k (x :: xs)

/-- Lazy `p*?` followed by continuation `k`: shortest first. -/
def starL {β : Type} (p : Char → Bool) (k : Str → Option β) : Str → Option β
  | [] => k []
  | x :: xs => match k (x :: xs) with
    | some v => some v
    | none => if p x then starL p k xs else none

/-- Match `r` at the beginning of `s`, then continue with `k` on the rest; the first success in CPython's order of attempts. -/
def Re.run {β : Type} : Re → Str → Caps → (Str → Caps → Option β) → Option β
  | .eps, s, c, k => k s c
  | .chr _, [], _, _ => none
  | .chr p, x :: xs, c, k => if p x then k xs c else none
  | .seq a b, s, c, k => a.run s c (fun s' c' => b.run s' c' k)
  | .alt a b, s, c, k => match a.run s c k with
    | some v => some v
    | none => b.run s c k
  | .star true p, s, c, k => starG p (fun s' => k s' c) s
  | .star false p, s, c, k => starL p (fun s' => k s' c) s
  | .cap n a, s, c, k => a.run s c (fun s' c' => k s' ((n, s.take (s.length - s'.length)) :: c'))
  | .eol, s, c, k => if s = [] ∨ s = ['\n'] then k s c else none

/-- `re.match`: groups and the unmatched rest. -/
def Re.match' (r : Re) (s : Str) : Option (Caps × Str) := r.run s [] (fun s' c => some (c, s'))

/-- One given character. -/
def Re.lit (c : Char) : Re := .chr (· = c)
/-- `p+` -/
def Re.plus (greedy : Bool) (p : Char → Bool) : Re := .seq (.chr p) (.star greedy p)
/-- `a?` (greedy) -/
def Re.opt (a : Re) : Re := .alt a .eps
/-- A literal string. -/
def Re.str : Str → Re
  | [] => .eps
  | c :: cs => .seq (.lit c) (Re.str cs)
/-- Ordered alternatives. -/
def Re.alts : List Re → Re
  | [] => .chr (fun _ => false)
  | [a] => a
  | a :: as => .alt a (Re.alts as)
/-- Concatenation. -/
def Re.seqs : List Re → Re
  | [] => .eps
  | [a] => a
  | a :: as => .seq a (Re.seqs as)
/-- `.`: any character but newline. -/
def Re.dot (c : Char) : Bool := c ≠ '\n'

/-- The character classes `\w` and `\s` of `re` on `str` patterns, as far as they matter. -/
structure CharClass where
  word : Char → Bool
  space : Char → Bool
  /-- Word characters are not white space. -/
  word_not_space : ∀ c, word c = true → space c = false
  /-- ASCII letters and digits are word characters. -/
  word_alnum : ∀ c, c.isAlphanum = true → word c = true
  /-- None of these is a word character. -/
  word_not_punct : ∀ c ∈ ['.', '=', ':', '~', '%', '>', '<', '+', '-', '{', '}', '\n', ',', '#'], word c = false
  /-- None of these is white space. -/
  space_not_punct : ∀ c ∈ ['.', '=', ':', '~', '%', '>', '<', '+', '-', '{', '}', ',', '#'], space c = false
  /-- Newline is white space. -/
  space_newline : space '\n' = true

/-- The ASCII part of `\w` and `\s`. -/
def asciiClass : CharClass where
  word c := c.isAlphanum || c = '_'
  space c := c = ' ' || c = '\t' || c = '\n' || c = '\r' || c = '\x0b' || c = '\x0c'
  word_not_space c h := by
    by_cases hs : c = ' ' ∨ c = '\t' ∨ c = '\n' ∨ c = '\r' ∨ c = '\x0b' ∨ c = '\x0c'
    · rcases hs with rfl | rfl | rfl | rfl | rfl | rfl <;> exact absurd h (by decide)
    · simp only [not_or] at hs; simp [hs]
  word_alnum c h := by simp [h]
  word_not_punct c h := by
    simp only [List.mem_cons, List.not_mem_nil, or_false] at h
    rcases h with rfl | rfl | rfl | rfl | rfl | rfl | rfl | rfl | rfl | rfl | rfl | rfl | rfl | rfl <;> decide
  space_not_punct c h := by
    simp only [List.mem_cons, List.not_mem_nil, or_false] at h
    rcases h with rfl | rfl | rfl | rfl | rfl | rfl | rfl | rfl | rfl | rfl | rfl | rfl | rfl <;> decide
  space_newline := by decide

end FF
