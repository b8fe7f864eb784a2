import Verif.Props.Console
import Verif.Props.Entry
/-! C30: `--json` and `--jsonl`. -/
namespace FF
open Spec

theorem natStrAux_eq_base : ∀ f n, natStrAux f n = natBaseAux 10 f n := by
  have hd : ∀ d, d < 10 → digitChar d = baseDigit d := by decide
  intro f
  induction f with
  | zero => intro n; rfl
  | succ f ih =>
    intro n
    unfold natStrAux natBaseAux
    by_cases h : n < 10
    · rw [if_pos h, if_pos h, hd n h]
    · rw [if_neg h, if_neg h, ih, hd _ (Nat.mod_lt _ (by omega))]

/-- Without modifier numbers are shown in base 10. -/
theorem intStr_spec (n : Int) : ∃ s, intStr n = (if n < 0 then ['-'] else []) ++ s ∧ NumeralIn 10 s n.natAbs := by
  unfold intStr natStr
  simp only [natStrAux_eq_base]
  by_cases hn : n < 0
  · rw [if_pos hn, if_pos hn]
    have : (-n).toNat = n.natAbs := by omega
    rw [this]
    exact ⟨_, rfl, natBaseAux_spec 10 (by omega) (by omega) _ _ (Nat.lt_succ_self _)⟩
  · rw [if_neg hn, if_neg hn]
    have : n.toNat = n.natAbs := by omega
    rw [this]
    exact ⟨_, rfl, natBaseAux_spec 10 (by omega) (by omega) _ _ (Nat.lt_succ_self _)⟩

/-- C65: without modifier a number is shown in base 10. -/
theorem C65_decimal (o : OutEnv) (ty : Ty) (hty : ty ∈ [Ty.number, .mode, .size, .time, .duration]) (n : Int) :
    ∃ s, ty.output o none (.int n) = (if n < 0 then ['-'] else []) ++ s ∧ NumeralIn 10 s n.natAbs := by
  have hx : ty.output o none (.int n) = intStr n := by
    simp only [List.mem_cons, List.not_mem_nil, or_false] at hty
    rcases hty with rfl | rfl | rfl | rfl | rfl <;> rfl
  rw [hx]
  exact intStr_spec n

example : Ty.size.output ⟨false, fun _ => 0⟩ none (.int 1024) = "1024".toList := by decide

theorem jsonHex_spec {n : Nat} (h : n < 0x10000) : (jsonHex n).length = 4 ∧ (∀ d ∈ jsonHex n, d ∈ baseDigits) ∧ readBase 16 (jsonHex n) = n := by
  have hm : ∀ d, d < 16 → baseDigit d ∈ baseDigits ∧ baseDigits.idxOf (baseDigit d) = d := by decide
  have e1 := hm (n / 4096 % 16) (Nat.mod_lt _ (by omega))
  have e2 := hm (n / 256 % 16) (Nat.mod_lt _ (by omega))
  have e3 := hm (n / 16 % 16) (Nat.mod_lt _ (by omega))
  have e4 := hm (n % 16) (Nat.mod_lt _ (by omega))
  refine ⟨rfl, ?_, ?_⟩
  · intro d hd
    simp only [jsonHex, List.map_cons, List.map_nil, List.mem_cons, List.not_mem_nil, or_false] at hd
    rcases hd with rfl | rfl | rfl | rfl
    · exact e1.1
    · exact e2.1
    · exact e3.1
    · exact e4.1
  · simp only [jsonHex, List.map_cons, List.map_nil, readBase, List.foldl_cons, List.foldl_nil, e1.2, e2.2, e3.2, e4.2]
    omega

theorem char_toNat_lt (c : Char) : c.toNat < 0x110000 := by
  have h := c.valid
  have e : c.toNat = c.val.toNat := rfl
  rw [e]
  rcases h with h | h
  · have : c.val.toNat < 0xd800 := h
    omega
  · exact h.2

theorem jsonChar_spec (c : Char) : JChar c (jsonChar c) := by
  unfold jsonChar
  split
  · subst_vars; exact .quote
  split
  · subst_vars; exact .backslash
  split
  · subst_vars; exact .lf
  split
  · subst_vars; exact .cr
  split
  · subst_vars; exact .tab
  split
  · subst_vars; exact .ff
  split
  · subst_vars; exact .bs
  rename_i h1 h2 _ _ _ _ _
  split
  · rename_i h; exact .plain c h.1 h1 h2
  split
  · rename_i h
    obtain ⟨a, b, d⟩ := jsonHex_spec h
    exact .hex a b d
  · rename_i h
    have hc := char_toNat_lt c
    obtain ⟨a, b, d⟩ := jsonHex_spec (n := 0xD800 + (c.toNat - 0x10000) / 0x400) (by omega)
    obtain ⟨a', b', d'⟩ := jsonHex_spec (n := 0xDC00 + (c.toNat - 0x10000) % 0x400) (by omega)
    exact .pair (hi := jsonHex (0xD800 + (c.toNat - 0x10000) / 0x400)) (lo := jsonHex (0xDC00 + (c.toNat - 0x10000) % 0x400)) a b a' b'
      (by rw [d]; omega) (by rw [d]; omega) (by rw [d']; omega) (by rw [d']; omega) (by rw [d, d']; omega)

theorem jsonStr_spec (s : Str) : JString s (jsonStr s) := by
  refine ⟨s.flatMap jsonChar, ?_, rfl⟩
  induction s with
  | nil => exact .nil
  | cons c cs ih => exact .cons (jsonChar_spec c) ih

/-- The JSON value of an attribute. -/
def Val.toJV : Option Val → JV
  | none => .null
  | some (.str s) => .str s
  | some (.strs l) => .arr (l.map .str)
  | some (.int n) => .num n
  | some (.bool b) => .bool b

/-- The JSON object of a record. -/
def recordJV (r : List (Str × Option Val)) : JV := .obj (r.map (fun p => (p.1, Val.toJV p.2)))

theorem jspace_one : JSpace [' '] := by intro c hc; simp at hc; exact .inl hc

theorem jsonVal_spec (v : Option Val) : JText (Val.toJV v) (jsonVal v) := by
  match v with
  | none => exact .null
  | some (.str s) => exact .str (jsonStr_spec s)
  | some (.int n) =>
    obtain ⟨s, h1, h2⟩ := intStr_spec n
    exact .num ⟨s, h2, h1⟩
  | some (.bool true) => exact .true
  | some (.bool false) => exact .false
  | some (.strs l) =>
    refine .arr ?_
    induction l with
    | nil => exact .nil
    | cons a as ih => cases as with
      | nil => exact .one (.str (jsonStr_spec a))
      | cons b bs => exact .cons (sp := [' ']) (.str (jsonStr_spec a)) jspace_one ih

theorem jsonRecord_spec (r : List (Str × Option Val)) : JText (recordJV r) (jsonRecord r) := by
  refine .obj ?_
  induction r with
  | nil => exact .nil
  | cons a as ih => cases as with
    | nil =>
      have := JMembers.one (sp := [' ']) (jsonStr_spec a.1) jspace_one (jsonVal_spec a.2)
      simpa [joinStr] using this
    | cons b bs =>
      have := JMembers.cons (sp := [' ']) (sp' := [' ']) (jsonStr_spec a.1) jspace_one (jsonVal_spec a.2) jspace_one ih
      simpa [joinStr] using this

/-- C30: the output with `--json` is one JSON list of all records in order, followed by a newline, for any number of records. -/
theorem C30_json (R : RenderEnv) (fields : List Field) (entries : List EntInfo) :
    ∃ t, jsonOutput (entries.map (R.toDict fields)) = t ++ ['\n'] ∧ JText (.arr (entries.map (fun i => recordJV (R.toDict fields i)))) t := by
  have key : ∀ l : List (List (Str × Option Val)), JItems (l.map recordJV) (jsonPrint false l) := by
    intro l
    have gen : ∀ r (l : List (List (Str × Option Val))), JItems ((r :: l).map recordJV) (jsonRecord r ++ jsonPrint true l) := by
      intro r l
      induction l generalizing r with
      | nil => simpa [jsonPrint] using JItems.one (jsonRecord_spec r)
      | cons a as ih =>
        have := JItems.cons (sp := []) (jsonRecord_spec r) (by intro c hc; cases hc) (ih a)
        simpa [jsonPrint] using this
    cases l with
    | nil => exact .nil
    | cons r l => exact gen r l
  refine ⟨'[' :: (jsonPrint false (entries.map (R.toDict fields)) ++ [']']), by simp [jsonOutput], ?_⟩
  have := JText.arr (key (entries.map (R.toDict fields)))
  rw [List.map_map] at this
  exact this

theorem jsonHex_no_newline (n : Nat) : '\n' ∉ jsonHex n := by
  have hm : ∀ d, d < 16 → '\n' ≠ baseDigit d := by decide
  simp only [jsonHex, List.map_cons, List.map_nil, List.mem_cons, List.not_mem_nil, or_false, not_or]
  exact ⟨hm _ (Nat.mod_lt _ (by omega)), hm _ (Nat.mod_lt _ (by omega)), hm _ (Nat.mod_lt _ (by omega)), hm _ (Nat.mod_lt _ (by omega))⟩

theorem jsonChar_no_newline (c : Char) : '\n' ∉ jsonChar c := by
  unfold jsonChar
  have hc : ∀ a b : Char, '\n' ≠ a → '\n' ≠ b → '\n' ∉ [a, b] := by
    intro a b h1 h2; simp [h1, h2]
  split
  · exact hc _ _ (by decide) (by decide)
  split
  · exact hc _ _ (by decide) (by decide)
  split
  · exact hc _ _ (by decide) (by decide)
  split
  · exact hc _ _ (by decide) (by decide)
  split
  · exact hc _ _ (by decide) (by decide)
  split
  · exact hc _ _ (by decide) (by decide)
  split
  · exact hc _ _ (by decide) (by decide)
  rename_i h1 _ _ _ _
  split
  · simp only [List.mem_singleton]; exact fun e => h1 e.symm
  split
  · rw [List.mem_append, not_or]; exact ⟨hc _ _ (by decide) (by decide), jsonHex_no_newline _⟩
  · simp only [List.mem_append, not_or]
    exact ⟨⟨hc _ _ (by decide) (by decide), jsonHex_no_newline _⟩, hc _ _ (by decide) (by decide), jsonHex_no_newline _⟩

theorem jsonStr_no_newline (s : Str) : '\n' ∉ jsonStr s := by
  unfold jsonStr
  simp only [List.mem_cons, List.mem_append, List.mem_flatMap, List.not_mem_nil, or_false, not_or, not_exists, not_and, List.cons_append]
  exact ⟨by decide, fun c _ => jsonChar_no_newline c, by decide⟩

theorem joinStr_no_newline {sep : Str} (hs : '\n' ∉ sep) {l : List Str} (h : ∀ w ∈ l, '\n' ∉ w) : '\n' ∉ joinStr sep l := by
  induction l with
  | nil => simp [joinStr]
  | cons a as ih => cases as with
    | nil => exact h a (by simp)
    | cons b bs =>
      simp only [joinStr, List.mem_append, not_or] at ih ⊢
      exact ⟨h a (by simp), hs, ih (fun w hw => h w (by simp [hw]))⟩

theorem jsonVal_no_newline (v : Option Val) : '\n' ∉ jsonVal v := by
  match v with
  | none => decide
  | some (.str s) => exact jsonStr_no_newline s
  | some (.bool true) => decide
  | some (.bool false) => decide
  | some (.int n) =>
    obtain ⟨s, h1, _, h2, _⟩ := intStr_spec n
    show '\n' ∉ intStr n
    rw [h1, List.mem_append, not_or]
    refine ⟨by split <;> decide, fun h => ?_⟩
    have := h2 _ h
    revert this
    decide
  | some (.strs l) =>
    show '\n' ∉ '[' :: joinStr ", ".toList (l.map jsonStr) ++ [']']
    simp only [List.cons_append, List.mem_cons, List.mem_append, List.not_mem_nil, or_false, not_or]
    refine ⟨by decide, joinStr_no_newline (by decide) ?_, by decide⟩
    intro w hw
    obtain ⟨s, _, rfl⟩ := List.mem_map.1 hw
    exact jsonStr_no_newline s

theorem jsonRecord_no_newline (r : List (Str × Option Val)) : '\n' ∉ jsonRecord r := by
  unfold jsonRecord
  simp only [List.cons_append, List.mem_cons, List.mem_append, List.not_mem_nil, or_false, not_or]
  refine ⟨by decide, joinStr_no_newline (by decide) ?_, by decide⟩
  intro w hw
  obtain ⟨p, _, rfl⟩ := List.mem_map.1 hw
  simp only [List.mem_append, not_or]
  exact ⟨⟨jsonStr_no_newline _, by decide⟩, jsonVal_no_newline _⟩

/-- C30: with `--jsonl` each record is one line: splitting the output at newlines gives the records in order, and each line is the JSON object of its record. -/
theorem C30_jsonl (R : RenderEnv) (fields : List Field) (entries : List EntInfo) :
    ∃ lines : List Str, splitOn '\n' (jsonlOutput (entries.map (R.toDict fields))) = lines ++ [[]] ∧
      All2 (fun i l => JText (recordJV (R.toDict fields i)) l) entries lines := by
  induction entries with
  | nil => exact ⟨[], rfl, .nil⟩
  | cons i es ih =>
    obtain ⟨lines, h1, h2⟩ := ih
    refine ⟨jsonRecord (R.toDict fields i) :: lines, ?_, .cons (jsonRecord_spec _) h2⟩
    have e : jsonlOutput ((i :: es).map (R.toDict fields)) = jsonRecord (R.toDict fields i) ++ '\n' :: jsonlOutput (es.map (R.toDict fields)) := by
      simp [jsonlOutput]
    rw [e, splitOn_append_sep _ _ _ (jsonRecord_no_newline _), h1]
    rfl

example : jsonOutput [[("name".toList, some (.str "a\"é\n".toList)), ("size".toList, none)], [("n".toList, some (.int (-3)))]] =
    "[{\"name\": \"a\\\"\\u00e9\\n\", \"size\": null},{\"n\": -3}]\n".toList ∧ jsonOutput [] = "[]\n".toList := by decide

end FF
