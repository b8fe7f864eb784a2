import Verif.Spec.Elf
import Verif.Props.Sort
/-! C120: elf.sonames. -/
namespace FF
open Spec

theorem mem_iterTags {table : List DynTag} {n : Str} : DynTag.needed n ∈ iterTags table ↔ Needs table n := by
  induction table with
  | nil => simp [iterTags, Needs]
  | cons t ts ih =>
    have key : t ≠ .null → (DynTag.needed n ∈ t :: iterTags ts ↔ Needs (t :: ts) n) := by
      intro ht
      rw [List.mem_cons, ih]
      constructor
      · rintro (rfl | ⟨a, b, rfl, h⟩)
        · exact ⟨[], ts, rfl, by simp⟩
        · exact ⟨t :: a, b, rfl, by simp [h, ht.symm]⟩
      · rintro ⟨a, b, h, hn⟩
        cases a with
        | nil => simp at h; exact .inl h.1.symm
        | cons x a =>
          simp only [List.cons_append, List.cons.injEq] at h
          exact .inr ⟨a, b, h.2, fun hc => hn (by simp [hc])⟩
    cases t with
    | null =>
      simp only [iterTags, List.mem_singleton, reduceCtorEq, false_iff]
      rintro ⟨a, b, h, hn⟩
      cases a with
      | nil => simp at h
      | cons x a =>
        simp only [List.cons_append, List.cons.injEq] at h
        exact hn (by simp [← h.1])
    | needed m => exact key (by simp)
    | other => exact key (by simp)

theorem flatMap_other {l : List ElfSection} (h : ∀ s ∈ l, s = .other) : l.flatMap sectionNames = [] := by
  rw [List.flatMap_eq_nil_iff]
  intro s hs
  rw [h s hs]; rfl

/-- C120, for files whose sections describe the program: `sonames` has exactly the names of the shared objects that the dynamic linker is told to load, in order. -/
theorem C120_names_partial (bytes : List Nat) (hb : bytes.take 4 = [0x7f, 0x45, 0x4c, 0x46]) (sections : List ElfSection) (table : List DynTag)
    (hd : Describes sections table) : ∃ l, elfSonames true (some bytes) (.sections sections) = .names l ∧
      (∀ n, n ∈ l ↔ Needs table n) ∧ l.Pairwise fun a b => strLe a b = true := by
  obtain ⟨a, b, rfl, ha, hb'⟩ := hd
  simp only [elfSonames, if_true, hb, elfCache]
  refine ⟨_, rfl, ?_, pySort_sorted ⟨fun a b => strLe_total a b, fun a b c => strLe_trans⟩ _⟩
  intro n
  rw [(pySort_perm _ _).mem_iff]
  simp only [List.flatMap_append, List.flatMap_cons, flatMap_other ha, flatMap_other hb', List.nil_append, List.append_nil, sectionNames, List.mem_filterMap]
  rw [← mem_iterTags]
  constructor
  · rintro ⟨t, ht, he⟩
    cases t with
    | needed m => simp at he; rw [← he]; exact ht
    | null => simp at he
    | other => simp at he
  · intro h; exact ⟨_, h, rfl⟩

/-- C120: there is no value for anything but regular files that can be read and begin with the four bytes of ELF files. -/
theorem C120_only (isFile : Bool) (content : Option (List Nat)) (read : ElfRead) (h : elfSonames isFile content read ≠ .noData) :
    isFile = true ∧ ∃ rest, content = some ([0x7f, 0x45, 0x4c, 0x46] ++ rest) ∧ read ≠ .bad := by
  unfold elfSonames at h
  split at h
  · rename_i hf
    cases content with
    | none => simp at h
    | some bytes =>
      simp only at h
      split at h
      · rename_i hb
        refine ⟨hf, bytes.drop 4, by rw [← hb, List.take_append_drop], ?_⟩
        rintro rfl
        exact h rfl
      · simp at h
  · simp at h

/-- C120: names that are given are needed, or stand in a section that is not the table of the program; nothing else is given. -/
theorem C120_sections (bytes : List Nat) (sections : List ElfSection) (l : List Str) (h : elfSonames true (some bytes) (.sections sections) = .names l) (n : Str) :
    n ∈ l ↔ ∃ table, .dynamic table ∈ sections ∧ Needs table n := by
  unfold elfSonames at h
  simp only [if_true] at h
  split at h
  · simp only [elfCache, ElfData.names.injEq] at h
    subst h
    rw [(pySort_perm _ _).mem_iff, List.mem_flatMap]
    constructor
    · rintro ⟨s, hs, hn⟩
      cases s with
      | other => simp [sectionNames] at hn
      | dynamic table =>
        refine ⟨table, hs, mem_iterTags.1 ?_⟩
        simp only [sectionNames, List.mem_filterMap] at hn
        obtain ⟨t, ht, he⟩ := hn
        cases t with
        | needed m => simp at he; rw [← he]; exact ht
        | null => simp at he
        | other => simp at he
    · rintro ⟨table, hs, hn⟩
      refine ⟨_, hs, ?_⟩
      simp only [sectionNames, List.mem_filterMap]
      exact ⟨_, mem_iterTags.2 hn, rfl⟩
  · simp at h

/-- C120 is false for programs without a section table, which the system starts like others: a program that needs libc.so.6 is said to need nothing. -/
theorem C120_stripped_false : ∃ (sections : List ElfSection) (table : List DynTag), Needs table "libc.so.6".toList ∧
    elfSonames true (some [0x7f, 0x45, 0x4c, 0x46, 2, 1, 1]) (.sections sections) = .names [] :=
  ⟨[], [.needed "libc.so.6".toList, .null], ⟨[], [.null], rfl, by simp⟩, by decide⟩

example : Describes [.other, .dynamic [.needed "libz.so.1".toList, .other, .needed "libc.so.6".toList, .null, .needed "x".toList], .other]
    [.needed "libz.so.1".toList, .other, .needed "libc.so.6".toList, .null, .needed "x".toList] := ⟨[.other], [.other], rfl, by simp, by simp⟩
example : elfSonames true (some [0x7f, 0x45, 0x4c, 0x46, 2])
    (.sections [.other, .dynamic [.needed "libz.so.1".toList, .other, .needed "libc.so.6".toList, .null, .needed "x".toList], .other]) =
    .names ["libc.so.6".toList, "libz.so.1".toList] := by decide

end FF
