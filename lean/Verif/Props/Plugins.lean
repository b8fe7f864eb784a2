import Verif.Model.Plugins
import Verif.Spec.Plugins
/-! C108, C109: archives, extended attributes and file systems. -/
namespace FF

/-- **C108**. A test of tar.members is true if and only if it is true of the name of some member of the archive, in whatever order python keeps them. -/
theorem C108_test (low : Str → Str) (t : Test) (names : List Str) (v : PyColl) (h : TarValue names v) :
    v.test low t = true ↔ ∃ n ∈ names, stringTest low t n = true := by
  cases h with
  | mk order _ hm =>
    simp only [PyColl.test, PyColl.elems, List.any_eq_true]
    exact ⟨fun ⟨x, hx, ht⟩ => ⟨x, (hm x).1 hx, ht⟩, fun ⟨x, hx, ht⟩ => ⟨x, (hm x).2 hx, ht⟩⟩

/-- **C108** (partial: the order is not determined). tar.members is printed as the names of the members separated by commas, each name once. -/
theorem C108_output_partial (names : List Str) (v : PyColl) (h : TarValue names v) :
    ∃ order : List Str, order.Nodup ∧ (∀ x, x ∈ order ↔ x ∈ names) ∧ v.output = joinStr [','] order := by
  cases h with
  | mk order hn hm => exact ⟨order, hn, hm, rfl⟩

example : TarValue [['b'], ['a'], ['b']] (.set [['a'], ['b']]) := by
  refine .mk _ (by decide) ?_
  intro x
  simp only [List.mem_cons, List.not_mem_nil, or_false]
  constructor
  · rintro (h | h) <;> simp [h]
  · rintro (h | h | h) <;> simp [h]

/-- **C108** (false). The same archive is printed in different ways by different processes. -/
theorem C108_order_false : ∃ names v w, TarValue names v ∧ TarValue names w ∧ v.output ≠ w.output := by
  refine ⟨[['a'], ['b']], .set [['a'], ['b']], .set [['b'], ['a']], .mk _ (by decide) fun _ => Iff.rfl, .mk _ (by decide) ?_, by decide⟩
  intro x
  simp only [List.mem_cons, List.not_mem_nil, or_false]
  exact or_comm

/-- **C108** (false). tar.members cannot be printed with --json or --jsonl, for any archive: the process that tries to fails. -/
theorem C108_json_false (names : List Str) (v : PyColl) (h : TarValue names v) : v.json = none := by
  cases h with
  | mk order hn hm => rfl

/-- **C108** (false). Sorting by tar.members fails if there is an archive and a file that is none. -/
theorem C108_sort_false (names : List Str) (v : PyColl) (h : TarValue names v) : v.lt PyColl.sortNone = none ∧ PyColl.sortNone.lt v = none := by
  cases h with
  | mk order hn hm => exact ⟨rfl, rfl⟩

/-- **C108** (false). Archives with different members may count as equal for sorting, so their order depends on the order in which they are found; for the attributes
that are lists this cannot happen. -/
theorem C108_order_of_archives_false : ∃ names names' v w, TarValue names v ∧ TarValue names' w ∧ names ≠ names' ∧ v.lt w = some false ∧ w.lt v = some false :=
  ⟨[['a']], [['b']], .set [['a']], .set [['b']], .mk _ (by decide) fun _ => Iff.rfl, .mk _ (by decide) fun _ => Iff.rfl, by decide, by decide, by decide⟩

/-- **C108** (partial: no order for other archives). An archive comes before another one if all its members are members of the other one but not the other way round. -/
theorem C108_archives_partial (names names' : List Str) (v w : PyColl) (hv : TarValue names v) (hw : TarValue names' w) :
    ∃ b, v.lt w = some b ∧ (b = true ↔ (∀ x ∈ names, x ∈ names') ∧ ∃ x ∈ names', x ∉ names) := by
  cases hv with
  | mk order _ hm =>
    cases hw with
    | mk order' _ hm' =>
      refine ⟨_, rfl, ?_⟩
      simp only [Bool.and_eq_true, List.all_eq_true, List.contains_iff_mem, Bool.not_eq_true', List.all_eq_false]
      constructor
      · rintro ⟨h1, x, h2, h3⟩
        exact ⟨fun y hy => (hm' y).1 (h1 y ((hm y).2 hy)), x, (hm' x).1 h2, fun h => h3 ((hm x).2 h)⟩
      · rintro ⟨h1, x, h2, h3⟩
        exact ⟨fun y hy => (hm' y).2 (h1 y ((hm y).1 hy)), x, (hm' x).2 h2, fun h => h3 ((hm x).1 h)⟩

example : (PyColl.set [['a'], ['b']]).lt (.set [['b'], ['c'], ['a']]) = some true ∧ (PyColl.set [['a'], ['b']]).lt (.set [['c'], ['a']]) = some false := by decide

/-- **C108**. xattr.xattrs lists each extended attribute as name=value, in the order of the system, if all of them can be read. -/
theorem C108_xattr (attrs : List (Str × Str)) : xattrValue (some (attrs.map fun a => (a.1, some a.2))) = .list (attrs.map fun a => a.1 ++ ['='] ++ a.2) := by
  unfold xattrValue
  congr 1
  simp only [Option.getD_some]
  induction attrs with
  | nil => rfl
  | cons a attrs ih => simp only [List.map_cons, List.takeWhile, Option.isSome_some, Option.getD_some] at ih ⊢; rw [ih]

/-- **C108** (partial: the attributes before the first that cannot be read). If one of them cannot be read, the list has the attributes before it. -/
theorem C108_xattr_unreadable_partial (pre : List (Str × Str)) (name : Str) (post : List XAttr) :
    xattrValue (some (pre.map (fun a => (a.1, some a.2)) ++ (name, none) :: post)) = .list (pre.map fun a => a.1 ++ ['='] ++ a.2) := by
  unfold xattrValue
  congr 1
  simp only [Option.getD_some]
  induction pre with
  | nil => rfl
  | cons a pre ih => simp only [List.map_cons, List.cons_append, List.takeWhile, Option.isSome_some, Option.getD_some] at ih ⊢; rw [ih]

/-- **C108** (false). An attribute that can be read is missing if it comes after one that cannot. -/
theorem C108_xattr_false : ∃ attrs : List XAttr, (['b'], some ['1']) ∈ attrs ∧ "b=1".toList ∉ (xattrValue (some attrs)).elems :=
  ⟨[(['a'], none), (['b'], some ['1'])], by simp, by decide⟩

/-- **C109**. Every type of file system of the table is recognised under its name: no number occurs twice in it. -/
theorem C109_table (t : Nat) (name : Str) (remote : Bool) (statfs : Str → Option Nat) (path : Str) (h : (t, name, remote) ∈ fsTypes) (hs : statfs path = some t) :
    fsType statfs path = .ok (name, remote) := by
  have hl : fsTypes.all (fun r => fsTypes.lookup (r.1 % 2 ^ 32) = some r.2) = true := by decide +kernel
  have := of_decide_eq_true (List.all_eq_true.1 hl _ h)
  simp only [fsType, hs]
  rw [this]
  rfl

example : (0xEF53, "ext2/ext3".toList, false) ∈ fsTypes := by decide +kernel

/-- **C109**. Any other file system is "unknown", and not remote. -/
theorem C109_unknown (t : Nat) (ht : t < 2 ^ 32) (statfs : Str → Option Nat) (path : Str) (h : ∀ name remote, (t, name, remote) ∉ fsTypes) (hs : statfs path = some t) :
    fsType statfs path = .ok ("unknown".toList, false) := by
  have hl : ∀ l : List (Nat × Str × Bool), (∀ name remote, (t, name, remote) ∉ l) → l.lookup t = none := by
    intro l
    induction l with
    | nil => intro _; rfl
    | cons r l ih =>
      intro hn
      have hne : t ≠ r.1 := fun h' => hn r.2.1 r.2.2 (by rw [h']; simp)
      rw [show List.lookup t (r :: l) = List.lookup t ((r.1, r.2) :: l) from rfl, List.lookup_cons, beq_false_of_ne hne]
      exact ih fun name remote hm => hn name remote (List.mem_cons_of_mem _ hm)
  simp only [fsType, hs, Nat.mod_eq_of_lt ht, hl _ h, Option.getD_none]

example : ∀ name remote, (1, name, remote) ∉ fsTypes := by
  have : fsTypes.all (fun r => r.1 ≠ 1) = true := by decide +kernel
  intro name remote h
  simpa using List.all_eq_true.1 this _ h

/-- **C109** (partial: not cifs with version 2 or 3 of the protocol, see `C109_remote_false`). Files on the common network file systems are remote. -/
theorem C109_remote_partial (t : Nat) (statfs : Str → Option Nat) (path : Str) (h : t ∈ Spec.networkFileSystems) (hs : statfs path = some t) :
    ∃ name, fsType statfs path = .ok (name, true) := by
  have hl : Spec.networkFileSystems.all (fun t => (fsTypes.lookup (t % 2 ^ 32)).map (·.2) = some true) = true := by decide +kernel
  have := of_decide_eq_true (List.all_eq_true.1 hl _ h)
  obtain ⟨⟨name, remote⟩, he, hr⟩ := Option.map_eq_some_iff.1 this
  simp only at hr
  subst hr
  exact ⟨name, by simp only [fsType, hs, he]; rfl⟩

example : 0x6969 ∈ Spec.networkFileSystems ∧ fsType (fun _ => some 0x6969) ['/'] = .ok ("nfs".toList, true) := by decide +kernel

/-- **C109**. Files on the common file systems of disks and of memory are not remote. -/
theorem C109_local (t : Nat) (statfs : Str → Option Nat) (path : Str) (h : t ∈ Spec.localFileSystems) (hs : statfs path = some t) :
    ∃ name, name ≠ "unknown".toList ∧ fsType statfs path = .ok (name, false) := by
  have hl : Spec.localFileSystems.all (fun t => (fsTypes.lookup (t % 2 ^ 32)).any fun r => r.2 = false ∧ r.1 ≠ "unknown".toList) = true := by decide +kernel
  have := List.all_eq_true.1 hl _ h
  obtain ⟨⟨name, remote⟩, he, hr⟩ := (Option.any_eq_true _ _).1 this
  obtain ⟨hr, hn⟩ := of_decide_eq_true hr
  simp only at hr
  subst hr
  exact ⟨name, hn, by simp only [fsType, hs, he]; rfl⟩

example : 0x58465342 ∈ Spec.localFileSystems ∧ fsType (fun _ => some 0x58465342) ['/'] = .ok ("xfs".toList, false) := by decide +kernel

/-- **C109** (false). Files on a cifs mount with version 2 or 3 of the protocol (the default of Linux since 4.13) are "unknown" and not remote. -/
theorem C109_remote_false (statfs : Str → Option Nat) (path : Str) (hs : statfs path = some Spec.smb2FileSystem) :
    fsType statfs path = .ok ("unknown".toList, false) := by
  simp only [fsType, hs]
  rw [show List.lookup (Spec.smb2FileSystem % 2 ^ 32) fsTypes = none by decide +kernel]
  rfl

/-- **C109** (partial: files that are no mount points). fs.type and fs.remote are those of the file system the file is on, if it is a directory or on the same file system as
the directory it is in, and the system tells the type. -/
theorem C109_file_partial (cwd : Str) (statfs : Str → Option Nat) (isDir : Bool) (path dir : Str) (name : Str) (remote : Bool)
    (h : isDir = true ∨ statfs (absNorm cwd dir) = statfs (absNorm cwd path)) (hf : fsType statfs (absNorm cwd path) = .ok (name, remote)) :
    getData (fsValue cwd statfs isDir path dir) = some [("type".toList, .str name), ("remote".toList, .bool remote)] := by
  cases isDir with
  | true => simp only [fsValue, if_true, hf]; rfl
  | false =>
    have h := h.resolve_left (by simp)
    have hf' : fsType statfs (absNorm cwd dir) = .ok (name, remote) := by rw [← hf]; unfold fsType; rw [h]
    simp only [fsValue, Bool.false_eq_true, if_false, hf']
    rfl

example : fsType (fun _ => some 0x6969) (absNorm ['/'] ['a']) = .ok ("nfs".toList, true) := by decide +kernel

/-- **C109** (false). For a file on which something is mounted (as containers do) the file system of its directory is shown. -/
theorem C109_mount_false : ∃ (statfs : Str → Option Nat) (path dir : Str), fsType statfs (absNorm ['/'] path) = .ok ("tmpfs".toList, false) ∧
    getData (fsValue ['/'] statfs false path dir) = some [("type".toList, .str "ext2/ext3".toList), ("remote".toList, .bool false)] :=
  ⟨fun p => if p = "/a/f".toList then some 0x01021994 else some 0xEF53, "/a/f".toList, "/a".toList, by decide +kernel, by decide +kernel⟩

/-- **C109** (false). If the system does not tell the type (a server that does not answer, a directory that is gone), the whole search ends. -/
theorem C109_error_false (cwd : Str) (statfs : Str → Option Nat) (isDir : Bool) (path dir : Str)
    (h : statfs (absNorm cwd (if isDir then path else dir)) = none) : getData (fsValue cwd statfs isDir path dir) = none := by
  simp only [fsValue, fsType, h]
  rfl

end FF
