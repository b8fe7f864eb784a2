import Verif.Spec.Changed
import Verif.Props.Cache
/-! C121: attributes of files that have been changed. -/
namespace FF
open Spec

variable {V D : Type}

theorem plainData_dataNow (r : FileReader V D) (n : Str) (k : Nat) (f : FileNow) : plainData (r.plugin n k) f = dataNow r f := by
  obtain ⟨path, mtime, regular, written, bytes⟩ := f
  obtain ⟨others, extract, shown, nothing⟩ := r
  cases regular <;> cases others <;> cases bytes with
  | none => rfl
  | some b => simp [plainData, dataNow, FileReader.plugin] <;> (cases extract b <;> rfl)

theorem sameSecond_iff {a b : Int} (ha : 0 ≤ a) (hb : 0 ≤ b) : SameSecond a b ↔ a.tdiv 1000000000 = b.tdiv 1000000000 := by
  rw [Int.tdiv_eq_ediv_of_nonneg ha, Int.tdiv_eq_ediv_of_nonneg hb]
  constructor
  · rintro ⟨s, _, h1, h2, h3, h4⟩; omega
  · intro h; exact ⟨a / 1000000000, by omega, by omega, by omega, by omega, by omega⟩

/-- **C121**: in any history of lookups of regular files (`hw`), by any number of processes, with crashes, in which a file that is looked at twice and was written in the same second has the same content both
times, the data of a plugin are those of the file as it is at the time of the lookup. Missing: names that are not valid UTF-8, see `C45_false`; changes that leave the modification time in the same second, see
`C121_stale`; symbolic links, see `C121_link_false`.
`versions` are the plugins, by name and version. -/
theorem C121_current_partial {tags : Pickle Int} {objs : Pickle (Obj V)} {es : List (Event FileNow Int V D)} {s : CacheSys}
    (h : CacheRun FileNow.path tags objs .init es s) (versions : Str → Nat → FileReader V D)
    (hv : ∀ p pl f t x, Event.lookup p pl f t x ∈ es → ∃ n k, pl = (versions n k).plugin n k)
    (ht : ∀ p pl f t x, Event.lookup p pl f t x ∈ es → 0 ≤ f.mtime ∧ f.path.any isSurrogate = false)
    (hw : ∀ p pl f t x, Event.lookup p pl f t x ∈ es → f.written = f.mtime)
    (hc : ∀ p pl f t x p' pl' f' t' x', Event.lookup p pl f t x ∈ es → Event.lookup p' pl' f' t' x' ∈ es → f.path = f'.path → SameSecond f.written f'.written →
      f.bytes = f'.bytes) :
    ∀ p n k f t d, Event.lookup p ((versions n k).plugin n k) f t (some d) ∈ es → d = dataNow (versions n k) f := by
  intro p n k f t d hm
  rw [← plainData_dataNow _ n k]
  refine C45_partial h ?_ (fun p pl e t r hl => (ht p pl e t r hl).2) p _ f t d hm
  intro p pl e t r p' pl' e' t' r' h1 h2 hn hk hp htag
  obtain ⟨n, k, rfl⟩ := hv _ _ _ _ _ h1
  obtain ⟨n', k', rfl⟩ := hv _ _ _ _ _ h2
  have hn' : n = n' := hn
  have hk' : k = k' := hk
  subst hn' hk'
  have hb := hc _ _ _ _ _ _ _ _ _ _ h1 h2 hp (by rw [hw _ _ _ _ _ h1, hw _ _ _ _ _ h2]; exact (sameSecond_iff (ht _ _ _ _ _ h1).1 (ht _ _ _ _ _ h2).1).2 htag)
  unfold CPlugin.object
  show (match e.bytes.bind (versions n k).extract with | none => Obj.nodata | some v => .val v) = match e'.bytes.bind (versions n k).extract with | none => Obj.nodata | some v => .val v
  rw [hb]

/-- **C121**: with --no-cache the data are always those of the file as it is. -/
theorem C121_uncached (r : FileReader V D) (objs : Pickle (Obj V)) (n : Str) (k : Nat) (f : FileNow) : r.uncached objs n k f = dataNow r f := by
  obtain ⟨path, mtime, regular, written, bytes⟩ := f
  obtain ⟨others, extract, shown, nothing⟩ := r
  cases regular <;> cases others <;> cases bytes with
  | none => rfl
  | some b => simp [FileReader.uncached, CPlugin.getData, dataNow, CPlugin.finish, CPlugin.object, FileReader.plugin] <;> (cases extract b <;> rfl)

/-- The history of a file that is looked at, changed and looked at again. -/
def twice (r : FileReader V D) (n : Str) (k : Nat) (f g : FileNow) (d d' : D) : List (Event FileNow Int V D) :=
  [.register 0 (r.plugin n k), .lookup 0 (r.plugin n k) f true (some d), .flush 0, .lookup 0 (r.plugin n k) g false (some d')]

/-- **C121** does not hold for any change that leaves the modification time of the entry in the same second: the second lookup gives the data of the file as it was. -/
theorem C121_stale {tags : Pickle Int} {objs : Pickle (Obj V)} (r : FileReader V D) (n : Str) (k : Nat) {f g : FileNow} (hf : (f.regular || r.others) = true) (hg : (g.regular || r.others) = true)
    (hp : f.path = g.path) (ht : SameSecond f.mtime g.mtime) :
    ∃ s, CacheRun FileNow.path tags objs .init (twice r n k f g (dataNow r f) (dataNow r f)) s := by
  have htag : f.mtime.tdiv 1000000000 = g.mtime.tdiv 1000000000 := by
    refine (sameSecond_iff ?_ ?_).1 ht <;> (obtain ⟨s, h0, h1, h2, h3, h4⟩ := ht; omega)
  generalize hpl : r.plugin n k = pl
  have ecan : ∀ x : FileNow, pl.canHandle x = (x.regular || r.others) := by intro x; rw [← hpl]; rfl
  have euse : pl.useCache = true := by rw [← hpl]; rfl
  have etag : ∀ x : FileNow, pl.tag x = x.mtime.tdiv 1000000000 := by intro x; rw [← hpl]; rfl
  have efin : pl.finish f (pl.object f) = dataNow r f := by
    rw [← plainData_dataNow r n k, hpl]
    unfold plainData CPlugin.finish CPlugin.object
    rw [ecan, euse, hf]
    cases pl.cache f <;> rfl
  have efin' : pl.finish g (pl.object f) = dataNow r f := by
    rw [← efin]
    unfold CPlugin.finish
    cases pl.object f with
    | nodata => rfl
    | val v => rw [← hpl]; rfl
  unfold twice
  rw [hpl]
  have row : pl.row FileNow.path tags objs f (pl.object f) = ⟨cacheKey f.path, tags.dumps (pl.tag f), objs.dumps (pl.object f)⟩ := rfl
  have h1 : CacheRun FileNow.path tags objs .init [Event.register 0 pl] ⟨[(pl.table, [])], fun _ => .init⟩ := .snoc (es := []) .nil .register
  have h2 : CacheRun FileNow.path tags objs .init [Event.register 0 pl, .lookup 0 pl f true (some (dataNow r f))]
      (CacheSys.setMem ⟨[(pl.table, [])], fun _ => .init⟩ 0 ⟨[(pl.table, [pl.row FileNow.path tags objs f (pl.object f)])], 1, [(pl.table, [pl.row FileNow.path tags objs f (pl.object f)])]⟩) :=
    .snoc (es := [Event.register 0 pl]) h1 (.store (cached := none) (o := pl.object f) rfl
      (by simp [CPlugin.read, CPlugin.asks, ecan, euse, hf, Db.get, Db.table])
      (by unfold CPlugin.getData; rw [ecan, hf, euse, efin]; rfl))
  have h3 : CacheRun FileNow.path tags objs .init [Event.register 0 pl, .lookup 0 pl f true (some (dataNow r f)), .flush 0]
      (CacheSys.setMem ⟨[(pl.table, [pl.row FileNow.path tags objs f (pl.object f)])], (CacheSys.setMem ⟨[(pl.table, [])], fun _ => .init⟩ 0
        ⟨[(pl.table, [pl.row FileNow.path tags objs f (pl.object f)])], 1, [(pl.table, [pl.row FileNow.path tags objs f (pl.object f)])]⟩).mem⟩ 0 .init) :=
    .snoc (es := [Event.register 0 pl, .lookup 0 pl f true (some (dataNow r f))]) h2 (.flush (by
      simp [CacheMem.flush, CacheSys.setMem, Db.insertMany, Db.table, insertOrReplace]))
  exact ⟨_, .snoc (es := [Event.register 0 pl, .lookup 0 pl f true (some (dataNow r f)), .flush 0]) h3
    (.lookup (cached := some (objs.dumps (pl.object f))) (by simp [CacheSys.setMem, CacheMem.init])
      (by simp [CPlugin.read, CPlugin.asks, ecan, euse, hg, Db.get, Db.table, CacheSys.setMem, row, hp, etag, htag])
      (by unfold CPlugin.getData; rw [ecan, hg, euse]; simp only [if_true]; rw [objs.loads_dumps, efin']))⟩

/-! #### Instances -/

def intPickle : Pickle Int :=
  { dumps := fun n => match n with
      | .ofNat k => [0, k]
      | .negSucc k => [1, k]
    loads := fun b => match b with
      | [0, k] => .ofNat k
      | [_, k] => .negSucc k
      | _ => 0
    loads_dumps := by intro n; cases n <;> rfl }

def natsPickle : Pickle (Obj (List Nat)) :=
  { dumps := fun o => match o with
      | .nodata => [0]
      | .val v => 1 :: v
    loads := fun b => match b with
      | 1 :: v => .val v
      | _ => .nodata
    loads_dumps := by intro o; cases o <;> rfl }

/-- A plugin whose data are the first two bytes of the content. -/
def headReader : FileReader (List Nat) (List Nat) := ⟨false, fun b => some (b.take 2), id, []⟩

/-- The file `/a`. -/
def fileNow (mtime : Int) (bytes : Option (List Nat)) : FileNow := ⟨[47, 97], mtime, true, mtime, bytes⟩

/-- **C121** does not hold for a file that is written again half a second later: another content, another size and a later modification time, and yet the old data are given. -/
theorem C121_second_false : ∃ (f g : FileNow) (s : CacheSys), f.path = g.path ∧ f.mtime < g.mtime ∧ f.bytes = some [1, 2, 3] ∧ g.bytes = some [4, 5, 6, 7] ∧
    CacheRun FileNow.path intPickle natsPickle .init (twice headReader "head".toList 0 f g (dataNow headReader f) (dataNow headReader f)) s ∧ dataNow headReader f ≠ dataNow headReader g := by
  obtain ⟨s, hs⟩ := C121_stale (tags := intPickle) (objs := natsPickle) headReader "head".toList 0 (f := fileNow 1700000000100000000 (some [1, 2, 3]))
    (g := fileNow 1700000000600000000 (some [4, 5, 6, 7])) rfl rfl rfl ⟨1700000000, by decide, by decide, by decide, by decide, by decide⟩
  exact ⟨fileNow 1700000000100000000 (some [1, 2, 3]), fileNow 1700000000600000000 (some [4, 5, 6, 7]), s, rfl, by decide, rfl, rfl, hs, by decide⟩

/-- **C121** does not hold for a file that could not be read and that can be read now: it has no data for as long as its modification time stays the same. -/
theorem C121_unreadable_false : ∃ (f g : FileNow) (s : CacheSys), f.path = g.path ∧ f.mtime = g.mtime ∧ f.bytes = none ∧ g.bytes = some [4, 5, 6, 7] ∧
    CacheRun FileNow.path intPickle natsPickle .init (twice headReader "head".toList 0 f g headReader.nothing headReader.nothing) s ∧ dataNow headReader g ≠ headReader.nothing := by
  obtain ⟨s, hs⟩ := C121_stale (tags := intPickle) (objs := natsPickle) headReader "head".toList 0 (f := fileNow 1700000000100000000 none)
    (g := fileNow 1700000000100000000 (some [4, 5, 6, 7])) rfl rfl rfl ⟨1700000000, by decide, by decide, by decide, by decide, by decide⟩
  exact ⟨fileNow 1700000000100000000 none, fileNow 1700000000100000000 (some [4, 5, 6, 7]), s, rfl, rfl, rfl, rfl, hs, by decide⟩

/-- **C121** does not hold for a symbolic link whose name ends in .tar, or that of a picture: the plugins tar and medium read the file it leads to, but the link is as old as before when this file is changed. Here it is
written again a day later. -/
theorem C121_link_false : ∃ (r : FileReader (List Nat) (List Nat)) (f g : FileNow) (s : CacheSys), r.others = true ∧ f.regular = false ∧ g.regular = false ∧ f.path = g.path ∧
    g.written = f.written + 86400000000000 ∧ f.bytes = some [1, 2, 3] ∧ g.bytes = some [4, 5, 6, 7] ∧
    CacheRun FileNow.path intPickle natsPickle .init (twice r "tar".toList 0 f g (dataNow r f) (dataNow r f)) s ∧ dataNow r f ≠ dataNow r g := by
  obtain ⟨s, hs⟩ := C121_stale (tags := intPickle) (objs := natsPickle) { headReader with others := true } "tar".toList 0
    (f := ⟨[47, 97], 1700000000000000000, false, 1700000000000000000, some [1, 2, 3]⟩)
    (g := ⟨[47, 97], 1700000000000000000, false, 1700086400000000000, some [4, 5, 6, 7]⟩) rfl rfl rfl ⟨1700000000, by decide, by decide, by decide, by decide, by decide⟩
  exact ⟨{ headReader with others := true }, ⟨[47, 97], 1700000000000000000, false, 1700000000000000000, some [1, 2, 3]⟩,
    ⟨[47, 97], 1700000000000000000, false, 1700086400000000000, some [4, 5, 6, 7]⟩, s, rfl, rfl, rfl, rfl, by decide, rfl, rfl, hs, by decide⟩

/-- The hypotheses of C121_current_partial hold for a history with a hit: a file is looked at twice and has not been changed. -/
example : ∃ (es : List (Event FileNow Int (List Nat) (List Nat))) (s : CacheSys) (versions : Str → Nat → FileReader (List Nat) (List Nat)),
    CacheRun FileNow.path intPickle natsPickle .init es s ∧
    (∀ p pl f t x, Event.lookup p pl f t x ∈ es → ∃ n k, pl = (versions n k).plugin n k) ∧
    (∀ p pl f t x, Event.lookup p pl f t x ∈ es → 0 ≤ f.mtime ∧ f.path.any isSurrogate = false) ∧
    (∀ p pl f t x, Event.lookup p pl f t x ∈ es → f.written = f.mtime) ∧
    (∀ p pl f t x p' pl' f' t' x', Event.lookup p pl f t x ∈ es → Event.lookup p' pl' f' t' x' ∈ es → f.path = f'.path → SameSecond f.written f'.written → f.bytes = f'.bytes) ∧
    ∃ p n k f t, Event.lookup p ((versions n k).plugin n k) f t (some [1, 2]) ∈ es := by
  obtain ⟨s, hs⟩ := C121_stale (tags := intPickle) (objs := natsPickle) headReader "head".toList 0 (f := fileNow 1700000000100000000 (some [1, 2, 3]))
    (g := fileNow 1700000000100000000 (some [1, 2, 3])) rfl rfl rfl ⟨1700000000, by decide, by decide, by decide, by decide, by decide⟩
  have key : ∀ p pl f t x, Event.lookup p pl f t x ∈ twice headReader "head".toList 0 (fileNow 1700000000100000000 (some [1, 2, 3]))
      (fileNow 1700000000100000000 (some [1, 2, 3])) [1, 2] [1, 2] → pl = headReader.plugin "head".toList 0 ∧ f = fileNow 1700000000100000000 (some [1, 2, 3]) := by
    intro p pl f t x h
    simp only [twice, List.mem_cons, List.not_mem_nil, reduceCtorEq, Event.lookup.injEq, false_or, or_false] at h
    rcases h with ⟨_, rfl, rfl, _⟩ | ⟨_, rfl, rfl, _⟩ <;> exact ⟨rfl, rfl⟩
  refine ⟨_, s, fun _ _ => headReader, hs, fun p pl f t x h => ⟨_, _, (key p pl f t x h).1⟩, fun p pl f t x h => ?_, fun p pl f t x h => by rw [(key p pl f t x h).2]; rfl, fun p pl f t x p' pl' f' t' x' h h' _ _ => ?_, ?_⟩
  · rw [(key p pl f t x h).2]; exact ⟨by decide, by decide⟩
  · rw [(key p pl f t x h).2, (key p' pl' f' t' x' h').2]
  · exact ⟨0, "head".toList, 0, fileNow 1700000000100000000 (some [1, 2, 3]), false, by simp [twice, dataNow, headReader, fileNow]⟩

end FF
