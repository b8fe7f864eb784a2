import Verif.Model.Protocol
import Verif.Spec.Walk
namespace FF
open Spec

/-- The ignore files that scanning a directory adds. -/
def addIgnores (isIgn : Str → Bool) (start : Start) (rel : Str) (kids : List FNode) : List Str :=
  (kids.filter (fun n => isIgn (mkEntry start.root start.absroot (pathJoin rel n.name)).name)).map
    (fun n => (mkEntry start.root start.absroot (pathJoin rel n.name)).abspath)

mutual
/-- All results of the entry for a node in a directory whose entries have ignore files `ign`. -/
def resNode (cfg : WalkCfg) (start : Start) (rel : Str) (ign : List Str) : FNode → List EntInfo
  | .mk name isDir kids =>
    if cfg.excl ⟨start, pathJoin rel name, isDir, ign⟩ then [] else
      (if cfg.keep ⟨start, pathJoin rel name, isDir, ign⟩ then [⟨start, pathJoin rel name, isDir, ign⟩] else []) ++
      (if isDir then resKids cfg start (pathJoin rel name) (ign ++ addIgnores cfg.isIgnoreFile start (pathJoin rel name) kids) kids else [])
def resKids (cfg : WalkCfg) (start : Start) (rel : Str) (ign : List Str) : List FNode → List EntInfo
  | [] => []
  | n :: ns => resNode cfg start rel ign n ++ resKids cfg start rel ign ns
end

/-- All results of a directory. -/
def resDir (cfg : WalkCfg) (d : DirT) : List EntInfo :=
  resKids cfg d.start d.relpath (d.ignorePaths ++ addIgnores cfg.isIgnoreFile d.start d.relpath d.kids) d.kids

/-- All results of an entry. -/
def resEnt (cfg : WalkCfg) (e : EntT) : List EntInfo :=
  if cfg.excl e.info then [] else (if cfg.keep e.info then [e.info] else []) ++ (if e.info.isDir then resDir cfg e.toDir else [])

theorem scanLoop_eq (isIgn : Str → Bool) (d : DirT) (es : List (Str × FNode)) (ign : List Str) (kids : List FNode) :
    scanLoop isIgn d (es, ign) kids =
      (es ++ kids.map (fun n => (pathJoin d.relpath n.name, n)), ign ++ addIgnores isIgn d.start d.relpath kids) := by
  induction kids generalizing es ign with
  | nil => simp [scanLoop, addIgnores]
  | cons n ns ih =>
    simp only [scanLoop, ih, addIgnores, List.filter_cons]
    split <;> simp

theorem scanDirectory_eq (isIgn : Str → Bool) (d : DirT) : scanDirectory isIgn d =
    d.kids.map (fun n => ⟨⟨d.start, pathJoin d.relpath n.name, n.isDir, d.ignorePaths ++ addIgnores isIgn d.start d.relpath d.kids⟩, n.kids⟩) := by
  simp [scanDirectory, scanLoop_eq, Function.comp_def]

theorem resKids_eq (cfg : WalkCfg) (start : Start) (rel : Str) (ign : List Str) (kids : List FNode) :
    resKids cfg start rel ign kids = kids.flatMap (resNode cfg start rel ign) := by
  induction kids with
  | nil => simp [resKids]
  | cons n ns ih => simp [resKids, ih]

theorem resNode_eq (cfg : WalkCfg) (start : Start) (rel : Str) (ign : List Str) (n : FNode) :
    resNode cfg start rel ign n = resEnt cfg ⟨⟨start, pathJoin rel n.name, n.isDir, ign⟩, n.kids⟩ := by
  cases n with
  | mk name isDir kids => simp only [resNode, resEnt, resDir, EntT.toDir, FNode.name, FNode.isDir, FNode.kids]; rfl

theorem scan_results (cfg : WalkCfg) (d : DirT) : (scanDirectory cfg.isIgnoreFile d).flatMap (resEnt cfg) = resDir cfg d := by
  rw [scanDirectory_eq, resDir, resKids_eq, List.flatMap_map]
  congr 1
  funext n
  rw [resNode_eq]

theorem testEntry_count (cfg : WalkCfg) (e : EntT) (search : List DirT) (process : List EntInfo) (p : EntInfo → Bool) :
    List.countP p ((testEntry cfg e search process).1.flatMap (resDir cfg)) + List.countP p (testEntry cfg e search process).2 =
    List.countP p (search.flatMap (resDir cfg)) + List.countP p process + List.countP p (resEnt cfg e) := by
  unfold testEntry resEnt
  cases h1 : cfg.excl e.info with
  | true => simp
  | false =>
    cases h2 : cfg.keep e.info <;> cases h3 : e.info.isDir <;> simp [List.countP_append, List.countP_cons] <;> omega

theorem chunksFrom_flatten (l : List α) (n : Nat) (hn : 0 < n) (i fuel : Nat) (h : l.length ≤ i + fuel) :
    (chunksFrom l n i fuel).flatten = l.drop i := by
  induction fuel generalizing i with
  | zero => simp [chunksFrom, List.drop_eq_nil_of_le (by omega : l.length ≤ i)]
  | succ fuel ih =>
    unfold chunksFrom
    split
    · rw [List.flatten_cons, ih (i + n) (by omega), ← List.drop_drop, List.take_append_drop]
    · simp [List.drop_eq_nil_of_le (by omega : l.length ≤ i)]

theorem chunksOf_flatten (l : List α) {n : Nat} (hn : 0 < n) : (chunksOf n l).flatten = l := by
  rw [chunksOf, chunksFrom_flatten l n hn 0 l.length (by omega)]; rfl

theorem chunkSize_pos (jobs len : Nat) : 0 < chunkSize jobs len := by unfold chunkSize; omega

/-! ### Conservation -/

def resChunk (cfg : WalkCfg) : Chunk → List EntInfo
  | .dirs ds => ds.flatMap (resDir cfg)
  | .ents es => es.flatMap (resEnt cfg)

def resState (cfg : WalkCfg) : WState → List EntInfo
  | .busy todo entries search process => todo.flatMap (resDir cfg) ++ entries.flatMap (resEnt cfg) ++ search.flatMap (resDir cfg) ++ process
  | _ => []

/-- What a worker still has to hand over. -/
def resWorker (cfg : WalkCfg) (w : Worker) : List EntInfo := resState cfg w.st ++ w.buf.flatMap (resChunk cfg)

/-- What is not handed over yet. -/
def pendingRes (cfg : WalkCfg) (s : PState) : List EntInfo := s.queue.flatMap (resChunk cfg) ++ s.workers.flatMap (resWorker cfg)

theorem flatMap_dirs (cfg : WalkCfg) (l : List (List DirT)) : (l.map Chunk.dirs).flatMap (resChunk cfg) = l.flatten.flatMap (resDir cfg) := by
  induction l with
  | nil => rfl
  | cons a l ih => simp [resChunk, ih]

theorem splitAtHalf_append (l : List α) : (splitAtHalf l).1 ++ (splitAtHalf l).2 = l := List.take_append_drop _ _

theorem WStep.conserve {cfg : WalkCfg} {fair : Fair} {alone : Bool} {q m w new q' m' w'} (h : WStep cfg fair alone (q, m, w) new (q', m', w')) (p : EntInfo → Bool) :
    List.countP p new + List.countP p (q'.flatMap (resChunk cfg)) + List.countP p (resWorker cfg w') =
    List.countP p (q.flatMap (resChunk cfg)) + List.countP p (resWorker cfg w) := by
  generalize hx : (q, m, w) = x at h
  generalize hy : (q', m', w') = y at h
  cases h <;> simp only [Prod.mk.injEq] at hx hy <;> obtain ⟨rfl, rfl, rfl⟩ := hx <;> obtain ⟨rfl, rfl, rfl⟩ := hy
  case getDirs => simp [resWorker, resState, resChunk, List.countP_append]; omega
  case getEnts => simp [resWorker, resState, resChunk, List.countP_append]; omega
  case empty => simp [resWorker, resState]
  case timeout => simp [resWorker, resState]
  case scan d todo b o =>
    simp only [resWorker, resState, List.countP_append, scan_results, List.flatMap_cons, List.flatMap_nil, List.countP_nil]; omega
  case test e es todo search process b o =>
    have := testEntry_count cfg e search process p
    simp only [resWorker, resState, List.countP_append, List.flatMap_cons, List.countP_nil]; omega
  case share es todo search process b o h1 h2 =>
    have : List.countP p (es.flatMap (resEnt cfg)) = List.countP p ((splitAtHalf es).1.flatMap (resEnt cfg)) + List.countP p ((splitAtHalf es).2.flatMap (resEnt cfg)) := by
      conv => lhs; rw [← splitAtHalf_append es]
      rw [List.flatMap_append, List.countP_append]
    simp only [resWorker, resState, List.countP_append, List.flatMap_append, List.flatMap_cons, List.flatMap_nil, List.append_nil, List.countP_nil, resChunk]; omega
  case put todo search process b o h1 =>
    simp only [resWorker, resState, List.countP_append, List.flatMap_append, flatMap_dirs, chunksOf_flatten _ (chunkSize_pos _ _), List.flatMap_nil, List.countP_nil]; omega
  case hand todo process b o h1 =>
    have : List.countP p process = List.countP p (process.take 100) + List.countP p (process.drop 100) := by
      rw [← List.countP_append, List.take_append_drop]
    simp only [resWorker, resState, List.countP_append]; omega
  case finish => simp [resWorker, resState]
  case flush c s b o =>
    simp only [resWorker, List.countP_append, List.flatMap_append, List.flatMap_cons, List.flatMap_nil, List.countP_nil, List.append_nil]; omega

theorem PStep.conserve {cfg : WalkCfg} {fair : Fair} {s t : PState} (h : PStep cfg fair s t) (p : EntInfo → Bool) :
    List.countP p t.handed + List.countP p (pendingRes cfg t) = List.countP p s.handed + List.countP p (pendingRes cfg s) := by
  cases h with
  | worker hw =>
    have := hw.conserve p
    simp only [pendingRes, List.flatMap_append, List.flatMap_cons, List.countP_append]; omega
  | flushOut => simp only [pendingRes, List.flatMap_append, List.flatMap_cons, List.countP_append, resWorker]
  | collect => rfl
  | mainEmpty _ => rfl
  | mainTimeout => rfl
  | @barrier q outq ws col handed quiet hws _ =>
    have : (ws.map (fun w : Worker => { w with st := .stopped })).flatMap (resWorker cfg) = ws.flatMap (resWorker cfg) := by
      induction ws with
      | nil => rfl
      | cons w ws ih =>
        obtain ⟨b, o, rfl⟩ := hws w (by simp)
        simp only [List.map_cons, List.flatMap_cons, ih (fun x hx => hws x (by simp [hx]))]
        rfl
    simp only [pendingRes, this]

theorem PSteps.conserve {cfg : WalkCfg} {fair : Fair} {s t : PState} (h : PSteps cfg fair s t) (p : EntInfo → Bool) :
    List.countP p t.handed + List.countP p (pendingRes cfg t) = List.countP p s.handed + List.countP p (pendingRes cfg s) := by
  induction h with
  | refl => rfl
  | step _ hs ih => rw [hs.conserve p, ih]

/-! ### The out queue -/

/-- What has been handed over, but not been received by main. -/
def outPending (s : PState) : List EntInfo := s.outq.flatten ++ s.workers.flatMap (fun w => w.outbuf.flatten)

theorem WStep.out {cfg : WalkCfg} {fair : Fair} {alone : Bool} {q m w new q' m' w'} (h : WStep cfg fair alone (q, m, w) new (q', m', w')) (p : EntInfo → Bool) :
    List.countP p w'.outbuf.flatten = List.countP p w.outbuf.flatten + List.countP p new := by
  generalize hx : (q, m, w) = x at h
  generalize hy : (q', m', w') = y at h
  cases h <;> simp only [Prod.mk.injEq] at hx hy <;> obtain ⟨rfl, rfl, rfl⟩ := hx <;> obtain ⟨rfl, rfl, rfl⟩ := hy
  all_goals simp [List.countP_append]

theorem PStep.out {cfg : WalkCfg} {fair : Fair} {s t : PState} (h : PStep cfg fair s t) (p : EntInfo → Bool) :
    List.countP p t.collected + List.countP p (outPending t) + List.countP p s.handed =
    List.countP p s.collected + List.countP p (outPending s) + List.countP p t.handed := by
  cases h with
  | worker hw =>
    have := hw.out p
    simp only [outPending, List.flatMap_append, List.flatMap_cons, List.countP_append]; omega
  | flushOut => simp only [outPending, List.flatMap_append, List.flatMap_cons, List.flatten_append, List.flatten_cons, List.flatten_nil, List.countP_append, List.countP_nil]; omega
  | collect => simp only [outPending, List.flatten_cons, List.countP_append]; omega
  | mainEmpty _ => rfl
  | mainTimeout => rfl
  | barrier hws _ =>
    have : ∀ ws : List Worker, (ws.map (fun w : Worker => { w with st := .stopped })).flatMap (fun w => w.outbuf.flatten) = ws.flatMap (fun w => w.outbuf.flatten) := by
      intro ws
      induction ws with
      | nil => rfl
      | cons w ws ih => simp [ih]
    simp only [outPending, this]

theorem PSteps.out {cfg : WalkCfg} {fair : Fair} {s t : PState} (h : PSteps cfg fair s t) (p : EntInfo → Bool) (h0 : List.countP p s.collected + List.countP p (outPending s) = List.countP p s.handed) :
    List.countP p t.collected + List.countP p (outPending t) = List.countP p t.handed := by
  induction h with
  | refl => exact h0
  | step _ hs ih => have := hs.out p; omega

/-! ### Ends of the search -/

/-- What timely queues ensure: processes at the barrier have nothing in their feeder threads, and if all are there the queue is empty. -/
structure Calm (s : PState) : Prop where
  buf : ∀ w ∈ s.workers, w.st.isWaiting = true → w.buf = []
  queue : (∀ w ∈ s.workers, w.st.isWaiting = true) → s.queue = []
  fin : s.main = .finished → s.queue = [] ∧ ∀ w ∈ s.workers, w.st = .stopped ∧ w.buf = []

theorem disturb_finished {m : MState} : m.disturb = .finished ↔ m = .finished := by cases m <;> simp [MState.disturb]

theorem Calm.step {cfg : WalkCfg} {fair : Fair} (ht : fair.timely = true) {s t : PState} (hs : Calm s) (h : PStep cfg fair s t) : Calm t := by
  cases h with
  | @worker q outq l w r m col handed q' m' w' new hw =>
    have hfin : m = .finished → False := by
      intro hm
      obtain ⟨hq, hall⟩ := hs.fin hm
      obtain ⟨h1, h2⟩ := hall w (by simp)
      obtain ⟨st, buf, ob⟩ := w
      simp only at h1 h2 hq
      subst h1 h2 hq
      cases hw
    have hbuf : w'.st.isWaiting = true → w'.buf = [] ∧ ((∀ x ∈ l ++ r, x.st.isWaiting = true) → q' = []) := by
      intro hw'
      have hwb := hs.buf w (by simp)
      have hwq := hs.queue
      generalize hx : (q, m, w) = x at hw
      generalize hy : (q', m', w') = y at hw
      cases hw <;> simp only [Prod.mk.injEq] at hx hy <;> obtain ⟨rfl, rfl, rfl⟩ := hx <;> obtain ⟨rfl, rfl, rfl⟩ := hy
      case empty hcond =>
        obtain ⟨hb, hq⟩ := hcond ht
        exact ⟨hb, fun hall => hq (List.all_eq_true.2 hall)⟩
      case flush => have := hwb hw'; cases this
      all_goals (simp [WState.isWaiting] at hw'; done)
    refine ⟨?_, ?_, ?_⟩
    · intro x hx hxw
      simp only [List.mem_append, List.mem_cons] at hx
      rcases hx with hx | rfl | hx
      · exact hs.buf x (by simp [hx]) hxw
      · exact (hbuf hxw).1
      · exact hs.buf x (by simp [hx]) hxw
    · intro hall
      exact (hbuf (hall w' (by simp))).2 (fun x hx => hall x (by
        simp only [List.mem_append, List.mem_cons] at hx ⊢
        rcases hx with hx | hx
        · exact Or.inl hx
        · exact Or.inr (Or.inr hx)))
    · intro hm
      exfalso
      simp only at hm
      subst hm
      have : m = .finished := by
        generalize hx : (q, m, w) = x at hw
        generalize hy : (q', MState.finished, w') = y at hw
        cases hw <;> simp only [Prod.mk.injEq] at hx hy <;> obtain ⟨rfl, rfl, rfl⟩ := hx <;> obtain ⟨_, h2, _⟩ := hy <;>
          first
          | exact disturb_finished.1 h2.symm
          | exact h2.symm
      exact hfin this
  | @flushOut q outq l st b c o r m col handed =>
    have hmem : ∀ x, x ∈ l ++ (⟨st, b, o⟩ : Worker) :: r → ∃ y ∈ l ++ (⟨st, b, c :: o⟩ : Worker) :: r, y.st = x.st ∧ y.buf = x.buf := by
      intro x hx
      simp only [List.mem_append, List.mem_cons] at hx
      rcases hx with hx | rfl | hx
      · exact ⟨x, by simp [hx], rfl, rfl⟩
      · exact ⟨⟨st, b, c :: o⟩, by simp, rfl, rfl⟩
      · exact ⟨x, by simp [hx], rfl, rfl⟩
    refine ⟨?_, ?_, ?_⟩
    · intro x hx hxw
      obtain ⟨y, hy, h1, h2⟩ := hmem x hx
      rw [← h2]; exact hs.buf y hy (by rw [h1]; exact hxw)
    · intro hall
      refine hs.queue (fun x hx => ?_)
      simp only [List.mem_append, List.mem_cons] at hx
      rcases hx with hx | rfl | hx
      · exact hall x (by simp [hx])
      · exact hall ⟨st, b, o⟩ (by simp)
      · exact hall x (by simp [hx])
    · intro hm
      obtain ⟨h1, h2⟩ := hs.fin hm
      refine ⟨h1, fun x hx => ?_⟩
      obtain ⟨y, hy, h3, h4⟩ := hmem x hx
      rw [← h3, ← h4]; exact h2 y hy
  | collect => exact ⟨hs.buf, hs.queue, fun h => by cases h⟩
  | mainEmpty _ => exact ⟨hs.buf, hs.queue, fun h => by cases h⟩
  | mainTimeout => exact ⟨hs.buf, hs.queue, fun h => by cases h⟩
  | @barrier q outq ws col handed quiet hws _ =>
    have hwait : ∀ w ∈ ws, w.st.isWaiting = true := by
      intro w hw
      obtain ⟨b, o, rfl⟩ := hws w hw
      rfl
    have hq : q = [] := hs.queue hwait
    have hst : ∀ w ∈ ws.map (fun w : Worker => { w with st := .stopped }), w.st = .stopped ∧ w.buf = [] := by
      intro w hw
      obtain ⟨v, hv, rfl⟩ := List.mem_map.1 hw
      exact ⟨rfl, hs.buf v hv (hwait v hv)⟩
    exact ⟨fun w hw h => (hst w hw).2, fun _ => hq, fun _ => ⟨hq, hst⟩⟩

theorem Calm.init (roots : List DirT) {n : Nat} (hn : 0 < n) : Calm (initState roots n) := by
  refine ⟨?_, ?_, ?_⟩
  · intro w hw h
    simp only [initState, List.mem_replicate] at hw
    rw [hw.2]
  · intro h
    have := h ⟨.idle, [], []⟩ (by simp [initState]; omega)
    cases this
  · intro h; cases h

theorem Calm.steps {cfg : WalkCfg} {fair : Fair} (ht : fair.timely = true) {s t : PState} (hs : Calm s) (h : PSteps cfg fair s t) : Calm t := by
  induction h with
  | refl => exact hs
  | step _ h ih => exact ih.step ht h

/-- While main waits and no worker has been busy since, there is nothing on its way to main. -/
structure Quiet (s : PState) : Prop where
  wait : s.main = .waiting true → s.outq = [] ∧ ∀ w ∈ s.workers, w.st.isBusy = false ∧ w.outbuf = []
  fin : s.main = .finished → s.outq = [] ∧ ∀ w ∈ s.workers, w.st.isBusy = false ∧ w.outbuf = []

theorem Quiet.step {cfg : WalkCfg} {fair : Fair} (ht : fair.timely = true) (hp : fair.prompt = true) {s t : PState} (hc : Calm s) (hs : Quiet s)
    (h : PStep cfg fair s t) : Quiet t := by
  cases h with
  | @worker q outq l w r m col handed q' m' w' new hw =>
    have key : (m' = .waiting true ∨ m' = .finished) → m = m' ∧ (w.st.isBusy = false ∧ w.outbuf = [] → w'.st.isBusy = false ∧ w'.outbuf = []) := by
      intro hm
      generalize hx : (q, m, w) = x at hw
      generalize hy : (q', m', w') = y at hw
      cases hw <;> simp only [Prod.mk.injEq] at hx hy <;> obtain ⟨rfl, rfl, rfl⟩ := hx <;> obtain ⟨rfl, rfl, rfl⟩ := hy <;>
        first
        | (refine ⟨rfl, ?_⟩; rintro ⟨h1, h2⟩; first | exact ⟨h1, h2⟩ | exact ⟨rfl, h2⟩ | (simp [WState.isBusy] at h1; done))
        | (exfalso
           have hf := hc.fin
           rcases hm with hm | hm
           · cases m <;> simp [MState.disturb] at hm
           · have := (hf (disturb_finished.1 hm)).1; cases this)
    have lift : (m' = .waiting true ∨ m' = .finished) → (outq = [] ∧ ∀ x ∈ l ++ w :: r, x.st.isBusy = false ∧ x.outbuf = []) →
        outq = [] ∧ ∀ x ∈ l ++ w' :: r, x.st.isBusy = false ∧ x.outbuf = [] := by
      rintro hm ⟨h1, h2⟩
      refine ⟨h1, fun x hx => ?_⟩
      simp only [List.mem_append, List.mem_cons] at hx
      rcases hx with hx | rfl | hx
      · exact h2 x (by simp [hx])
      · exact (key hm).2 (h2 w (by simp))
      · exact h2 x (by simp [hx])
    refine ⟨fun hm => ?_, fun hm => ?_⟩
    · have hm' : m' = .waiting true := hm
      exact lift (Or.inl hm') (hs.wait (by rw [← hm']; exact (key (Or.inl hm')).1))
    · have hm' : m' = .finished := hm
      exact lift (Or.inr hm') (hs.fin (by rw [← hm']; exact (key (Or.inr hm')).1))
  | @flushOut q outq l st b c o r m col handed =>
    have : ∀ m' : MState, m = m' → (m' = .waiting true ∨ m' = .finished) → False := by
      rintro m' rfl hm
      rcases hm with hm | hm
      · have := ((hs.wait hm).2 ⟨st, b, c :: o⟩ (by simp)).2; cases this
      · have := ((hs.fin hm).2 ⟨st, b, c :: o⟩ (by simp)).2; cases this
    exact ⟨fun hm => (this _ hm (Or.inl rfl)).elim, fun hm => (this _ hm (Or.inr rfl)).elim⟩
  | collect => exact ⟨fun h => (by cases h), fun h => by cases h⟩
  | mainTimeout => exact ⟨fun h => (by cases h), fun h => by cases h⟩
  | mainEmpty hcond =>
    obtain ⟨h1, h2⟩ := hcond ht
    refine ⟨fun h => ⟨h1, fun w hw => ?_⟩, fun h => by cases h⟩
    simp only [MState.waiting.injEq, List.all_eq_true, Bool.not_eq_true'] at h
    exact ⟨h w hw, h2 w hw (h w hw)⟩
  | @barrier q outq ws col handed quiet hws hq =>
    have hq' := hq hp
    subst hq'
    obtain ⟨h1, h2⟩ := hs.wait rfl
    refine ⟨fun h => (by cases h), fun _ => ⟨h1, fun w hw => ?_⟩⟩
    obtain ⟨v, hv, rfl⟩ := List.mem_map.1 hw
    exact ⟨rfl, (h2 v hv).2⟩

theorem Quiet.steps {cfg : WalkCfg} {fair : Fair} (ht : fair.timely = true) (hp : fair.prompt = true) {s t : PState} (hc : Calm s) (hs : Quiet s)
    (h : PSteps cfg fair s t) : Quiet t := by
  induction h with
  | refl => exact hs
  | step hst h ih => exact ih.step ht hp (hc.steps ht hst) h

end FF
