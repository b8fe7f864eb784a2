import Verif.Model.Arguments
/-! What can be said about a value of the Namespace for every command line. -/
namespace FF

/-- What an option can store has the property. -/
def Stores (P : NVal → Prop) (maxCpu : Int) (o : ArgOpt) : Prop :=
  match o.action with
  | .store | .storeOptional _ => ∀ v x, o.type.conv maxCpu v = .ok x → P x
  | .storeConst c => P c
  | .storeTrue => P (.bool true)
  | .append | .storeRemainder | .arguments => ∀ l, P (.strs l)

theorem set_keeps {P : NVal → Prop} {key : Str} {ns : NS} (h : P (ns key)) {k : Str} {v : NVal} (hv : k = key → P v) : P ((NS.set ns k v) key) := by
  unfold NS.set
  split
  · rename_i e; exact hv e.symm
  · exact h

theorem append_keeps {P : NVal → Prop} {key : Str} {ns : NS} (h : P (ns key)) {k w : Str} (hv : k = key → ∀ l, P (.strs l)) : P ((NS.append ns k w) key) := by
  have : ∃ l, NS.append ns k w = NS.set ns k (.strs l) := by
    unfold NS.append
    split
    · exact ⟨_, rfl⟩
    · exact ⟨_, rfl⟩
  obtain ⟨l, hl⟩ := this
  rw [hl]
  exact set_keeps h (fun e => hv e l)

theorem appendAll_keeps {P : NVal → Prop} {key : Str} {k : Str} (ws : List Str) {ns : NS} (h : P (ns key)) (hv : k = key → ∀ l, P (.strs l)) :
    P ((NS.appendAll ns k ws) key) := by
  induction ws generalizing ns with
  | nil => exact h
  | cons w ws ih => exact ih (append_keeps h hv)

theorem parseOption_keeps {opts : List ArgOpt} {maxCpu : Int} {key : Str} {P : NVal → Prop} (ho : ∀ o ∈ opts, o.dest = key → Stores P maxCpu o) {ns ns' : NS}
    {argv argv' : List Str} (h : parseOption opts maxCpu ns argv = .ok (ns', argv')) (hp : P (ns key)) : P (ns' key) := by
  cases argv with
  | nil => cases h
  | cons w argv =>
    unfold parseOption at h
    simp only at h
    split at h
    · cases h
    · rename_i o hg
      have hm : o ∈ opts := List.mem_of_find?_eq_some hg
      have ho := ho o hm
      unfold Stores at ho
      split at h
      · rename_i ha
        rw [ha] at ho
        cases h; exact set_keeps hp ho
      · rename_i c ha
        rw [ha] at ho
        cases h; exact set_keeps hp ho
      · rename_i ha
        rw [ha] at ho
        split at h
        · cases h
        · cases h; exact append_keeps hp ho
      · rename_i ha
        rw [ha] at ho
        split at h
        · cases h
        · split at h
          · cases h
          · rename_i hx
            cases h
            exact set_keeps hp (fun e => ho e _ _ hx)
      · rename_i c ha
        rw [ha] at ho
        split at h
        · cases h
        · rename_i hx
          cases h
          exact set_keeps hp (fun e => ho e _ _ hx)
      · rename_i ha
        rw [ha] at ho
        split at h
        · cases h
        · cases h; exact appendAll_keeps _ hp ho
      · cases h

theorem argStep_keeps {opts : List ArgOpt} {maxCpu : Int} {key : Str} {P : NVal → Prop} (ho : ∀ o ∈ opts, o.dest = key → Stores P maxCpu o) {ns ns' : NS}
    {argv argv' : List Str} (h : argStep opts maxCpu ns argv = .ok (ns', argv')) (hp : P (ns key)) : P (ns' key) := by
  cases argv with
  | nil => cases h; exact hp
  | cons w argv =>
    unfold argStep at h
    simp only at h
    split at h
    · split at h
      · cases h
      · exact parseOption_keeps ho h hp
    · unfold parsePositional at h
      split at h
      · cases h
      · rename_i o hg
        split at h
        · cases h
        · cases h
          have hm : o ∈ opts := List.mem_of_find?_eq_some hg
          have ha : o.action = .arguments := by simpa using List.find?_some hg
          have ho := ho o hm
          unfold Stores at ho
          rw [ha] at ho
          exact appendAll_keeps _ hp ho

/-- A property of a setting that holds for its default and for everything its options can store. -/
theorem parse_keeps {opts : List ArgOpt} {maxCpu : Int} {key : Str} {P : NVal → Prop} (ho : ∀ o ∈ opts, o.dest = key → Stores P maxCpu o)
    (hi : P (initNS opts key)) {argv : List Str} {ns : NS} (h : parseArgs opts maxCpu argv = .ok ns) : P (ns key) := by
  unfold parseArgs argRun at h
  generalize argWeight argv = f at h
  generalize initNS opts = ns0 at hi h
  induction f generalizing ns0 argv with
  | zero =>
    cases argv with
    | nil => simp only [argLoop] at h; cases h; exact hi
    | cons w argv => simp [argLoop] at h
  | succ f ih =>
    cases argv with
    | nil => simp only [argLoop] at h; cases h; exact hi
    | cons w argv =>
      simp only [argLoop] at h
      split at h
      · cases h
      · rename_i ns' argv' hs
        exact ih _ (argStep_keeps ho hs hi) h

end FF
