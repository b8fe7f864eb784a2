import Verif.Spec.ColorMode
import Verif.Props.Whole
import Verif.Props.Color
import Verif.Props.Accepted
/-! Property C127: when output is coloured. -/
namespace FF
open Spec

theorem meanings_parts {args : ArgOpt} {m : Int} {a b : List CItem} : ∀ {ns ns' : NS}, meanings args m ns (a ++ b) = .ok ns' →
    ∃ ns1, meanings args m ns a = .ok ns1 ∧ meanings args m ns1 b = .ok ns' := by
  induction a with
  | nil => intro ns ns' h; exact ⟨ns, rfl, h⟩
  | cons i a ih =>
    intro ns ns' h
    simp only [List.cons_append, meanings] at h ⊢
    cases hm : meaning args m ns i with
    | error e => rw [hm] at h; cases h
    | ok ns1 => rw [hm] at h; exact ih h

theorem ffOptions_color (env : ArgEnv) : ∀ o ∈ ffOptions env, o.dest = "color".toList → o.action = .store ∧ o.type = .str := by
  intro o ho hd
  exact opt_all (fun x => x.1 = "color".toList → x.2.1 = .store ∧ x.2.2 = .str) (by intro d; cases d <;> decide) env ho hd

theorem reads_options {opts : List ArgOpt} {items : List CItem} {ws : List Str} (h : Reads opts items ws) :
    ∀ i ∈ items, ∀ o v, i = .arg o v → o ∈ opts := by
  induction h with
  | nil => intro i hi; cases hi
  | flag _ _ _ _ ih | bare _ _ _ _ _ ih | words _ _ _ _ ih =>
    intro i hi o v e
    rcases List.mem_cons.1 hi with rfl | hi
    · cases e
    · exact ih i hi o v e
  | arg ho _ _ _ _ ih =>
    intro i hi o v e
    rcases List.mem_cons.1 hi with rfl | hi
    · cases e; exact ho
    · exact ih i hi o v e
  | rest =>
    intro i hi o v e
    rcases List.mem_cons.1 hi with rfl | hi
    · cases e
    · cases hi
  | long _ _ _ _ ih => exact ih
  | bundle _ _ _ ih => exact ih

/-- C127: the setting is that of the last `--color`, and without one it is `auto`, or `never` if NO_COLOR is set. -/
theorem C127_setting (env : ArgEnv) {args : ArgOpt} (ht : Table (ffOptions env) args) {items : List CItem} {ws : List Str}
    (h : Reads (ffOptions env) items ws) {ns : NS} (hok : parseArgs (ffOptions env) env.maxCpu ws = .ok ns) {v : Str}
    (hv : ColorSetting args env.noColor items v) : (settingsOf ns).fargs.color = v := by
  unfold parseArgs at hok
  rw [C126_reads ht _ h] at hok
  show ((ns "color".toList).toOptStr).getD [] = v
  cases hv with
  | default hn =>
    rw [meanings_other hok hn]
    obtain ⟨d, m, c, n⟩ := env
    cases d <;> cases n <;> rfl
  | @given a b o v hd hb =>
    obtain ⟨ns1, _, h2⟩ := meanings_parts hok
    simp only [meanings] at h2
    cases hm : meaning args env.maxCpu ns1 (.arg o v) with
    | error e => rw [hm] at h2; cases h2
    | ok ns2 =>
      rw [hm] at h2
      rw [meanings_other h2 hb]
      obtain ⟨h3, h4⟩ := ffOptions_color env o (reads_options h _ (by simp) o v rfl) hd
      simp only [meaning, h3, h4, reduceCtorEq, if_false, OptType.conv, Except.ok.injEq] at hm
      rw [← hm]
      simp [stored, hd, NVal.toOptStr]

/-- C127: if colours are not asked for, the lines are those without colours, whatever LS_COLORS is and wherever the output goes. -/
theorem C127_plain (W : World) {argv : List Str} {p : Plan} {w : List Warning} (hr : W.main.run argv = .search p w) {ns : NS}
    (hok : parseArgs (ffOptions W.main.arg) W.main.arg.maxCpu argv = .ok ns) (hj : (settingsOf ns).fargs.json = none) (hc : (settingsOf ns).fargs.count = none)
    (hx : given (settingsOf ns).exec = false ∧ given (settingsOf ns).execBatch = false) (hcol : ¬ InColor (settingsOf ns).fargs.color W.isatty)
    {C : ConsoleEnv} (hC : PrintAs W ns C) (entries : List EntInfo) : W.printed ns p entries = C.output plainPalette p.output entries := by
  obtain ⟨h4, h5, h6, _⟩ := print_plan hr hok hc hx
  rw [hj] at h4 h6
  simp only [Option.isSome_none, Bool.false_eq_true, if_false] at h6
  rw [prints_iff] at hC
  subst hC
  have hpal : W.palette p = plainPalette := by
    unfold World.palette
    rw [h6]
    apply if_neg
    intro h
    apply hcol
    by_cases ha : (settingsOf ns).fargs.color = "auto".toList
    · rw [if_pos ha] at h; exact .inr ⟨ha, h⟩
    · rw [if_neg ha] at h; exact .inl (by simpa using h)
  unfold World.printed
  rw [h4, h5, hpal]
  simp only [Option.isSome_none, Bool.false_eq_true, if_false, reduceCtorEq]

/-- C127: if colours are asked for and LS_COLORS is set, the lines are those in the colours of LS_COLORS (see C90): the same lines with escape sequences
inserted. Missing: LS_COLORS is not set, see `C32_false`. -/
theorem C127_coloured_partial (W : World) {argv : List Str} {p : Plan} {w : List Warning} (hr : W.main.run argv = .search p w) {ns : NS}
    (hok : parseArgs (ffOptions W.main.arg) W.main.arg.maxCpu argv = .ok ns) (hj : (settingsOf ns).fargs.json = none) (hc : (settingsOf ns).fargs.count = none)
    (hx : given (settingsOf ns).exec = false ∧ given (settingsOf ns).execBatch = false) (hcol : InColor (settingsOf ns).fargs.color W.isatty)
    (hls : W.lsColors ≠ []) {C : ConsoleEnv} (hC : PrintAs W ns C) (entries : List EntInfo) :
    W.printed ns p entries = C.output (colorPalette W.lsColors) p.output entries ∧
      Inserted (IsEscape W.lsColors) (C.output plainPalette p.output entries) (W.printed ns p entries) := by
  obtain ⟨h4, h5, h6, _⟩ := print_plan hr hok hc hx
  rw [hj] at h4 h6
  simp only [Option.isSome_none, Bool.false_eq_true, if_false] at h6
  rw [prints_iff] at hC
  subst hC
  have hpal : W.palette p = colorPalette W.lsColors := by
    unfold World.palette
    rw [h6]
    apply if_pos
    rcases hcol with h | ⟨h, h'⟩
    · rw [h]; rw [if_neg (by decide)]; rfl
    · rw [if_pos h]; exact h'
  have hp : W.printed ns p entries = (W.console ns).output (colorPalette W.lsColors) p.output entries := by
    unfold World.printed
    rw [h4, h5, hpal]
    simp only [Option.isSome_none, Bool.false_eq_true, if_false, reduceCtorEq]
  exact ⟨hp, by rw [hp]; exact C32_output_partial _ _ hls _ _⟩

/-- C127: with `--json` there are never colours, whatever `--color` says. -/
theorem C127_json (W : World) {argv : List Str} {p : Plan} {w : List Warning} (hr : W.main.run argv = .search p w) {ns : NS}
    (hok : parseArgs (ffOptions W.main.arg) W.main.arg.maxCpu argv = .ok ns) (hj : (settingsOf ns).fargs.json.isSome = true)
    (hc : (settingsOf ns).fargs.count = none) (hx : given (settingsOf ns).exec = false ∧ given (settingsOf ns).execBatch = false)
    (tty : Bool) (colors : Str) (entries : List EntInfo) :
    ({ W with isatty := tty, lsColors := colors } : World).printed ns p entries = W.printed ns p entries := by
  obtain ⟨h4, h5, h6, _⟩ := print_plan hr hok hc hx
  have h1 : ∀ (t : Bool) (c : Str), ({ W with isatty := t, lsColors := c } : World).palette p = plainPalette := by
    intro t c
    unfold World.palette
    rw [h6, if_pos hj]
    rfl
  have h2 : W.palette p = plainPalette := h1 W.isatty W.lsColors
  unfold World.printed
  rw [h1, h2]
  rfl

set_option maxRecDepth 50000 in
set_option maxHeartbeats 4000000 in
-- `ff depth=1` on a terminal, and with `--color=never`
example : ∃ W : World, W.lsColors ≠ [] ∧
    (∃ p w ns, W.main.run ["depth=1".toList] = .search p w ∧ parseArgs (ffOptions W.main.arg) W.main.arg.maxCpu ["depth=1".toList] = .ok ns ∧
      (settingsOf ns).fargs.json = none ∧ (settingsOf ns).fargs.count = none ∧
      (given (settingsOf ns).exec = false ∧ given (settingsOf ns).execBatch = false) ∧ InColor (settingsOf ns).fargs.color W.isatty ∧ PrintAs W ns (W.console ns)) ∧
    (∃ p w ns, W.main.run ["-C".toList, "never".toList, "depth=1".toList] = .search p w ∧
      parseArgs (ffOptions W.main.arg) W.main.arg.maxCpu ["-C".toList, "never".toList, "depth=1".toList] = .ok ns ∧
      (settingsOf ns).fargs.json = none ∧ (settingsOf ns).fargs.count = none ∧
      (given (settingsOf ns).exec = false ∧ given (settingsOf ns).execBatch = false) ∧ ¬ InColor (settingsOf ns).fargs.color W.isatty ∧ PrintAs W ns (W.console ns)) := by
  refine ⟨{ demoWorld with isatty := true, lsColors := "di=01;34".toList }, by decide, ⟨_, _, _, rfl, rfl, rfl, rfl, ⟨rfl, rfl⟩, .inr ⟨rfl, rfl⟩, ?_⟩,
    ⟨_, _, _, rfl, rfl, rfl, rfl, ⟨rfl, rfl⟩, ?_, ?_⟩⟩
  · rw [prints_iff]
  · rintro (h | ⟨h, _⟩)
    · exact absurd h (by decide)
    · exact absurd h (by decide)
  · rw [prints_iff]

set_option maxRecDepth 20000 in
-- `--color=always` given after `--color=never`
example : ∃ o args, o ∈ ffOptions demoArgEnv ∧ ColorSetting args false [.arg o "never".toList, .arg o "always".toList] "always".toList := by
  refine ⟨(ffOptions demoArgEnv)[25]'(by decide), (ffOptions demoArgEnv)[0]'(by decide), List.getElem_mem _, ?_⟩
  exact ColorSetting.given (a := [.arg _ "never".toList]) (b := []) (by decide) (by intro i hi; cases hi)

end FF
