import Verif.Model.HelpText
import Verif.Props.Message
import Verif.Props.Manual
/-! C107 and C112 for the help texts of the options of ff. -/
namespace FF
open Spec

/-- A check of `PlainHelp` that can be computed; the first character is also no white space. -/
def plainHelpB (t : Str) : Bool :=
  t.all (fun c => c ≠ '\n' && c ≠ '\\') && match t with
    | c :: _ => !asciiKinds.space c && c != '.' && c != '\''
    | [] => false

theorem plainHelpB_sound {t : Str} (h : plainHelpB t = true) : PlainHelp asciiKinds t ∧ ∃ c s, t = c :: s ∧ asciiKinds.space c = false := by
  unfold plainHelpB at h
  rw [Bool.and_eq_true] at h
  cases t with
  | nil => exact absurd h.2 (by simp)
  | cons c s =>
    obtain ⟨h1, h2⟩ := h
    simp only [Bool.and_eq_true, Bool.not_eq_true', bne_iff_ne, ne_eq] at h2
    refine ⟨⟨?_, c, ?_, h2.1.2, h2.2⟩, c, s, rfl, h2.1.1⟩
    · unfold OneLine
      have h1 := List.all_eq_true.1 h1
      refine ⟨?_, ?_⟩ <;> intro hc <;> have := h1 _ hc <;> simp at this
    · unfold lstripK
      rw [List.dropWhile_cons_of_neg (by simp [h2.1.1])]
      rfl

theorem optionTexts_plain : optionTexts.all (fun p => plainHelpB p.2) = true := by decide +kernel

theorem lookup_text {l : List (Str × Str)} {k : Str} (h : k ∈ l.map Prod.fst) : ∃ v, l.lookup k = some v ∧ (k, v) ∈ l := by
  induction l with
  | nil => cases h
  | cons x l ih =>
    obtain ⟨k', v'⟩ := x
    rw [List.lookup_cons]
    by_cases e : k = k'
    · subst e
      exact ⟨v', by simp, by simp⟩
    · have : k ∈ l.map Prod.fst := by simpa [e] using h
      obtain ⟨v, h1, h2⟩ := ih this
      have hb : (k == k') = false := by simpa using e
      exact ⟨v, by rw [hb]; exact h1, List.mem_cons_of_mem _ h2⟩

/-- Every option has a help text of its own. -/
theorem ffText_mem (env : ArgEnv) : ∀ o ∈ ffOptions env, (o.strings.headD [], ffText o) ∈ optionTexts := by
  intro o ho
  have h : ((ffOptions env).all fun o => (optionTexts.map Prod.fst).contains (o.strings.headD [])) = true := by
    obtain ⟨debug, cpu, cache, noColor⟩ := env
    cases debug <;> rfl
  obtain ⟨v, h1, h2⟩ := lookup_text (List.contains_iff_mem.1 (List.all_eq_true.1 h o ho))
  unfold ffText
  rw [h1]
  exact h2

/-- The help texts of ff can be shown. -/
theorem ffText_plain (env : ArgEnv) : ∀ o ∈ ffOptions env, plainHelpB (ffText o) = true := fun o ho =>
  List.all_eq_true.1 optionTexts_plain _ (ffText_mem env o ho)

/-- C112: the manual of ff shows all the text of the template and what is included there, for the help texts of ff. -/
theorem C112_text {E : HelpEnv} (hE : PlainEnv E) (hk : E.kinds = asciiKinds) (env : ArgEnv) :
    ∃ lines, manualPage E ffUsage (ffHelp env ffText) manpageTemplate = some lines ∧
      shownChars asciiKinds (seen .start (pageText lines)) = expectedChars asciiKinds (manualInclude ffUsage (ffHelp env ffText)) 2 manpageTemplate :=
  ffManual_shown hE hk fun o ho => (plainHelpB_sound (ffText_plain env o ho)).1

/-- C112: and so every option of ff, with its spellings, its argument and its help text. -/
theorem C112_option {E : HelpEnv} (hE : PlainEnv E) (hk : E.kinds = asciiKinds) (env : ArgEnv) {o : ArgOpt} (ho : o ∈ ffOptions env) :
    ∃ lines a b, manualPage E ffUsage (ffHelp env ffText) manpageTemplate = some lines ∧
      shownChars asciiKinds (seen .start (pageText lines)) =
        a ++ (textChars asciiKinds (formatOption o.strings o.action (optionMetavar o.strings o.action (ffMetavar o))) ++ textChars asciiKinds (ffText o)) ++ b := by
  obtain ⟨lines, a, b, h1, h2⟩ := ffManual_options hE hk (env := env) (text := ffText) fun o ho => (plainHelpB_sound (ffText_plain env o ho)).1
  have hm : HelpItem.option o.strings o.action (ffMetavar o) (ffText o) ∈ ffHelp env ffText := List.mem_flatMap.2 ⟨o, ho, by simp⟩
  obtain ⟨u, v, huv⟩ := List.append_of_mem hm
  refine ⟨lines, a ++ optionsShown asciiKinds u, optionsShown asciiKinds v ++ b, h1, ?_⟩
  rw [h2, huv]
  simp [optionsShown]

/-- C112: the usage, the patterns for times and the exit statuses of ff are in its manual. -/
theorem C112_included {E : HelpEnv} (hE : PlainEnv E) (hk : E.kinds = asciiKinds) (env : ArgEnv) {t : Str}
    (ht : t = textChars asciiKinds ffUsage ∨ (∃ p ∈ ["YY-mm-dd HH:MM:SS", "YY-mm-dd HH:MM", "YYmmddHHMM", "YY-mm-dd", "YYmmdd", "HH:MM:SS", "HH:MM", "HHMM"],
      t = textChars asciiKinds p.toList) ∨ ∃ x ∈ exitCodes, t = textChars asciiKinds (Nat.repr x.1).toList ++ textChars asciiKinds x.2) :
    ∃ lines a b, manualPage E ffUsage (ffHelp env ffText) manpageTemplate = some lines ∧ shownChars asciiKinds (seen .start (pageText lines)) = a ++ t ++ b := by
  have hp : ∀ o ∈ ffOptions env, PlainHelp asciiKinds (ffText o) := fun o ho => (plainHelpB_sound (ffText_plain env o ho)).1
  rcases ht with rfl | ⟨p, h, rfl⟩ | ⟨⟨n, d⟩, h, rfl⟩
  · exact ffManual_usage hE hk hp
  · exact ffManual_patterns hE hk hp h
  · exact ffManual_exit hE hk hp h

/-- C107: the help shows every option of ff with its help text, for all widths but those of one or two columns. -/
theorem C107_ff (width : Int) (hw : 0 < width) (usage : Str) (env : ArgEnv) :
    ∃ out, asciiKinds.printHelp width usage (ffHelp env ffText) = some out ∧
      ∀ o ∈ ffOptions env, ∃ pre name rest post, out = pre ++ [' ', ' '] ++ name ++ rest ++ post ∧
        (o.action ≠ .arguments → ∀ s ∈ o.strings, s <:+: name) ∧ ink asciiKinds.space rest = ink asciiKinds.space (ffText o) ∧ ∃ c t, rest = c :: t ∧ Whitespace c :=
  C107_complete asciiKinds asciiKinds_ascii width hw usage env ffText fun o ho => (plainHelpB_sound (ffText_plain env o ho)).2

/-- The text of `--fail`. -/
example : ((ffOptions ⟨false, 4, [], false⟩).filter (fun o => o.dest = "fail".toList)).map ffText = ["Fail with exitcode 1 if there are no search results.".toList] := by decide +kernel

end FF
