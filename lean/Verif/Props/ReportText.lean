import Verif.Props.PlanText
import Verif.Props.Cli

/-!
C59 and C87: the text of the script's report shows the command and says why there is nothing about inputs and outputs.
-/

namespace PashAnn.Cli
open Spec Text

theorem withIO_head (c : CommandInvocationWithIO) : (withIO c).toList.head? = some '<' := by
  have h : ∀ (l : List (String × String)) (s : String), s.toList.head? = some '<' → (l.foldl addAttribute s).toList.head? = some '<' := by
    intro l
    induction l with
    | nil => intro s hs; exact hs
    | cons e l ih =>
        intro s hs
        rw [List.foldl_cons]
        apply ih
        unfold addAttribute
        simp only [String.toList_append, List.append_assoc]
        cases hl : s.toList with
        | nil => rw [hl] at hs; cases hs
        | cons a r => rw [hl] at hs; simpa using hs
  unfold withIO standardRepr
  apply h
  simp only [String.toList_append, List.append_assoc]
  have : "<class 'pash_annotations.datatypes.".toList = '<' :: "class 'pash_annotations.datatypes.".toList := by decide +kernel
  rw [this]
  rfl

/-- C59. The part of the report about inputs and outputs tells the three cases apart: it has the one sentence exactly if the
library knows nothing about the command, and the other one exactly if the command is known to write more than streams. -/
theorem C59_reasons (command : String) (r : Report) (h : report command = .ok r) :
    (ioText r.io = "Information not provided so considered side-effectful." ↔ getInputOutputInfo r.parsed = none) ∧
    (ioText r.io = "Provided command has outputs other than streaming." ↔
      ∃ i, getInputOutputInfo r.parsed = some i ∧ i.hasOtherOutputs = true) := by
  have hR : RightIO r.parsed r.io := by
    have ht := C59_report_total command
    cases hp : parse command with
    | error e => rw [hp] at ht; rw [ht] at h; cases h
    | ok c =>
        rw [hp] at ht
        obtain ⟨r', hr', _, rfl, hR, _⟩ := ht
        rw [h] at hr'; cases hr'
        exact hR
  have hw : ∀ w, withIO w ≠ "Information not provided so considered side-effectful." ∧
      withIO w ≠ "Provided command has outputs other than streaming." := by
    intro w
    constructor
    · intro e
      have := withIO_head w
      rw [e] at this
      revert this; decide +kernel
    · intro e
      have := withIO_head w
      rw [e] at this
      revert this; decide +kernel
  have hne : "Information not provided so considered side-effectful." ≠ "Provided command has outputs other than streaming." := by
    decide +kernel
  unfold RightIO at hR
  cases hi : getInputOutputInfo r.parsed with
  | none =>
      rw [hi] at hR
      simp only at hR
      rw [hR]
      simp [ioText]
  | some i =>
      rw [hi] at hR
      simp only at hR
      by_cases ho : i.hasOtherOutputs = true
      · rw [if_pos ho] at hR
        rw [hR]
        simp [ioText, ho]
      · rw [if_neg ho] at hR
        obtain ⟨w, _, hR⟩ := hR
        rw [hR]
        have := hw w
        simp [ioText, ho, this]

example : ∃ r, report "zzz x" = .ok r := by
  have h := C59_report_total "zzz x"
  have hp : ∃ c, parse "zzz x" = .ok c := ⟨⟨"zzz", [], ["x"]⟩, by decide +kernel⟩
  obtain ⟨c, hp⟩ := hp
  rw [hp] at h
  obtain ⟨r, hr, _⟩ := h
  exact ⟨r, hr⟩

/-- C59. The text of the report begins with the command as it was given and then the text of its parse, under their titles, and
ends with what the library says about parallelizing it. -/
theorem C59_text (other : FlagOptionWithIOVar → String) (command : String) (r : Report) (h : report command = .ok r) :
    ∃ c, parse command = .ok c ∧
      (">>> READ COMMAND INVOCATION: \n" ++ command ++ "\n\n>>> PARSED COMMAND INVOCATION: \n" ++ initial c ++
        "\n>>> INPUT-OUTPUT INFORMATION").toList <+: (reportText other r).toList ∧
      (">>> PARALLELIZABILITY INFORMATION: \n" ++ paraText other (getParallelizabilityInfo c)).toList <:+
        (reportText other r).toList := by
  have ht := C59_report_total command
  cases hp : parse command with
  | error e => rw [hp] at ht; rw [ht] at h; cases h
  | ok c =>
      rw [hp] at ht
      obtain ⟨r', hr', hc, hpc, _⟩ := ht
      rw [h] at hr'; cases hr'
      have e1 : "\n\n>>> PARSED COMMAND INVOCATION: \n" = "\n\n" ++ ">>> PARSED COMMAND INVOCATION: \n" := by decide +kernel
      have e2 : "\n>>> INPUT-OUTPUT INFORMATION" = "\n" ++ ">>> INPUT-OUTPUT INFORMATION" := by decide +kernel
      have e3 : ">>> INPUT-OUTPUT INFORMATION (applied to command invocation if possible): \n" =
          ">>> INPUT-OUTPUT INFORMATION" ++ " (applied to command invocation if possible): \n" := by decide +kernel
      refine ⟨c, rfl, ?_, ?_⟩
      · unfold reportText bodyText
        rw [hc, hpc, e1, e2, e3]
        simp only [String.toList_append, List.append_assoc, List.prefix_append_right_inj]
        exact List.prefix_append _ _
      · unfold reportText bodyText
        rw [hc, hpc]
        simp only [String.toList_append, ← List.append_assoc]
        rw [List.append_assoc]
        exact List.suffix_append _ _

end PashAnn.Cli
