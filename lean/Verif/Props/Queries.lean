import Verif.Model.Queries
import Verif.Props.IOInfo
import Verif.Spec.Vars

/-! What the queries by access kind answer. -/

namespace PashAnn
open Spec

/-- C84. Each query returns exactly the operands with the access it names, plain strings counting as configuration, in
their order; the query for options returns the options whose argument has other-output access. -/
theorem C84_queries (c : CommandInvocationWithIO) :
    (∀ x, x ∈ c.getOperandsWithConfigInput ↔
      x ∈ c.operandList ∧ (HasAccess .configInput x ∨ ∃ s, x = .argString s)) ∧
    (∀ x, x ∈ c.getOperandsWithStreamInput ↔ x ∈ c.operandList ∧ HasAccess .streamInput x) ∧
    (∀ x, x ∈ c.getOperandsWithOtherInput ↔ x ∈ c.operandList ∧ HasAccess .otherInput x) ∧
    (∀ x, x ∈ c.getOperandsWithStreamOutput ↔ x ∈ c.operandList ∧ HasAccess .streamOutput x) ∧
    (∀ x, x ∈ c.getOperandsWithOtherOutput ↔ x ∈ c.operandList ∧ HasAccess .otherOutput x) ∧
    (∀ x, x ∈ c.getOptionsWithOtherOutput ↔
      x ∈ c.flagOptionList ∧ ∃ n a, x = .option n a ∧ HasAccess .otherOutput a) ∧
    List.Sublist c.getOperandsWithConfigInput c.operandList ∧
    List.Sublist c.getOperandsWithStreamInput c.operandList ∧
    List.Sublist c.getOperandsWithOtherInput c.operandList ∧
    List.Sublist c.getOperandsWithStreamOutput c.operandList ∧
    List.Sublist c.getOperandsWithOtherOutput c.operandList ∧
    List.Sublist c.getOptionsWithOtherOutput c.flagOptionList := by
  refine ⟨fun x => ?_, fun x => ?_, fun x => ?_, fun x => ?_, fun x => ?_, fun x => ?_, List.filter_sublist,
    List.filter_sublist, List.filter_sublist, List.filter_sublist, List.filter_sublist, List.filter_sublist⟩
  · cases x with
    | argString s => simp [CommandInvocationWithIO.getOperandsWithConfigInput]
    | io f => cases f <;> simp [CommandInvocationWithIO.getOperandsWithConfigInput, HasAccess, FileWithIO.access,
        AccessKind.isConfigInput]
  · cases x with
    | argString s => simp [CommandInvocationWithIO.getOperandsWithStreamInput, HasAccess]
    | io f => cases f <;> simp [CommandInvocationWithIO.getOperandsWithStreamInput, HasAccess, FileWithIO.access,
        AccessKind.isStreamInput]
  · cases x with
    | argString s => simp [CommandInvocationWithIO.getOperandsWithOtherInput, HasAccess]
    | io f => cases f <;> simp [CommandInvocationWithIO.getOperandsWithOtherInput, HasAccess, FileWithIO.access,
        AccessKind.isOtherInput]
  · cases x with
    | argString s => simp [CommandInvocationWithIO.getOperandsWithStreamOutput, HasAccess]
    | io f => cases f <;> simp [CommandInvocationWithIO.getOperandsWithStreamOutput, HasAccess, FileWithIO.access,
        AccessKind.isStreamOutput]
  · cases x with
    | argString s => simp [CommandInvocationWithIO.getOperandsWithOtherOutput, HasAccess]
    | io f => cases f <;> simp [CommandInvocationWithIO.getOperandsWithOtherOutput, HasAccess, FileWithIO.access,
        AccessKind.isOtherOutput]
  · cases x with
    | flag n => simp [CommandInvocationWithIO.getOptionsWithOtherOutput]
    | option n a =>
        cases a with
        | argString s => simp [CommandInvocationWithIO.getOptionsWithOtherOutput, HasAccess]
        | io f =>
            have hx : FlagOptionWithIO.option n (.io f) ∈ c.getOptionsWithOtherOutput ↔
                FlagOptionWithIO.option n (.io f) ∈ c.flagOptionList ∧ HasAccess .otherOutput (.io f) := by
              cases f <;> simp [CommandInvocationWithIO.getOptionsWithOtherOutput, HasAccess, FileWithIO.access,
                AccessKind.isOtherOutput]
            rw [hx]
            constructor
            · rintro ⟨h, h'⟩; exact ⟨h, n, _, rfl, h'⟩
            · rintro ⟨h, m, a, he, h'⟩; cases he; exact ⟨h, h'⟩

/-- An operand one of the five queries finds. -/
def Found : ArgWithIO → Bool
  | .argString _ => true
  | .io f => f.access != .containerForInput && f.access != .excludesFromInput

theorem count_filter_eq {α : Type} [DecidableEq α] (p : α → Bool) (l : List α) (a : α) :
    (l.filter p).count a = if p a then l.count a else 0 := by
  split
  · exact List.count_filter (by assumption)
  · exact List.count_eq_zero.2 (fun h => by simp_all [List.mem_filter])

theorem partition_perm (c : CommandInvocationWithIO) (h : ∀ x ∈ c.operandList, Found x = true) :
    (c.getOperandsWithConfigInput ++ c.getOperandsWithStreamInput ++ c.getOperandsWithOtherInput ++
      c.getOperandsWithStreamOutput ++ c.getOperandsWithOtherOutput).Perm c.operandList := by
  rw [List.perm_iff_count]
  intro a
  simp only [List.count_append, CommandInvocationWithIO.getOperandsWithConfigInput,
    CommandInvocationWithIO.getOperandsWithStreamInput, CommandInvocationWithIO.getOperandsWithOtherInput,
    CommandInvocationWithIO.getOperandsWithStreamOutput, CommandInvocationWithIO.getOperandsWithOtherOutput,
    count_filter_eq]
  by_cases ha : a ∈ c.operandList
  · have hx := h a ha
    cases a with
    | argString s => simp
    | io f =>
        cases hf : f.access <;> simp [Found, hf] at hx <;>
          simp [hf, AccessKind.isConfigInput, AccessKind.isStreamInput, AccessKind.isOtherInput,
            AccessKind.isStreamOutput, AccessKind.isOtherOutput]
  · simp [List.count_eq_zero.2 ha]

/-- C84. For every invocation the library types, each operand is found by exactly one of the five queries: together
they return the operands and nothing else, each as often as it was given. -/
theorem C84_partition (inv : CommandInvocationInitial) (c : CommandInvocationWithIO) (h : Typed inv c) :
    (c.getOperandsWithConfigInput ++ c.getOperandsWithStreamInput ++ c.getOperandsWithOtherInput ++
      c.getOperandsWithStreamOutput ++ c.getOperandsWithOtherOutput).Perm c.operandList := by
  obtain ⟨i, hi, hc⟩ := h
  obtain ⟨ts, hts, hs⟩ := getIO_shape hi
  rw [getIO_apply hi] at hc
  cases hc
  refine partition_perm _ (fun x hx => ?_)
  obtain ⟨k, s, t, _, ht, rfl⟩ := (mem_zipWith_iff _ _ _ _).1 hx
  have ho := hs.ordinary t (List.mem_of_getElem? ht)
  cases t with
  | plainString => simp at ho
  | argString => rfl
  | fileStd a => by_cases hd : s = "-" <;> cases a <;> simp [Found, typedArg, fileOf, FileWithIO.access, hd] at ho ⊢

/-- C84. The warning about other outputs is given exactly if a query for other outputs finds an operand or an option. -/
theorem C84_warning (inv : CommandInvocationInitial) (i : InputOutputInfo) (c : CommandInvocationWithIO)
    (h : getInputOutputInfo inv = some i) (hc : i.apply inv = .ok c) :
    i.hasOtherOutputs = true ↔ c.getOperandsWithOtherOutput ≠ [] ∨ c.getOptionsWithOtherOutput ≠ [] := by
  rw [C17_warning_exact inv i c h hc, WritesElsewhere]
  obtain ⟨_, _, _, _, h5, h6, _⟩ := C84_queries c
  constructor
  · rintro (⟨n, a, hm, ha⟩ | ⟨a, hm, ha⟩)
    · exact .inr (List.ne_nil_of_mem ((h6 _).2 ⟨hm, n, a, rfl, ha⟩))
    · exact .inl (List.ne_nil_of_mem ((h5 _).2 ⟨hm, ha⟩))
  · rintro (h | h)
    · obtain ⟨x, hx⟩ := List.exists_mem_of_ne_nil _ h
      exact .inr ⟨x, (h5 x).1 hx⟩
    · obtain ⟨x, hx⟩ := List.exists_mem_of_ne_nil _ h
      obtain ⟨hm, n, a, rfl, ha⟩ := (h6 x).1 hx
      exact .inl ⟨n, a, hm, ha⟩

/-- A typed invocation with operands of three kinds. -/
example : ∃ inv c, parse "grep -f pats x y" = .ok inv ∧ Typed inv c ∧ c.getOperandsWithStreamInput.length = 2 :=
  ⟨⟨"grep", [.option "-f" "pats"], ["x", "y"]⟩, ⟨"grep", [.option "-f" (.io (.file "pats" .configInput))],
    [.io (.file "x" .streamInput), .io (.file "y" .streamInput)], none, some stdoutStream⟩, by decide +kernel,
    ⟨⟨[.fileStd .configInput], [.fileStd .streamInput, .fileStd .streamInput], none, some stdoutStream⟩,
      by decide +kernel, by decide +kernel⟩, by decide +kernel⟩

/-- C84 (refuted for invocations with variables). Whatever the access map says about a variable, no query finds it:
the queries for streams and other accesses are empty, and the query for configuration returns only the strings. -/
theorem C84_variables_false (c : CommandInvocationWithIOVars) (h : ∀ x ∈ c.operandList, ∀ f, x ≠ .io f)
    (ho : ∀ n f, FlagOptionWithIOVar.optionIO n (.io f) ∉ c.flagOptionList) :
    c.getOperandsWithStreamInput = [] ∧ c.getOperandsWithOtherInput = [] ∧ c.getOperandsWithStreamOutput = [] ∧
    c.getOperandsWithOtherOutput = [] ∧ c.getOptionsWithOtherOutput = [] ∧
    ∀ x ∈ c.getOperandsWithConfigInput, ∃ s, x = .str s := by
  refine ⟨?_, ?_, ?_, ?_, ?_, ?_⟩
  · rw [CommandInvocationWithIOVars.getOperandsWithStreamInput, List.filter_eq_nil_iff]
    intro x hx
    cases x with
    | var v => simp
    | str s => simp
    | io f => exact absurd rfl (h _ hx f)
  · rw [CommandInvocationWithIOVars.getOperandsWithOtherInput, List.filter_eq_nil_iff]
    intro x hx
    cases x with
    | var v => simp
    | str s => simp
    | io f => exact absurd rfl (h _ hx f)
  · rw [CommandInvocationWithIOVars.getOperandsWithStreamOutput, List.filter_eq_nil_iff]
    intro x hx
    cases x with
    | var v => simp
    | str s => simp
    | io f => exact absurd rfl (h _ hx f)
  · rw [CommandInvocationWithIOVars.getOperandsWithOtherOutput, List.filter_eq_nil_iff]
    intro x hx
    cases x with
    | var v => simp
    | str s => simp
    | io f => exact absurd rfl (h _ hx f)
  · rw [CommandInvocationWithIOVars.getOptionsWithOtherOutput, List.filter_eq_nil_iff]
    intro x hx
    cases x with
    | flag n => simp
    | optionVar i n a => simp
    | optionIO n a =>
        cases a with
        | io f => exact absurd hx (ho n f)
        | var v => simp
        | str s => simp
  · intro x hx
    rw [CommandInvocationWithIOVars.getOperandsWithConfigInput, List.mem_filter] at hx
    cases x with
    | var v => simp at hx
    | str s => exact ⟨s, rfl⟩
    | io f => exact absurd rfl (h _ hx.1 f)

/-- C84, invocations with variables: each query finds exactly the operands that are files or standard streams with that
access, strings counting as configuration, in their order. -/
theorem C84_files_partial (c : CommandInvocationWithIOVars) :
    (∀ x, x ∈ c.getOperandsWithConfigInput ↔
      x ∈ c.operandList ∧ ((∃ f, x = .io f ∧ f.access = .configInput) ∨ ∃ s, x = .str s)) ∧
    (∀ x, x ∈ c.getOperandsWithStreamInput ↔ x ∈ c.operandList ∧ ∃ f, x = .io f ∧ f.access = .streamInput) ∧
    (∀ x, x ∈ c.getOperandsWithOtherInput ↔ x ∈ c.operandList ∧ ∃ f, x = .io f ∧ f.access = .otherInput) ∧
    (∀ x, x ∈ c.getOperandsWithStreamOutput ↔ x ∈ c.operandList ∧ ∃ f, x = .io f ∧ f.access = .streamOutput) ∧
    (∀ x, x ∈ c.getOperandsWithOtherOutput ↔ x ∈ c.operandList ∧ ∃ f, x = .io f ∧ f.access = .otherOutput) ∧
    (∀ x, x ∈ c.getOptionsWithOtherOutput ↔
      x ∈ c.flagOptionList ∧ ∃ n f, x = .optionIO n (.io f) ∧ f.access = .otherOutput) ∧
    List.Sublist c.getOperandsWithConfigInput c.operandList ∧
    List.Sublist c.getOperandsWithStreamInput c.operandList ∧
    List.Sublist c.getOperandsWithOtherInput c.operandList ∧
    List.Sublist c.getOperandsWithStreamOutput c.operandList ∧
    List.Sublist c.getOperandsWithOtherOutput c.operandList ∧
    List.Sublist c.getOptionsWithOtherOutput c.flagOptionList := by
  refine ⟨fun x => ?_, fun x => ?_, fun x => ?_, fun x => ?_, fun x => ?_, fun x => ?_, List.filter_sublist,
    List.filter_sublist, List.filter_sublist, List.filter_sublist, List.filter_sublist, List.filter_sublist⟩
  · rw [CommandInvocationWithIOVars.getOperandsWithConfigInput, List.mem_filter]
    cases x with
    | io f => cases f <;> simp [FileWithIO.access, AccessKind.isConfigInput]
    | _ => simp
  · rw [CommandInvocationWithIOVars.getOperandsWithStreamInput, List.mem_filter]
    cases x with
    | io f => cases f <;> simp [FileWithIO.access, AccessKind.isStreamInput]
    | _ => simp
  · rw [CommandInvocationWithIOVars.getOperandsWithOtherInput, List.mem_filter]
    cases x with
    | io f => cases f <;> simp [FileWithIO.access, AccessKind.isOtherInput]
    | _ => simp
  · rw [CommandInvocationWithIOVars.getOperandsWithStreamOutput, List.mem_filter]
    cases x with
    | io f => cases f <;> simp [FileWithIO.access, AccessKind.isStreamOutput]
    | _ => simp
  · rw [CommandInvocationWithIOVars.getOperandsWithOtherOutput, List.mem_filter]
    cases x with
    | io f => cases f <;> simp [FileWithIO.access, AccessKind.isOtherOutput]
    | _ => simp
  · rw [CommandInvocationWithIOVars.getOptionsWithOtherOutput, List.mem_filter]
    cases x with
    | flag n => simp
    | optionVar i n a => simp
    | optionIO n a =>
        cases a with
        | io f =>
            refine ⟨fun ⟨h1, h2⟩ => ⟨h1, n, f, rfl, by simpa [AccessKind.isOtherOutput] using h2⟩,
              fun ⟨h1, _, _, e, h2⟩ => ⟨h1, ?_⟩⟩
            cases e
            simpa [AccessKind.isOtherOutput] using h2
        | _ => simp

/-- The invocation `cat` reads the variables 1 and 2 and the queries find nothing. -/
example : (CommandInvocationWithIOVars.makeCat [1, 2] 3).getOperandsWithStreamInput = [] ∧
    (CommandInvocationWithIOVars.makeCat [1, 2] 3).generateInputs.map Prod.fst = .ok [1, 2] := by decide

/-- C84. The object returned by `generate_inputs` never refuses a question; it lists the streaming inputs, and all
inputs are the configuration inputs followed by the streaming ones. -/
theorem C84_inputs (c d : CommandInvocationWithIOVars) (i : Inputs) (h : c.generateInputsObject = .ok (i, d)) :
    ∃ conf stream, i.getConfigInputs = .ok conf ∧ i.getStreamingInputs = .ok stream ∧
      i.getAllInputs = .ok (conf ++ stream) ∧ c.generateInputs = .ok (stream, d) := by
  obtain ⟨r, hr, h⟩ := bind_ok h
  cases h
  exact ⟨[], r.1, rfl, rfl, rfl, hr⟩

/-- C84 (refuted). The configuration inputs of that object are always empty, even if a variable is a configuration
input of the invocation. -/
theorem C84_config_inputs_false :
    (∀ (c d : CommandInvocationWithIOVars) (i : Inputs), c.generateInputsObject = .ok (i, d) →
      i.getConfigInputs = .ok []) ∧
    ∃ (c d : CommandInvocationWithIOVars) (i : Inputs), c.generateInputsObject = .ok (i, d) ∧
      accessOf c 1 = some .configInput ∧ 1 ∈ occurrences c ∧ i.getAllInputs = .ok [2] := by
  constructor
  · intro c d i h
    obtain ⟨r, hr, h⟩ := bind_ok h
    cases h
    rfl
  · exact ⟨⟨"grep", [], [.var 1, .var 2], none, some 3, [(1, .configInput), (2, .streamInput), (3, .streamOutput)]⟩, _,
      ⟨.streaming, ([], [2])⟩, rfl, by decide, by decide, by decide⟩

end PashAnn
