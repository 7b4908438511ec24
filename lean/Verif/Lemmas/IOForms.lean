import Verif.Lemmas.IOInfo

/-! What each generator returns, in closed form. -/

namespace PashAnn
open Spec InputOutputInfo

/-- Operand typer of a streaming input. -/
abbrev inT : Typer := .fileStd .streamInput

/-- `some x` if the condition holds. -/
def optIf (p : Prop) [Decidable p] (x : FileWithIO) : Option FileWithIO := if p then some x else none

instance (c : CommandInvocationInitial) (n : String) : Decidable (Has c n) :=
  decidable_of_iff (containsAtLeastOneOf c [n] = true) (contains_one c n)

theorem contains_false (c : CommandInvocationInitial) (n : String) :
    containsAtLeastOneOf c [n] = false ↔ ¬ Has c n := by
  rw [← contains_one]; simp

variable (c : CommandInvocationInitial) (ts : List Typer)

/-- The information object built by the constructor. -/
abbrev init0 : InputOutputInfo := InputOutputInfo.init ts c.operandList.length

theorem form_plain (gen : IOGenerator) (h : gen = IOGen.cat ∨ gen = IOGen.cut ∨ gen = IOGen.head ∨ gen = IOGen.tail) :
    gen c (init0 c ts) = .ok ⟨ts, List.replicate c.operandList.length inT,
      optIf (c.operandList = []) stdinStream, some stdoutStream⟩ := by
  have key : ifNoOperandsGivenStdinImplicitlyUsed c (init0 c ts).setImplicitUseOfStdout =
      ⟨ts, List.replicate c.operandList.length inT,
      optIf (c.operandList = []) stdinStream, some stdoutStream⟩ := by
    cases ho : c.operandList <;>
      simp [ifNoOperandsGivenStdinImplicitlyUsed, ho, setImplicitUseOfStdin, setImplicitUseOfStdout,
        InputOutputInfo.init, optIf, stdinStream, stdoutStream]
  rcases h with rfl | rfl | rfl | rfl <;>
    simp only [IOGen.cat, IOGen.cut, IOGen.head, IOGen.tail, allOperandsAreStreamingInputs, key]

theorem form_awk_f (h : Has c "-f") :
    IOGen.awk c (init0 c ts) = .ok ⟨ts, List.replicate c.operandList.length inT,
      optIf (c.operandList = []) stdinStream, some stdoutStream⟩ := by
  cases ho : c.operandList <;>
    simp [IOGen.awk, (contains_one c _).2 h, operandListLength, ho, setImplicitUseOfStdin, setImplicitUseOfStdout,
      InputOutputInfo.init, optIf, stdinStream, stdoutStream, allOperandsAreStreamingInputs]

theorem form_awk_nil (h : ¬ Has c "-f") (ho : c.operandList = []) :
    IOGen.awk c (init0 c ts) = .error .indexError := by
  simp [IOGen.awk, (contains_false c _).2 h, ho, InputOutputInfo.init, setFirstOperandAsConfigArgTypeString,
    setImplicitUseOfStdout, setFirst, bind, Except.bind]

theorem form_awk_cons (h : ¬ Has c "-f") {o os} (ho : c.operandList = o :: os) :
    IOGen.awk c (init0 c ts) = .ok ⟨ts, .argString :: List.replicate os.length inT,
      optIf (os = []) stdinStream, some stdoutStream⟩ := by
  cases os <;>
  simp [IOGen.awk, (contains_false c _).2 h, ho, InputOutputInfo.init, setFirstOperandAsConfigArgTypeString,
    setImplicitUseOfStdout, setFirst, bind, Except.bind, operandListLength, List.replicate_succ,
    setImplicitUseOfStdin, allButFirstOperandIsStreamingInput, optIf, stdinStream, stdoutStream]

theorem contains_ef_false (h : ¬ (Has c "-e" ∨ Has c "-f")) : containsAtLeastOneOf c ["-e", "-f"] = false := by
  rw [← contains_two] at h; simpa using h

/-- The information object of grep after the output has been decided. -/
theorem grep_start : (if (!containsAtLeastOneOf c ["-q"]) = true then (init0 c ts).setImplicitUseOfStdout
    else init0 c ts) = ⟨ts, List.replicate c.operandList.length inT, none, optIf (¬ Has c "-q") stdoutStream⟩ := by
  by_cases hq : Has c "-q"
  · simp [(contains_one c _).2 hq, hq, optIf, InputOutputInfo.init]
  · simp [(contains_false c _).2 hq, hq, optIf, InputOutputInfo.init, setImplicitUseOfStdout, stdoutStream]

theorem form_grep_ef (h : Has c "-e" ∨ Has c "-f") :
    IOGen.grep c (init0 c ts) = .ok ⟨ts, List.replicate c.operandList.length inT,
      optIf (c.operandList = []) stdinStream, optIf (¬ Has c "-q") stdoutStream⟩ := by
  unfold IOGen.grep
  rw [grep_start]
  cases ho : c.operandList <;>
    simp [(contains_two c _ _).2 h, operandListLength, ho, setImplicitUseOfStdin,
      optIf, stdinStream, stdoutStream, allOperandsAreStreamingInputs]

theorem form_grep_nil (h : ¬ (Has c "-e" ∨ Has c "-f")) (ho : c.operandList = []) :
    IOGen.grep c (init0 c ts) = .error .indexError := by
  unfold IOGen.grep
  rw [grep_start]
  simp [contains_ef_false c h, ho, setFirstOperandAsConfigArgTypeString, setFirst, bind, Except.bind]

theorem form_grep_cons (h : ¬ (Has c "-e" ∨ Has c "-f")) {o os} (ho : c.operandList = o :: os) :
    IOGen.grep c (init0 c ts) = .ok ⟨ts, .argString :: List.replicate os.length inT,
      optIf (os = []) stdinStream, optIf (¬ Has c "-q") stdoutStream⟩ := by
  unfold IOGen.grep
  rw [grep_start]
  cases os <;>
  simp [contains_ef_false c h, ho, setFirstOperandAsConfigArgTypeString,
    setFirst, bind, Except.bind, operandListLength, List.replicate_succ,
    setImplicitUseOfStdin, allButFirstOperandIsStreamingInput, optIf, stdinStream]

theorem form_sed_ef (h : Has c "-e" ∨ Has c "-f") :
    IOGen.sed c (init0 c ts) = .ok ⟨ts, List.replicate c.operandList.length inT,
      some stdinStream, some stdoutStream⟩ := by
  simp [IOGen.sed, (contains_two c _ _).2 h, setImplicitUseOfStdin, setImplicitUseOfStdout, InputOutputInfo.init,
    allOperandsAreStreamingInputs, stdinStream, stdoutStream]

theorem form_sed_nil (h : ¬ (Has c "-e" ∨ Has c "-f")) (ho : c.operandList = []) :
    IOGen.sed c (init0 c ts) = .error .indexError := by
  simp [IOGen.sed, contains_ef_false c h, ho, InputOutputInfo.init, setFirstOperandAsConfigArgTypeString,
    setImplicitUseOfStdout, setImplicitUseOfStdin, setFirst, bind, Except.bind]

theorem form_sed_cons (h : ¬ (Has c "-e" ∨ Has c "-f")) {o os} (ho : c.operandList = o :: os) :
    IOGen.sed c (init0 c ts) = .ok ⟨ts, .argString :: List.replicate os.length inT,
      some stdinStream, some stdoutStream⟩ := by
  simp [IOGen.sed, contains_ef_false c h, ho, InputOutputInfo.init, setFirstOperandAsConfigArgTypeString,
    setImplicitUseOfStdout, setFirst, bind, Except.bind, List.replicate_succ,
    setImplicitUseOfStdin, allButFirstOperandIsStreamingInput, stdinStream, stdoutStream]

theorem form_comm (h : c.operandList.length = 2) :
    IOGen.comm c (init0 c ts) = .ok ⟨ts, List.replicate c.operandList.length inT, none, some stdoutStream⟩ := by
  simp [IOGen.comm, operandListLength, h, pyAssert, bind, Except.bind, setImplicitUseOfStdout, InputOutputInfo.init,
    allOperandsAreStreamingInputs, stdoutStream]

theorem form_comm_ne (h : c.operandList.length ≠ 2) :
    IOGen.comm c (init0 c ts) = .error .assertionError := by
  simp [IOGen.comm, operandListLength, h, pyAssert, bind, Except.bind]

theorem form_setDiff (h : c.operandList.length = 1) :
    IOGen.setDiff c (init0 c ts) = .ok ⟨ts, [.fileStd .configInput], some stdinStream, some stdoutStream⟩ := by
  simp [IOGen.setDiff, operandListLength, h, pyAssert, bind, Except.bind, setImplicitUseOfStdout,
    setImplicitUseOfStdin, InputOutputInfo.init, stdoutStream, stdinStream,
    setFirstOperandAsConfigArgTypeFilenameOrStdDescriptor, setFirst]

theorem form_setDiff_ne (h : c.operandList.length ≠ 1) :
    IOGen.setDiff c (init0 c ts) = .error .assertionError := by
  simp [IOGen.setDiff, operandListLength, h, pyAssert, bind, Except.bind]

theorem form_sort (gen : IOGenerator) (h : gen = IOGen.sort ∨ gen = IOGen.customSort) :
    gen c (init0 c ts) = .ok ⟨ts, List.replicate c.operandList.length inT,
      optIf (c.operandList = [] ∧ ¬ Has c "--files0-from") stdinStream,
      optIf (¬ Has c "-o") stdoutStream⟩ := by
  have hs : IOGen.customSort = IOGen.sort := rfl
  have hg : gen = IOGen.sort := by rcases h with rfl | rfl <;> rfl
  subst hg
  by_cases h1 : Has c "-o" <;> by_cases h2 : Has c "--files0-from" <;> cases ho : c.operandList <;>
    simp [IOGen.sort, (contains_one c _).2, (contains_false c _).2, h1, h2, operandListLength, ho,
      setImplicitUseOfStdin, setImplicitUseOfStdout, InputOutputInfo.init, optIf, stdinStream, stdoutStream,
      allOperandsAreStreamingInputs]

theorem form_mv_no (h : count c "-t" = 0) {os o} (ho : c.operandList = os ++ [o]) :
    IOGen.mv c (init0 c ts) = .ok ⟨ts, List.replicate os.length (.fileStd .otherInput) ++ [.fileStd .otherOutput],
      none, none⟩ := by
  have hl : (List.replicate os.length inT ++ [inT]).getLast? = some inT := by simp
  have h1 : List.replicate (os.length + 1) inT = List.replicate os.length inT ++ [inT] := by
    rw [List.replicate_succ']
  have hset : ∀ (l : List Typer) (x y : Typer), setLast (l ++ [x]) y = .ok (l ++ [y]) := by
    intro l x y
    cases hc : l ++ [x] with
    | nil => simp at hc
    | cons a r =>
        simp only [setLast]
        rw [← hc]; simp
  have h2 : ∀ x : Typer, List.replicate (os.length + 1) x = List.replicate os.length x ++ [x] := by
    intro x; rw [List.replicate_succ']
  simp [IOGen.mv, filtered_length, h, ho, InputOutputInfo.init, allButLastOperandIsOtherInput, getLast, h2, hset,
    bind, Except.bind, allOperandsAreOtherInputs, onlyLastOperandIsOtherOutput]

theorem form_mv_nil (h : count c "-t" = 0) (ho : c.operandList = []) :
    IOGen.mv c (init0 c ts) = .error .indexError := by
  simp [IOGen.mv, filtered_length, h, ho, InputOutputInfo.init, allButLastOperandIsOtherInput, getLast,
    bind, Except.bind]

theorem form_mv_t (h : count c "-t" = 1) :
    IOGen.mv c (init0 c ts) = .ok ⟨ts, List.replicate c.operandList.length (.fileStd .otherInput), none, none⟩ := by
  simp [IOGen.mv, filtered_length, h, InputOutputInfo.init, allOperandsAreOtherInputs]

theorem form_mv_tt (h : count c "-t" ≥ 2) :
    IOGen.mv c (init0 c ts) = .error (.exception "multiple -t options defined for mv") := by
  have h0 : count c "-t" ≠ 0 := by omega
  have h1 : count c "-t" ≠ 1 := by omega
  simp [IOGen.mv, filtered_length, h0, h1]

theorem form_uniq_0 (h : c.operandList = []) :
    IOGen.uniq c (init0 c ts) = .ok ⟨ts, [], some stdinStream, some stdoutStream⟩ := by
  simp [IOGen.uniq, operandListLength, h, setImplicitUseOfStdin, setImplicitUseOfStdout, InputOutputInfo.init,
    stdinStream, stdoutStream]

theorem form_uniq_1 {o} (h : c.operandList = [o]) :
    IOGen.uniq c (init0 c ts) = .ok ⟨ts, [inT], none, some stdoutStream⟩ := by
  simp [IOGen.uniq, operandListLength, h, setImplicitUseOfStdout, InputOutputInfo.init,
    stdoutStream, allOperandsAreStreamingInputs]

theorem form_uniq_2 {o o'} (h : c.operandList = [o, o']) :
    IOGen.uniq c (init0 c ts) = .ok ⟨ts, [inT, .fileStd .streamOutput], none, none⟩ := by
  simp [IOGen.uniq, operandListLength, h, InputOutputInfo.init, allButLastOperandIsStreamingInput,
    onlyLastOperandIsStreamOutput, List.replicate, setLast, bind, Except.bind]

theorem form_uniq_3 (h : c.operandList.length > 2) :
    IOGen.uniq c (init0 c ts) = .error (.exception "extra operand for uniq, the 3rd one") := by
  have h0 : c.operandList.length ≠ 0 := by omega
  have h1 : c.operandList.length ≠ 1 := by omega
  have h2 : c.operandList.length ≠ 2 := by omega
  unfold IOGen.uniq operandListLength
  rw [if_neg h0, if_neg h1, if_neg h2]

theorem form_wc (h : ¬ Has c "--files0-from") :
    IOGen.wc c (init0 c ts) = .ok ⟨ts, List.replicate c.operandList.length inT,
      optIf (c.operandList = []) stdinStream, some stdoutStream⟩ := by
  cases ho : c.operandList <;>
    simp [IOGen.wc, (contains_false c _).2 h, operandListLength, ho, setImplicitUseOfStdin, setImplicitUseOfStdout,
      InputOutputInfo.init, optIf, stdinStream, stdoutStream, allOperandsAreStreamingInputs]

theorem form_wc_files0 (h : Has c "--files0-from") :
    IOGen.wc c (init0 c ts) = .error (.exception "wc with --files0-from is considered side-effectful for now") := by
  simp [IOGen.wc, (contains_one c _).2 h]

theorem form_std (gen : IOGenerator) (h : gen = IOGen.altBigramsAux ∨ gen = IOGen.bigramsAux ∨ gen = IOGen.col ∨
    gen = IOGen.testOne ∨ gen = IOGen.testTwo) :
    gen c (init0 c ts) = .ok ⟨ts, List.replicate c.operandList.length inT, some stdinStream, some stdoutStream⟩ := by
  rcases h with rfl | rfl | rfl | rfl | rfl <;> rfl

theorem form_strings (gen : IOGenerator) (h : gen = IOGen.tr ∨ gen = IOGen.customTr ∨ gen = IOGen.xargs) :
    gen c (init0 c ts) = .ok ⟨ts, List.replicate c.operandList.length .argString, some stdinStream,
      some stdoutStream⟩ := by
  rcases h with rfl | rfl | rfl <;>
    simp [IOGen.tr, IOGen.customTr, IOGen.xargs, setAllOperandsAsConfigArgTypeString, setImplicitUseOfStdin,
      setImplicitUseOfStdout, InputOutputInfo.init, stdinStream, stdoutStream]

theorem form_seq : IOGen.seq c (init0 c ts) = .ok ⟨ts, List.replicate c.operandList.length .argString, none,
      some stdoutStream⟩ := by
  simp [IOGen.seq, setAllOperandsAsConfigArgTypeString, setImplicitUseOfStdout, InputOutputInfo.init, stdoutStream]

theorem form_rm (gen : IOGenerator) (h : gen = IOGen.rm ∨ gen = IOGen.mkfifo) :
    gen c (init0 c ts) = .ok ⟨ts, List.replicate c.operandList.length (.fileStd .otherOutput), none, none⟩ := by
  rcases h with rfl | rfl <;> simp [IOGen.rm, IOGen.mkfifo, allOperandsAreOtherOutputs, InputOutputInfo.init]

theorem form_tee : IOGen.tee c (init0 c ts) = .ok ⟨ts, List.replicate c.operandList.length (.fileStd .streamOutput),
      some stdinStream, some stdoutStream⟩ := by
  simp [IOGen.tee, allOperandsAreStreamingOutputs, setImplicitUseOfStdin, setImplicitUseOfStdout,
    InputOutputInfo.init, stdinStream, stdoutStream]

theorem form_out (gen : IOGenerator) (h : gen = IOGen.diff ∨ gen = IOGen.altBigramAuxReduce) :
    gen c (init0 c ts) = .ok ⟨ts, List.replicate c.operandList.length inT, none, some stdoutStream⟩ := by
  rcases h with rfl | rfl <;> rfl

theorem list_snoc {α : Type} (l : List α) (h : l ≠ []) : ∃ os o, l = os ++ [o] :=
  ⟨l.dropLast, l.getLast h, (List.dropLast_concat_getLast h).symm⟩

/-- When a generator raises. -/
theorem gen_refused {gen : IOGenerator} (hg : (c.cmdName, gen) ∈ ioTable) :
    (∃ e, gen c (init0 c ts) = .error e) ↔ RefusedUsage c := by
  simp only [ioTable, List.mem_cons, Prod.mk.injEq, List.not_mem_nil, or_false] at hg
  rcases hg with ⟨hn, rfl⟩ | ⟨hn, rfl⟩ | ⟨hn, rfl⟩ | ⟨hn, rfl⟩ | ⟨hn, rfl⟩ | ⟨hn, rfl⟩ | ⟨hn, rfl⟩ |
    ⟨hn, rfl⟩ | ⟨hn, rfl⟩ | ⟨hn, rfl⟩ | ⟨hn, rfl⟩ | ⟨hn, rfl⟩ | ⟨hn, rfl⟩ | ⟨hn, rfl⟩ | ⟨hn, rfl⟩ |
    ⟨hn, rfl⟩ | ⟨hn, rfl⟩ | ⟨hn, rfl⟩ | ⟨hn, rfl⟩ | ⟨hn, rfl⟩ | ⟨hn, rfl⟩ | ⟨hn, rfl⟩ | ⟨hn, rfl⟩ |
    ⟨hn, rfl⟩ | ⟨hn, rfl⟩ | ⟨hn, rfl⟩ | ⟨hn, rfl⟩ | ⟨hn, rfl⟩
  all_goals simp only [RefusedUsage, hn, String.reduceEq, false_and, true_and, or_false, false_or]
  · rw [form_std c ts IOGen.altBigramsAux (by simp)]; simp
  · rw [form_out c ts IOGen.altBigramAuxReduce (by simp)]; simp
  · by_cases h : Has c "-f"
    · rw [form_awk_f c ts h]; simp [h]
    · cases ho : c.operandList with
      | nil => rw [form_awk_nil c ts h ho]; simp [h]
      | cons o os => rw [form_awk_cons c ts h ho]; simp
  · rw [form_std c ts IOGen.bigramsAux (by simp)]; simp
  · rw [form_plain c ts IOGen.cat (by simp)]; simp
  · rw [form_std c ts IOGen.col (by simp)]; simp
  · by_cases h : c.operandList.length = 2
    · rw [form_comm c ts h]; simp [h]
    · rw [form_comm_ne c ts h]; simp [h]
  · rw [form_sort c ts IOGen.customSort (by simp)]; simp
  · rw [form_strings c ts IOGen.customTr (by simp)]; simp
  · rw [form_plain c ts IOGen.cut (by simp)]; simp
  · rw [form_out c ts IOGen.diff (by simp)]; simp
  · by_cases h : Has c "-e" ∨ Has c "-f"
    · rw [form_grep_ef c ts h]; rcases h with h | h <;> simp [h]
    · cases ho : c.operandList with
      | nil => rw [form_grep_nil c ts h ho]; rw [not_or] at h; simp [h]
      | cons o os => rw [form_grep_cons c ts h ho]; simp
  · rw [form_plain c ts IOGen.head (by simp)]; simp
  · rw [form_rm c ts IOGen.mkfifo (by simp)]; simp
  · rcases Nat.lt_trichotomy (count c "-t") 1 with h | h | h
    · have h0 : count c "-t" = 0 := by omega
      by_cases ho : c.operandList = []
      · rw [form_mv_nil c ts h0 ho]; simp [h0, ho]
      · obtain ⟨os, o, hos⟩ := list_snoc _ ho
        rw [form_mv_no c ts h0 hos]; simp [h0, hos]
    · rw [form_mv_t c ts h]; simp [h]
    · rw [form_mv_tt c ts h]
      have : 2 ≤ count c "-t" := h
      simp [this]
  · rw [form_rm c ts IOGen.rm (by simp)]; simp
  · by_cases h : Has c "-e" ∨ Has c "-f"
    · rw [form_sed_ef c ts h]; rcases h with h | h <;> simp [h]
    · cases ho : c.operandList with
      | nil => rw [form_sed_nil c ts h ho]; rw [not_or] at h; simp [h]
      | cons o os => rw [form_sed_cons c ts h ho]; simp
  · by_cases h : c.operandList.length = 1
    · rw [form_setDiff c ts h]; simp [h]
    · rw [form_setDiff_ne c ts h]; simp [h]
  · rw [form_seq c ts]; simp
  · rw [form_sort c ts IOGen.sort (by simp)]; simp
  · rw [form_plain c ts IOGen.tail (by simp)]; simp
  · rw [form_tee c ts]; simp
  · rw [form_std c ts IOGen.testOne (by simp)]; simp
  · rw [form_std c ts IOGen.testTwo (by simp)]; simp
  · rw [form_strings c ts IOGen.tr (by simp)]; simp
  · match ho : c.operandList with
    | [] => rw [form_uniq_0 c ts ho]; simp
    | [o] => rw [form_uniq_1 c ts ho]; simp
    | [o, o'] => rw [form_uniq_2 c ts ho]; simp
    | o :: o' :: o'' :: os => rw [form_uniq_3 c ts (by simp [ho])]; simp
  · by_cases h : Has c "--files0-from"
    · rw [form_wc_files0 c ts h]; simp [h]
    · rw [form_wc c ts h]; simp [h]
  · rw [form_strings c ts IOGen.xargs (by simp)]; simp

end PashAnn
