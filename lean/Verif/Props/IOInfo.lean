import Verif.Lemmas.Typed

/-! Properties C13 to C27: typing of invocations and input-output information. Specification: `Spec/IO.lean`. -/

namespace PashAnn
open Spec

/-- C13. The options of a parsed invocation can always be typed, one typer per flag or option, and an option's
typer is the class its database entry declares; that class is unique. -/
theorem C13_options_typed (s : String) (inv : CommandInvocationInitial) (h : parse s = .ok inv) :
    ∃ ts d, flagoptionListTyper inv = .ok ts ∧ DatabaseFor inv.cmdName d ∧
      ts.length = inv.flagOptionList.length ∧
      ∀ (k : Nat) (fo : FlagOption), inv.flagOptionList[k]? = some fo →
        ∃ t, ts[k]? = some t ∧ FlagOptionClass d fo t ∧ ∀ t', FlagOptionClass d fo t' → t' = t := by
  obtain ⟨hp, hk⟩ := parse_optionsKnown h
  obtain ⟨ts, hts⟩ := typers_ok hp hk
  obtain ⟨d, hd⟩ := databaseFor_exists inv.cmdName
  obtain ⟨_, _, hl, hcls⟩ := typers_spec hts
  refine ⟨ts, d, hts, hd, hl, fun k fo hfo => ?_⟩
  obtain ⟨t, ht, hc⟩ := hcls d hd k fo hfo
  refine ⟨t, ht, hc, fun t' hc' => ?_⟩
  cases hc with
  | flag => cases hc'; rfl
  | option he ha =>
      cases hc' with
      | option he' ha' =>
          rw [optionEntry_unique (databaseFor_shipped hd) he' he] at ha'
          exact argClass_unique ha' ha

example : ∃ inv, parse "sort -r -o out -k 2 -T /tmp x" = .ok inv ∧ flagoptionListTyper inv =
    .ok [.plainString, .fileStd .streamOutput, .argString, .fileStd .otherOutput] :=
  ⟨⟨"sort", [.flag "-r", .option "-o" "out", .option "-k" "2", .option "-T" "/tmp"], ["x"]⟩, by decide +kernel⟩

/-- C14. Applying input-output information never fails and keeps the name, every flag, every option with its
argument text and every operand text, in order. (No assumption that the invocation was parsed.) -/
theorem C14_typing_preserves (inv : CommandInvocationInitial) (i : InputOutputInfo)
    (h : getInputOutputInfo inv = some i) :
    ∃ c, i.apply inv = .ok c ∧ c.cmdName = inv.cmdName ∧
      c.flagOptionList.map untyped = inv.flagOptionList ∧ c.operandList.map textOf = inv.operandList := by
  obtain ⟨ts, hts, hs⟩ := getIO_shape h
  refine ⟨_, getIO_apply h, rfl, ?_, ?_⟩
  · rw [hs.flags]
    exact map_zipWith_id _ _ untyped_typed _ _ (typers_spec hts).2.2.1
  · exact map_zipWith_id _ _ (fun s t => textOf_typedArg t s) _ _ hs.length

example : ∃ c i, parse "grep -f pats -v - f" = .ok c ∧ getInputOutputInfo c = some i ∧ i.apply c =
    .ok ⟨"grep", [.option "-f" (.io (.file "pats" .configInput)), .flag "-v"],
      [.io (.std .stdin .streamInput), .io (.file "f" .streamInput)], none, some stdoutStream⟩ :=
  ⟨⟨"grep", [.option "-f" "pats", .flag "-v"], ["-", "f"]⟩,
   ⟨[.fileStd .configInput, .plainString], [.fileStd .streamInput, .fileStd .streamInput], none,
     some stdoutStream⟩, by decide +kernel⟩

/-- C15. A file argument is standard input iff its text is `-` and its access is an input, standard output iff
its text is `-` and its access is an output, and else the file of that name; it has the declared access. -/
theorem C15_dash (s : String) (a : AccessKind) : ∃ f, InputOutputInfo.applyTyperToArg s (.fileStd a) = .ok (.io f) ∧
    f.access = a ∧
    (f = .std .stdin a ↔ s = "-" ∧ a ∉ [AccessKind.streamOutput, .otherOutput]) ∧
    (f = .std .stdout a ↔ s = "-" ∧ a ∈ [AccessKind.streamOutput, .otherOutput]) ∧
    (f = .file s a ↔ s ≠ "-") ∧ f ≠ .std .stderr a := by
  refine ⟨fileOf a s, applyTyperToArg_eq s (.fileStd a) (by simp), ?_⟩
  unfold fileOf
  by_cases h : s = "-"
  · subst h; cases a <;> simp [FileWithIO.access]
  · simp [h, FileWithIO.access]

/-- C15, in a typed invocation: operand `k` is a configuration string or the file or stream just described. -/
theorem C15_operand (inv : CommandInvocationInitial) (c : CommandInvocationWithIO) (h : Typed inv c) (k : Nat)
    (s : String) (hk : inv.operandList[k]? = some s) :
    c.operandList[k]? = some (.argString s) ∨ ∃ a, c.operandList[k]? = some (.io (fileOf a s)) := by
  obtain ⟨i, hi, ha⟩ := h
  obtain ⟨ts, hts, hs⟩ := getIO_shape hi
  rw [getIO_apply hi] at ha
  cases ha
  have hkl : k < i.operandListTyper.length := by
    have := (List.getElem?_eq_some_iff.1 hk).1; rw [hs.length]; exact this
  simp only [List.getElem?_zipWith, hk, List.getElem?_eq_getElem hkl]
  cases i.operandListTyper[k] with
  | fileStd a => exact .inr ⟨a, rfl⟩
  | argString => exact .inl rfl
  | plainString => exact .inl rfl

/-- C16. Input and output partition the access kinds, the seven named predicates are true of exactly one kind
each, and the seven texts map one to one onto the kinds while every other text is rejected. -/
theorem C16_partition (a : AccessKind) :
    (a.isAnyInput = !a.isAnyOutput) ∧
    ((if a.isConfigInput then 1 else 0) + (if a.isStreamInput then 1 else 0) +
      (if a.isContainerForInput then 1 else 0) + (if a.isExcludesFromInput then 1 else 0) +
      (if a.isOtherInput then 1 else 0) + (if a.isStreamOutput then 1 else 0) +
      (if a.isOtherOutput then 1 else 0) = 1) ∧
    ∃ s, AccessKind.ofString s = .ok a ∧ ∀ s', AccessKind.ofString s' = .ok a → s' = s := by
  refine ⟨by cases a <;> rfl, by cases a <;> rfl, ?_⟩
  cases a
  · exact ⟨"CONFIG_INPUT", by decide +kernel, fun s' h => by rw [ofString_iff] at h; simpa using h⟩
  · exact ⟨"STREAM_INPUT", by decide +kernel, fun s' h => by rw [ofString_iff] at h; simpa using h⟩
  · exact ⟨"CONTAINER_FOR_INPUT", by decide +kernel, fun s' h => by rw [ofString_iff] at h; simpa using h⟩
  · exact ⟨"EXCLUDES_FROM_INPUT", by decide +kernel, fun s' h => by rw [ofString_iff] at h; simpa using h⟩
  · exact ⟨"OTHER_INPUT", by decide +kernel, fun s' h => by rw [ofString_iff] at h; simpa using h⟩
  · exact ⟨"STREAM_OUTPUT", by decide +kernel, fun s' h => by rw [ofString_iff] at h; simpa using h⟩
  · exact ⟨"OTHER_OUTPUT", by decide +kernel, fun s' h => by rw [ofString_iff] at h; simpa using h⟩

theorem C16_names (s : String) (a : AccessKind) : AccessKind.ofString s = .ok a ↔ (s, a) ∈
    [("CONFIG_INPUT", AccessKind.configInput), ("STREAM_INPUT", .streamInput),
     ("CONTAINER_FOR_INPUT", .containerForInput), ("EXCLUDES_FROM_INPUT", .excludesFromInput),
     ("OTHER_INPUT", .otherInput), ("STREAM_OUTPUT", .streamOutput), ("OTHER_OUTPUT", .otherOutput)] :=
  ofString_iff s a

/-- C16: each predicate holds of exactly its own kind. -/
theorem C16_predicates (a : AccessKind) :
    (a.isConfigInput ↔ a = .configInput) ∧ (a.isStreamInput ↔ a = .streamInput) ∧
    (a.isContainerForInput ↔ a = .containerForInput) ∧ (a.isExcludesFromInput ↔ a = .excludesFromInput) ∧
    (a.isOtherInput ↔ a = .otherInput) ∧ (a.isStreamOutput ↔ a = .streamOutput) ∧
    (a.isOtherOutput ↔ a = .otherOutput) ∧ (a.isAnyOutput ↔ a = .streamOutput ∨ a = .otherOutput) := by
  cases a <;> decide

example : AccessKind.ofString "stream_input" = .error (.exception "unknown option for access kind") := by
  decide +kernel

/-- C17. The warning is raised iff the typed invocation has an option argument or operand with other-output
access. -/
theorem C17_warning_exact (inv : CommandInvocationInitial) (i : InputOutputInfo) (c : CommandInvocationWithIO)
    (h : getInputOutputInfo inv = some i) (hc : i.apply inv = .ok c) :
    i.hasOtherOutputs = true ↔ WritesElsewhere c := by
  obtain ⟨ts, hts, hs⟩ := getIO_shape h
  rw [getIO_apply h] at hc
  cases hc
  rw [hasOtherOutputs_iff]
  unfold WritesElsewhere
  rw [operand_access_iff hs.length, hs.flags]
  refine or_congr ?_ Iff.rfl
  obtain ⟨_, _, hl, hcls⟩ := typers_spec hts
  obtain ⟨d, hd⟩ := databaseFor_exists inv.cmdName
  constructor
  · intro hm
    obtain ⟨k, hk⟩ := List.mem_iff_getElem?.1 hm
    have hkl : k < inv.flagOptionList.length := by
      have := (List.getElem?_eq_some_iff.1 hk).1; omega
    have hfo := List.getElem?_eq_getElem hkl
    obtain ⟨t, ht, hcl⟩ := hcls d hd k _ hfo
    rw [hk] at ht; cases ht
    generalize inv.flagOptionList[k] = fo at hcl hfo
    cases hcl with
    | option he ha =>
        exact ⟨_, _, (mem_zipWith_iff _ _ _ _).2 ⟨k, _, _, hfo, hk, rfl⟩, (hasAccess_typedArg _ _ _).2 rfl⟩
  · rintro ⟨n, arg, hm, ha⟩
    obtain ⟨k, fo, t, hfo, ht, he⟩ := (mem_zipWith_iff _ _ _ _).1 hm
    cases fo with
    | flag m => cases he
    | option m a =>
        cases he
        rw [hasAccess_typedArg] at ha; subst ha
        exact List.mem_of_getElem? ht

example : ∃ c i, parse "sort -T /tmp f" = .ok c ∧ getInputOutputInfo c = some i ∧ i.hasOtherOutputs = true :=
  ⟨⟨"sort", [.option "-T" "/tmp"], ["f"]⟩, ⟨[.fileStd .otherOutput], [.fileStd .streamInput], none,
    some stdoutStream⟩, by decide +kernel⟩
example : ∃ c i, parse "sort -o /tmp f" = .ok c ∧ getInputOutputInfo c = some i ∧ i.hasOtherOutputs = false :=
  ⟨⟨"sort", [.option "-o" "/tmp"], ["f"]⟩, ⟨[.fileStd .streamOutput], [.fileStd .streamInput], none,
    none⟩, by decide +kernel⟩

/-- C18. Which parsed invocations report other outputs. -/
theorem C18_other_outputs (s : String) (inv : CommandInvocationInitial) (i : InputOutputInfo)
    (hs : parse s = .ok inv) (h : getInputOutputInfo inv = some i) :
    i.hasOtherOutputs = true ↔ inv.cmdName = "mv" ∨
      ((inv.cmdName = "rm" ∨ inv.cmdName = "mkfifo") ∧ inv.operandList ≠ []) ∨
      (inv.cmdName = "sort" ∧ Has inv "-T") := by
  obtain ⟨gen, ts, hm, hts, hg⟩ := getIO_some.1 h
  have hsh := gen_shape hm (.init ts _) hg
  rw [hasOtherOutputs_iff, hsh.flags, otherOutput_flags (ioTable_no_slash hm) hts]
  have hopt := mv_t_option hs
  have hT : inv.cmdName = "sort" → (Has inv "-T" ↔ ∃ a, .option "-T" a ∈ inv.flagOptionList) :=
    fun hn => ⟨hopt.2 hn, fun h => .inr h⟩
  have rep : ∀ n a, (Typer.fileStd .otherOutput ∈ List.replicate n (.fileStd a)) ↔ n ≠ 0 ∧ a = .otherOutput := by
    intro n a; rw [List.mem_replicate]; simp [eq_comm]
  have rep' : ∀ n, ¬ (Typer.fileStd .otherOutput ∈ List.replicate n .argString) := by
    intro n; rw [List.mem_replicate]; simp
  have optIf' : ∀ o, (inv.operandList = o → inv.operandList.length = o.length) := by rintro _ rfl; rfl
  simp only [ioTable, List.mem_cons, Prod.mk.injEq, List.not_mem_nil, or_false] at hm
  rcases hm with ⟨hn, rfl⟩ | ⟨hn, rfl⟩ | ⟨hn, rfl⟩ | ⟨hn, rfl⟩ | ⟨hn, rfl⟩ | ⟨hn, rfl⟩ | ⟨hn, rfl⟩ |
    ⟨hn, rfl⟩ | ⟨hn, rfl⟩ | ⟨hn, rfl⟩ | ⟨hn, rfl⟩ | ⟨hn, rfl⟩ | ⟨hn, rfl⟩ | ⟨hn, rfl⟩ | ⟨hn, rfl⟩ |
    ⟨hn, rfl⟩ | ⟨hn, rfl⟩ | ⟨hn, rfl⟩ | ⟨hn, rfl⟩ | ⟨hn, rfl⟩ | ⟨hn, rfl⟩ | ⟨hn, rfl⟩ | ⟨hn, rfl⟩ |
    ⟨hn, rfl⟩ | ⟨hn, rfl⟩ | ⟨hn, rfl⟩ | ⟨hn, rfl⟩ | ⟨hn, rfl⟩
  all_goals simp only [hn, String.reduceEq, false_and, true_and, or_false, false_or]
  · rw [form_std inv ts IOGen.altBigramsAux (by simp)] at hg; cases hg; simp [rep]
  · rw [form_out inv ts IOGen.altBigramAuxReduce (by simp)] at hg; cases hg; simp [rep]
  · by_cases hh : Has inv "-f"
    · rw [form_awk_f inv ts hh] at hg; cases hg; simp [rep]
    · cases ho : inv.operandList with
      | nil => rw [form_awk_nil inv ts hh ho] at hg; cases hg
      | cons o os => rw [form_awk_cons inv ts hh ho] at hg; cases hg; simp [rep]
  · rw [form_std inv ts IOGen.bigramsAux (by simp)] at hg; cases hg; simp [rep]
  · rw [form_plain inv ts IOGen.cat (by simp)] at hg; cases hg; simp [rep]
  · rw [form_std inv ts IOGen.col (by simp)] at hg; cases hg; simp [rep]
  · by_cases hh : inv.operandList.length = 2
    · rw [form_comm inv ts hh] at hg; cases hg; simp [rep]
    · rw [form_comm_ne inv ts hh] at hg; cases hg
  · rw [form_sort inv ts IOGen.customSort (by simp)] at hg; cases hg; simp [rep]
  · rw [form_strings inv ts IOGen.customTr (by simp)] at hg; cases hg; simp [rep']
  · rw [form_plain inv ts IOGen.cut (by simp)] at hg; cases hg; simp [rep]
  · rw [form_out inv ts IOGen.diff (by simp)] at hg; cases hg; simp [rep]
  · by_cases hh : Has inv "-e" ∨ Has inv "-f"
    · rw [form_grep_ef inv ts hh] at hg; cases hg; simp [rep]
    · cases ho : inv.operandList with
      | nil => rw [form_grep_nil inv ts hh ho] at hg; cases hg
      | cons o os => rw [form_grep_cons inv ts hh ho] at hg; cases hg; simp [rep]
  · rw [form_plain inv ts IOGen.head (by simp)] at hg; cases hg; simp [rep]
  · rw [form_rm inv ts IOGen.mkfifo (by simp)] at hg; cases hg; simp [rep]
  · rw [iff_true]
    by_cases hh : Has inv "-t"
    · exact .inl (hopt.1 hn hh)
    · have h0 := (count_zero_iff inv "-t").2 hh
      by_cases ho : inv.operandList = []
      · rw [form_mv_nil inv ts h0 ho] at hg; cases hg
      · obtain ⟨os, o, hos⟩ := list_snoc _ ho
        rw [form_mv_no inv ts h0 hos] at hg; cases hg; simp
  · rw [form_rm inv ts IOGen.rm (by simp)] at hg; cases hg; simp [rep]
  · by_cases hh : Has inv "-e" ∨ Has inv "-f"
    · rw [form_sed_ef inv ts hh] at hg; cases hg; simp [rep]
    · cases ho : inv.operandList with
      | nil => rw [form_sed_nil inv ts hh ho] at hg; cases hg
      | cons o os => rw [form_sed_cons inv ts hh ho] at hg; cases hg; simp [rep]
  · by_cases hh : inv.operandList.length = 1
    · rw [form_setDiff inv ts hh] at hg; cases hg; simp
    · rw [form_setDiff_ne inv ts hh] at hg; cases hg
  · rw [form_seq inv ts] at hg; cases hg; simp [rep']
  · rw [form_sort inv ts IOGen.sort (by simp)] at hg; cases hg; simp [rep, hT hn]
  · rw [form_plain inv ts IOGen.tail (by simp)] at hg; cases hg; simp [rep]
  · rw [form_tee inv ts] at hg; cases hg; simp [rep]
  · rw [form_std inv ts IOGen.testOne (by simp)] at hg; cases hg; simp [rep]
  · rw [form_std inv ts IOGen.testTwo (by simp)] at hg; cases hg; simp [rep]
  · rw [form_strings inv ts IOGen.tr (by simp)] at hg; cases hg; simp [rep']
  · match ho : inv.operandList with
    | [] => rw [form_uniq_0 inv ts ho] at hg; cases hg; simp
    | [o] => rw [form_uniq_1 inv ts ho] at hg; cases hg; simp
    | [o, o'] => rw [form_uniq_2 inv ts ho] at hg; cases hg; simp
    | o :: o' :: o'' :: os => rw [form_uniq_3 inv ts (by simp [ho])] at hg; cases hg
  · by_cases hh : Has inv "--files0-from"
    · rw [form_wc_files0 inv ts hh] at hg; cases hg
    · rw [form_wc inv ts hh] at hg; cases hg; simp [rep]
  · rw [form_strings inv ts IOGen.xargs (by simp)] at hg; cases hg; simp [rep']

/-- C19, input-output part, for every invocation, hand-built or parsed: the look-up gives no information
exactly if the command has no generator, an option is unknown, or the usage is refused. -/
theorem C19_io_lookup (inv : CommandInvocationInitial) :
    getInputOutputInfo inv = none ↔ inv.cmdName ∉ ioCommands ∨ ¬ OptionsKnown inv ∨ RefusedUsage inv := by
  rw [mem_ioCommands]
  constructor
  · intro h
    by_cases hg : ∃ gen, (inv.cmdName, gen) ∈ ioTable
    · obtain ⟨gen, hg⟩ := hg
      by_cases hk : OptionsKnown inv
      · obtain ⟨ts, hts⟩ := typers_ok (ioTable_plain hg) hk
        refine .inr (.inr ((gen_refused inv ts hg).1 ?_))
        cases hr : gen inv (init0 inv ts) with
        | error e => exact ⟨e, rfl⟩
        | ok i => rw [getIO_some.2 ⟨gen, ts, hg, hts, hr⟩] at h; cases h
      · exact .inr (.inl hk)
    · exact .inl hg
  · intro h
    cases hi : getInputOutputInfo inv with
    | none => rfl
    | some i =>
        obtain ⟨gen, ts, hm, hts, hg⟩ := getIO_some.1 hi
        rcases h with h | h | h
        · exact absurd ⟨gen, hm⟩ h
        · exact absurd (typers_spec hts).2.1 h
        · obtain ⟨e, he⟩ := (gen_refused inv ts hm).2 h
          rw [hg] at he; cases he

example : getInputOutputInfo ⟨"cat", [.option "--no-such-option" "x"], ["f"]⟩ = none := by decide +kernel

/-- C20. When a parsed invocation gets no input-output information. -/
theorem C20_refused (s : String) (inv : CommandInvocationInitial) (h : parse s = .ok inv) :
    getInputOutputInfo inv = none ↔ inv.cmdName ∉ ioCommands ∨ RefusedUsage inv := by
  rw [C19_io_lookup]
  have := (parse_optionsKnown h).2
  simp [this]

example : ∃ c, parse "mv -t a -t b x" = .ok c ∧ RefusedUsage c :=
  ⟨⟨"mv", [.option "-t" "a", .option "-t" "b"], ["x"]⟩, by decide +kernel,
    by simp [RefusedUsage, count]⟩
example : ∃ c i, parse "mv -t a x" = .ok c ∧ getInputOutputInfo c = some i :=
  ⟨⟨"mv", [.option "-t" "a"], ["x"]⟩, ⟨[.fileStd .otherOutput], [.fileStd .otherInput], none, none⟩,
    by decide +kernel⟩

/-- C21. The implicit streams are the standard ones. -/
theorem C21_implicit_streams (inv : CommandInvocationInitial) (c : CommandInvocationWithIO) (h : Typed inv c) :
    (c.implicitInput = none ∨ c.implicitInput = some (.std .stdin .streamInput)) ∧
    (c.implicitOutput = none ∨ c.implicitOutput = some (.std .stdout .streamOutput)) := by
  obtain ⟨i, hi, ha⟩ := h
  obtain ⟨ts, hts, hs⟩ := getIO_shape hi
  rw [getIO_apply hi] at ha
  cases ha
  exact ⟨hs.input, hs.output⟩

example : ∃ inv c, Typed inv c ∧ c.implicitInput = some stdinStream ∧ c.implicitOutput = none :=
  ⟨⟨"sort", [.option "-o" "f"], []⟩, ⟨"sort", [.option "-o" (.io (.file "f" .streamOutput))], [], some stdinStream,
    none⟩, ⟨⟨[.fileStd .streamOutput], [], some stdinStream, none⟩, by decide +kernel, by decide +kernel⟩, rfl, rfl⟩

/-- The operands `l`, all read as streaming inputs. -/
abbrev streamingInputs (l : List String) : List ArgWithIO := l.map fun s => .io (fileOf .streamInput s)

/-- C22. Plain filters. -/
theorem C22_filters (inv : CommandInvocationInitial) (c : CommandInvocationWithIO) (h : Typed inv c)
    (hn : inv.cmdName ∈ ["cat", "cut", "head", "tail", "wc"]) :
    c.operandList = streamingInputs inv.operandList ∧
    (c.implicitInput = if inv.operandList = [] then some stdinStream else none) ∧
    c.implicitOutput = some stdoutStream := by
  simp only [List.mem_cons, List.not_mem_nil, or_false] at hn
  have key : ∃ ts, c = ⟨inv.cmdName, List.zipWith typedFlagOption inv.flagOptionList ts,
      List.zipWith (fun s t => typedArg t s) inv.operandList (List.replicate inv.operandList.length inT),
      optIf (inv.operandList = []) stdinStream, some stdoutStream⟩ := by
    rcases hn with hn | hn | hn | hn | hn
    · obtain ⟨ts, i, _, hg, rfl⟩ := typed_gen hn (show ("cat", IOGen.cat) ∈ ioTable by simp [ioTable]) h
      rw [form_plain inv ts IOGen.cat (by simp)] at hg; cases hg; exact ⟨ts, rfl⟩
    · obtain ⟨ts, i, _, hg, rfl⟩ := typed_gen hn (show ("cut", IOGen.cut) ∈ ioTable by simp [ioTable]) h
      rw [form_plain inv ts IOGen.cut (by simp)] at hg; cases hg; exact ⟨ts, rfl⟩
    · obtain ⟨ts, i, _, hg, rfl⟩ := typed_gen hn (show ("head", IOGen.head) ∈ ioTable by simp [ioTable]) h
      rw [form_plain inv ts IOGen.head (by simp)] at hg; cases hg; exact ⟨ts, rfl⟩
    · obtain ⟨ts, i, _, hg, rfl⟩ := typed_gen hn (show ("tail", IOGen.tail) ∈ ioTable by simp [ioTable]) h
      rw [form_plain inv ts IOGen.tail (by simp)] at hg; cases hg; exact ⟨ts, rfl⟩
    · obtain ⟨ts, i, _, hg, rfl⟩ := typed_gen hn (show ("wc", IOGen.wc) ∈ ioTable by simp [ioTable]) h
      by_cases hh : Has inv "--files0-from"
      · rw [form_wc_files0 inv ts hh] at hg; cases hg
      · rw [form_wc inv ts hh] at hg; cases hg; exact ⟨ts, rfl⟩
  obtain ⟨ts, rfl⟩ := key
  exact ⟨zipWith_replicate _ _, rfl, rfl⟩

example : ∃ inv c, parse "head -n 3 a - b" = .ok inv ∧ Typed inv c ∧ c.operandList =
    [.io (.file "a" .streamInput), .io (.std .stdin .streamInput), .io (.file "b" .streamInput)] ∧
    c.implicitInput = none :=
  ⟨⟨"head", [.option "-n" "3"], ["a", "-", "b"]⟩, ⟨"head", [.option "-n" (.argString "3")],
    [.io (.file "a" .streamInput), .io (.std .stdin .streamInput), .io (.file "b" .streamInput)], none,
    some stdoutStream⟩, by decide +kernel, ⟨⟨[.argString], [inT, inT, inT], none, some stdoutStream⟩,
    by decide +kernel, by decide +kernel⟩, rfl, rfl⟩

/-- C23. `grep` and `awk`: with a script option all operands are streaming inputs; without, there is a first
operand, which is a configuration string. -/
theorem C23_grep_awk (inv : CommandInvocationInitial) (c : CommandInvocationWithIO) (h : Typed inv c)
    (script : Prop) (hn : (inv.cmdName = "grep" ∧ (script ↔ Has inv "-e" ∨ Has inv "-f")) ∨
      (inv.cmdName = "awk" ∧ (script ↔ Has inv "-f"))) :
    (script → c.operandList = streamingInputs inv.operandList ∧
      c.implicitInput = if inv.operandList = [] then some stdinStream else none) ∧
    (¬ script → ∃ o os, inv.operandList = o :: os ∧ c.operandList = .argString o :: streamingInputs os ∧
      c.implicitInput = if os = [] then some stdinStream else none) := by
  rcases hn with ⟨hn, hsc⟩ | ⟨hn, hsc⟩ <;> rw [hsc]
  · obtain ⟨ts, i, _, hg, rfl⟩ := typed_gen hn (show ("grep", IOGen.grep) ∈ ioTable by simp [ioTable]) h
    constructor
    · intro hh
      rw [form_grep_ef inv ts hh] at hg; cases hg
      exact ⟨zipWith_replicate _ _, rfl⟩
    · intro hh
      cases ho : inv.operandList with
      | nil => rw [form_grep_nil inv ts hh ho] at hg; cases hg
      | cons o os =>
          rw [form_grep_cons inv ts hh ho] at hg; cases hg
          exact ⟨o, os, rfl, congrArg _ (zipWith_replicate _ _), rfl⟩
  · obtain ⟨ts, i, _, hg, rfl⟩ := typed_gen hn (show ("awk", IOGen.awk) ∈ ioTable by simp [ioTable]) h
    constructor
    · intro hh
      rw [form_awk_f inv ts hh] at hg; cases hg
      exact ⟨zipWith_replicate _ _, rfl⟩
    · intro hh
      cases ho : inv.operandList with
      | nil => rw [form_awk_nil inv ts hh ho] at hg; cases hg
      | cons o os =>
          rw [form_awk_cons inv ts hh ho] at hg; cases hg
          exact ⟨o, os, rfl, congrArg _ (zipWith_replicate _ _), rfl⟩

/-- C23. `grep` writes standard output exactly if `-q` is absent; `awk` always does. -/
theorem C23_output (inv : CommandInvocationInitial) (c : CommandInvocationWithIO) (h : Typed inv c) :
    (inv.cmdName = "grep" → c.implicitOutput = if Has inv "-q" then none else some stdoutStream) ∧
    (inv.cmdName = "awk" → c.implicitOutput = some stdoutStream) := by
  constructor
  · intro hn
    obtain ⟨ts, i, _, hg, rfl⟩ := typed_gen hn (show ("grep", IOGen.grep) ∈ ioTable by simp [ioTable]) h
    have : i.implicitOutput = optIf (¬ Has inv "-q") stdoutStream := by
      by_cases hh : Has inv "-e" ∨ Has inv "-f"
      · rw [form_grep_ef inv ts hh] at hg; cases hg; rfl
      · cases ho : inv.operandList with
        | nil => rw [form_grep_nil inv ts hh ho] at hg; cases hg
        | cons o os => rw [form_grep_cons inv ts hh ho] at hg; cases hg; rfl
    simp only [this, optIf]
    by_cases hq : Has inv "-q" <;> simp [hq]
  · intro hn
    obtain ⟨ts, i, _, hg, rfl⟩ := typed_gen hn (show ("awk", IOGen.awk) ∈ ioTable by simp [ioTable]) h
    by_cases hh : Has inv "-f"
    · rw [form_awk_f inv ts hh] at hg; cases hg; rfl
    · cases ho : inv.operandList with
      | nil => rw [form_awk_nil inv ts hh ho] at hg; cases hg
      | cons o os => rw [form_awk_cons inv ts hh ho] at hg; cases hg; rfl

example : ∃ inv c, parse "grep -q foo f" = .ok inv ∧ Typed inv c ∧
    c = ⟨"grep", [.flag "-q"], [.argString "foo", .io (.file "f" .streamInput)], none, none⟩ :=
  ⟨⟨"grep", [.flag "-q"], ["foo", "f"]⟩, _, by decide +kernel,
    ⟨⟨[.plainString], [.argString, inT], none, none⟩, by decide +kernel, by decide +kernel⟩, rfl⟩

/-- C24. `sort`: output, input, and the access of the argument of `-o`. -/
theorem C24_sort (inv : CommandInvocationInitial) (c : CommandInvocationWithIO) (h : Typed inv c)
    (hn : inv.cmdName = "sort") :
    c.operandList = streamingInputs inv.operandList ∧
    (c.implicitOutput = if Has inv "-o" then none else some stdoutStream) ∧
    (c.implicitInput = if inv.operandList = [] ∧ ¬ Has inv "--files0-from" then some stdinStream else none) ∧
    ∀ (k : Nat) (a : String), inv.flagOptionList[k]? = some (.option "-o" a) →
      c.flagOptionList[k]? = some (.option "-o" (.io (fileOf .streamOutput a))) := by
  obtain ⟨ts, i, hts, hg, rfl⟩ := typed_gen hn (show ("sort", IOGen.sort) ∈ ioTable by simp [ioTable]) h
  rw [form_sort inv ts IOGen.sort (by simp)] at hg; cases hg
  refine ⟨zipWith_replicate _ _, ?_, rfl, ?_⟩
  · simp only [optIf]
    by_cases ho : Has inv "-o" <;> simp [ho]
  · intro k a hk
    obtain ⟨_, _, hl, hcls⟩ := typers_spec hts
    have hd : DatabaseFor inv.cmdName Data.d_sort := by
      rw [hn]; exact databaseFor_table (by simp [Data.table])
    obtain ⟨t, ht, hc⟩ := hcls _ hd k _ hk
    simp only [List.getElem?_zipWith, hk, ht]
    cases hc with
    | option he ha =>
        have hex : OptionEntryOf Data.d_sort "-o" ⟨["-o", "--output"], .withAccess "FILE" "STREAM_OUTPUT"⟩ := by
          constructor <;> decide +kernel
        rw [optionEntry_unique (databaseFor_shipped hd) he hex] at ha
        have hcl : ArgClass (.withAccess "FILE" "STREAM_OUTPUT") (.fileStd .streamOutput) :=
          .file (by simp) (by simp)
        rw [argClass_unique ha hcl]; rfl

example : ∃ inv c, parse "sort -r --output=x" = .ok inv ∧ Typed inv c ∧ c.implicitOutput = some stdoutStream :=
  ⟨⟨"sort", [.flag "-r"], ["--output=x"]⟩, ⟨"sort", [.flag "-r"], [.io (.file "--output=x" .streamInput)], none,
    some stdoutStream⟩, by decide +kernel,
    ⟨⟨[.plainString], [inT], none, some stdoutStream⟩, by decide +kernel, by decide +kernel⟩, rfl⟩
example : ∃ inv c, parse "sort --output x" = .ok inv ∧ Typed inv c ∧ c.implicitOutput = none ∧
    c.flagOptionList = [.option "-o" (.io (.file "x" .streamOutput))] :=
  ⟨⟨"sort", [.option "-o" "x"], []⟩, ⟨"sort", [.option "-o" (.io (.file "x" .streamOutput))], [], some stdinStream,
    none⟩, by decide +kernel,
    ⟨⟨[.fileStd .streamOutput], [], some stdinStream, none⟩, by decide +kernel, by decide +kernel⟩, rfl, rfl⟩

/-- C25. `mv`. -/
theorem C25_mv (inv : CommandInvocationInitial) (c : CommandInvocationWithIO) (h : Typed inv c)
    (hn : inv.cmdName = "mv") :
    (¬ Has inv "-t" → ∃ os o, inv.operandList = os ++ [o] ∧
      c.operandList = os.map (fun s => .io (fileOf .otherInput s)) ++ [.io (fileOf .otherOutput o)]) ∧
    (Has inv "-t" → c.operandList = inv.operandList.map (fun s => .io (fileOf .otherInput s))) ∧
    c.implicitInput = none ∧ c.implicitOutput = none := by
  obtain ⟨ts, i, hts, hg, rfl⟩ := typed_gen hn (show ("mv", IOGen.mv) ∈ ioTable by simp [ioTable]) h
  by_cases hh : Has inv "-t"
  · have hc : count inv "-t" = 1 := by
      have h0 : count inv "-t" ≠ 0 := fun h => (count_zero_iff inv "-t").1 h hh
      rcases Nat.lt_or_ge (count inv "-t") 2 with h2 | h2
      · omega
      · rw [form_mv_tt inv ts h2] at hg; cases hg
    rw [form_mv_t inv ts hc] at hg; cases hg
    exact ⟨fun h => absurd hh h, fun _ => zipWith_replicate _ _, rfl, rfl⟩
  · have h0 := (count_zero_iff inv "-t").2 hh
    by_cases ho : inv.operandList = []
    · rw [form_mv_nil inv ts h0 ho] at hg; cases hg
    · obtain ⟨os, o, hos⟩ := list_snoc _ ho
      rw [form_mv_no inv ts h0 hos] at hg; cases hg
      refine ⟨fun _ => ⟨os, o, hos, ?_⟩, fun h => absurd h hh, rfl, rfl⟩
      simp only [hos]
      rw [List.zipWith_append (by simp), zipWith_replicate]
      rfl

/-- C25. `rm`, `mkfifo`, `tee` and `uniq`. -/
theorem C25_others (inv : CommandInvocationInitial) (c : CommandInvocationWithIO) (h : Typed inv c) :
    (inv.cmdName = "rm" ∨ inv.cmdName = "mkfifo" →
      c.operandList = inv.operandList.map (fun s => .io (fileOf .otherOutput s)) ∧
      c.implicitInput = none ∧ c.implicitOutput = none) ∧
    (inv.cmdName = "tee" → c.operandList = inv.operandList.map (fun s => .io (fileOf .streamOutput s)) ∧
      c.implicitInput = some stdinStream ∧ c.implicitOutput = some stdoutStream) ∧
    (inv.cmdName = "uniq" → ∀ a b, inv.operandList = [a, b] →
      c.operandList = [.io (fileOf .streamInput a), .io (fileOf .streamOutput b)] ∧
      c.implicitInput = none ∧ c.implicitOutput = none) ∧
    (inv.cmdName = "uniq" → ∀ a, inv.operandList = [a] → c.operandList = [.io (fileOf .streamInput a)] ∧
      c.implicitInput = none ∧ c.implicitOutput = some stdoutStream) := by
  refine ⟨?_, ?_, ?_, ?_⟩
  · rintro (hn | hn)
    · obtain ⟨ts, i, hts, hg, rfl⟩ := typed_gen hn (show ("rm", IOGen.rm) ∈ ioTable by simp [ioTable]) h
      rw [form_rm inv ts IOGen.rm (by simp)] at hg; cases hg
      exact ⟨zipWith_replicate _ _, rfl, rfl⟩
    · obtain ⟨ts, i, hts, hg, rfl⟩ := typed_gen hn (show ("mkfifo", IOGen.mkfifo) ∈ ioTable by simp [ioTable]) h
      rw [form_rm inv ts IOGen.mkfifo (by simp)] at hg; cases hg
      exact ⟨zipWith_replicate _ _, rfl, rfl⟩
  · intro hn
    obtain ⟨ts, i, hts, hg, rfl⟩ := typed_gen hn (show ("tee", IOGen.tee) ∈ ioTable by simp [ioTable]) h
    rw [form_tee inv ts] at hg; cases hg
    exact ⟨zipWith_replicate _ _, rfl, rfl⟩
  · intro hn a b hab
    obtain ⟨ts, i, hts, hg, rfl⟩ := typed_gen hn (show ("uniq", IOGen.uniq) ∈ ioTable by simp [ioTable]) h
    rw [form_uniq_2 inv ts hab] at hg; cases hg
    rw [hab]
    exact ⟨rfl, rfl, rfl⟩
  · intro hn a hab
    obtain ⟨ts, i, hts, hg, rfl⟩ := typed_gen hn (show ("uniq", IOGen.uniq) ∈ ioTable by simp [ioTable]) h
    rw [form_uniq_1 inv ts hab] at hg; cases hg
    rw [hab]
    exact ⟨rfl, rfl, rfl⟩

example : ∃ inv c, parse "mv a - /tmp" = .ok inv ∧ Typed inv c ∧ c.operandList =
    [.io (.file "a" .otherInput), .io (.std .stdin .otherInput), .io (.file "/tmp" .otherOutput)] :=
  ⟨⟨"mv", [], ["a", "-", "/tmp"]⟩, ⟨"mv", [], [.io (.file "a" .otherInput), .io (.std .stdin .otherInput),
    .io (.file "/tmp" .otherOutput)], none, none⟩, by decide +kernel,
    ⟨⟨[], [.fileStd .otherInput, .fileStd .otherInput, .fileStd .otherOutput], none, none⟩, by decide +kernel,
      by decide +kernel⟩, rfl⟩
example : ∃ inv c, parse "uniq a b" = .ok inv ∧ Typed inv c ∧ c.operandList =
    [.io (.file "a" .streamInput), .io (.file "b" .streamOutput)] :=
  ⟨⟨"uniq", [], ["a", "b"]⟩, ⟨"uniq", [], [.io (.file "a" .streamInput), .io (.file "b" .streamOutput)], none,
    none⟩, by decide +kernel,
    ⟨⟨[], [inT, .fileStd .streamOutput], none, none⟩, by decide +kernel, by decide +kernel⟩, rfl⟩

/-- The commands whose generator always claims standard input although operands stay streaming inputs. -/
def alwaysStdin : List String := ["sed", "alt_bigrams_aux", "bigrams_aux", "col", "test_one", "test_two"]

/-- C26 is false of the code: for every `sed` invocation with a script operand and at least one file, both the
files and standard input are claimed. -/
theorem C26_false_for_sed (inv : CommandInvocationInitial) (c : CommandInvocationWithIO) (h : Typed inv c)
    (hn : inv.cmdName = "sed") (o f : String) (fs : List String) (ho : inv.operandList = o :: f :: fs)
    (hs : ¬ Has inv "-e" ∧ ¬ Has inv "-f") :
    c.operandList = .argString o :: streamingInputs (f :: fs) ∧ c.implicitInput = some stdinStream := by
  obtain ⟨ts, i, hts, hg, rfl⟩ := typed_gen hn (show ("sed", IOGen.sed) ∈ ioTable by simp [ioTable]) h
  rw [form_sed_cons inv ts (by simp [hs]) ho] at hg; cases hg
  rw [ho]
  exact ⟨congrArg _ (zipWith_replicate (f :: fs) _), rfl⟩

/-- C26 is false of the code: the other commands of the list. -/
theorem C26_false_for_others (inv : CommandInvocationInitial) (c : CommandInvocationWithIO) (h : Typed inv c)
    (hn : inv.cmdName ∈ ["alt_bigrams_aux", "bigrams_aux", "col", "test_one", "test_two"]) :
    c.operandList = streamingInputs inv.operandList ∧ c.implicitInput = some stdinStream := by
  simp only [List.mem_cons, List.not_mem_nil, or_false] at hn
  rcases hn with hn | hn | hn | hn | hn
  · obtain ⟨ts, i, hts, hg, rfl⟩ := typed_gen hn
      (show ("alt_bigrams_aux", IOGen.altBigramsAux) ∈ ioTable by simp [ioTable]) h
    rw [form_std inv ts IOGen.altBigramsAux (by simp)] at hg; cases hg; exact ⟨zipWith_replicate _ _, rfl⟩
  · obtain ⟨ts, i, hts, hg, rfl⟩ := typed_gen hn
      (show ("bigrams_aux", IOGen.bigramsAux) ∈ ioTable by simp [ioTable]) h
    rw [form_std inv ts IOGen.bigramsAux (by simp)] at hg; cases hg; exact ⟨zipWith_replicate _ _, rfl⟩
  · obtain ⟨ts, i, hts, hg, rfl⟩ := typed_gen hn (show ("col", IOGen.col) ∈ ioTable by simp [ioTable]) h
    rw [form_std inv ts IOGen.col (by simp)] at hg; cases hg; exact ⟨zipWith_replicate _ _, rfl⟩
  · obtain ⟨ts, i, hts, hg, rfl⟩ := typed_gen hn (show ("test_one", IOGen.testOne) ∈ ioTable by simp [ioTable]) h
    rw [form_std inv ts IOGen.testOne (by simp)] at hg; cases hg; exact ⟨zipWith_replicate _ _, rfl⟩
  · obtain ⟨ts, i, hts, hg, rfl⟩ := typed_gen hn (show ("test_two", IOGen.testTwo) ∈ ioTable by simp [ioTable]) h
    rw [form_std inv ts IOGen.testTwo (by simp)] at hg; cases hg; exact ⟨zipWith_replicate _ _, rfl⟩

/-- The full statement of C26, false by the example below. -/
def StdinOnlyWhenRead : Prop := ∀ inv c, Typed inv c → (∃ o ∈ c.operandList, HasAccess .streamInput o) →
  c.implicitInput = none

theorem C26_stdin_claim_false : ¬ StdinOnlyWhenRead := by
  intro h
  have := h ⟨"sed", [], ["s/a/b/", "f"]⟩ ⟨"sed", [], [.argString "s/a/b/", .io (.file "f" .streamInput)],
    some stdinStream, some stdoutStream⟩
    ⟨⟨[], [.argString, inT], some stdinStream, some stdoutStream⟩, by decide +kernel, by decide +kernel⟩
    ⟨_, by simp, show HasAccess .streamInput (.io (.file "f" .streamInput)) from rfl⟩
  cases this

/-- C26 for every other command: if an operand is a streaming input, standard input is not claimed. -/
theorem C26_stdin_claim_partial (inv : CommandInvocationInitial) (c : CommandInvocationWithIO) (h : Typed inv c)
    (hn : inv.cmdName ∉ alwaysStdin) (hop : ∃ o ∈ c.operandList, HasAccess .streamInput o) :
    c.implicitInput = none := by
  obtain ⟨i, hi, ha⟩ := h
  obtain ⟨ts, hts, hs⟩ := getIO_shape hi
  rw [getIO_apply hi] at ha
  cases ha
  simp only at hop ⊢
  rw [operand_access_iff hs.length] at hop
  obtain ⟨gen, ts', hm, hts', hg⟩ := getIO_some.1 hi
  have rep : ∀ n a, (Typer.fileStd .streamInput ∈ List.replicate n (.fileStd a)) ↔ n ≠ 0 ∧ a = .streamInput := by
    intro n a; rw [List.mem_replicate]; simp [eq_comm]
  have rep' : ∀ n, ¬ (Typer.fileStd .streamInput ∈ List.replicate n .argString) := by
    intro n; rw [List.mem_replicate]; simp
  simp only [ioTable, List.mem_cons, Prod.mk.injEq, List.not_mem_nil, or_false] at hm
  rcases hm with ⟨hn', rfl⟩ | ⟨hn', rfl⟩ | ⟨hn', rfl⟩ | ⟨hn', rfl⟩ | ⟨hn', rfl⟩ | ⟨hn', rfl⟩ | ⟨hn', rfl⟩ |
    ⟨hn', rfl⟩ | ⟨hn', rfl⟩ | ⟨hn', rfl⟩ | ⟨hn', rfl⟩ | ⟨hn', rfl⟩ | ⟨hn', rfl⟩ | ⟨hn', rfl⟩ | ⟨hn', rfl⟩ |
    ⟨hn', rfl⟩ | ⟨hn', rfl⟩ | ⟨hn', rfl⟩ | ⟨hn', rfl⟩ | ⟨hn', rfl⟩ | ⟨hn', rfl⟩ | ⟨hn', rfl⟩ | ⟨hn', rfl⟩ |
    ⟨hn', rfl⟩ | ⟨hn', rfl⟩ | ⟨hn', rfl⟩ | ⟨hn', rfl⟩ | ⟨hn', rfl⟩
  all_goals try (simp [alwaysStdin, hn'] at hn; done)
  · rw [form_out inv ts' IOGen.altBigramAuxReduce (by simp)] at hg; cases hg; rfl
  · by_cases hh : Has inv "-f"
    · rw [form_awk_f inv ts' hh] at hg; cases hg; simp [rep] at hop; simp [optIf, hop]
    · cases ho : inv.operandList with
      | nil => rw [form_awk_nil inv ts' hh ho] at hg; cases hg
      | cons o os => rw [form_awk_cons inv ts' hh ho] at hg; cases hg; simp [rep] at hop; simp [optIf, hop]
  · rw [form_plain inv ts' IOGen.cat (by simp)] at hg; cases hg; simp [rep] at hop; simp [optIf, hop]
  · by_cases hh : inv.operandList.length = 2
    · rw [form_comm inv ts' hh] at hg; cases hg; rfl
    · rw [form_comm_ne inv ts' hh] at hg; cases hg
  · rw [form_sort inv ts' IOGen.customSort (by simp)] at hg; cases hg; simp [rep] at hop; simp [optIf, hop]
  · rw [form_strings inv ts' IOGen.customTr (by simp)] at hg; cases hg; simp [rep'] at hop
  · rw [form_plain inv ts' IOGen.cut (by simp)] at hg; cases hg; simp [rep] at hop; simp [optIf, hop]
  · rw [form_out inv ts' IOGen.diff (by simp)] at hg; cases hg; rfl
  · by_cases hh : Has inv "-e" ∨ Has inv "-f"
    · rw [form_grep_ef inv ts' hh] at hg; cases hg; simp [rep] at hop; simp [optIf, hop]
    · cases ho : inv.operandList with
      | nil => rw [form_grep_nil inv ts' hh ho] at hg; cases hg
      | cons o os => rw [form_grep_cons inv ts' hh ho] at hg; cases hg; simp [rep] at hop; simp [optIf, hop]
  · rw [form_plain inv ts' IOGen.head (by simp)] at hg; cases hg; simp [rep] at hop; simp [optIf, hop]
  · rw [form_rm inv ts' IOGen.mkfifo (by simp)] at hg; cases hg; rfl
  · rcases Nat.lt_trichotomy (count inv "-t") 1 with h1 | h1 | h1
    · have h0 : count inv "-t" = 0 := by omega
      by_cases ho : inv.operandList = []
      · rw [form_mv_nil inv ts' h0 ho] at hg; cases hg
      · obtain ⟨os, o, hos⟩ := list_snoc _ ho
        rw [form_mv_no inv ts' h0 hos] at hg; cases hg; rfl
    · rw [form_mv_t inv ts' h1] at hg; cases hg; rfl
    · rw [form_mv_tt inv ts' h1] at hg; cases hg
  · rw [form_rm inv ts' IOGen.rm (by simp)] at hg; cases hg; rfl
  · by_cases hh : inv.operandList.length = 1
    · rw [form_setDiff inv ts' hh] at hg; cases hg; simp at hop
    · rw [form_setDiff_ne inv ts' hh] at hg; cases hg
  · rw [form_seq inv ts'] at hg; cases hg; rfl
  · rw [form_sort inv ts' IOGen.sort (by simp)] at hg; cases hg; simp [rep] at hop; simp [optIf, hop]
  · rw [form_plain inv ts' IOGen.tail (by simp)] at hg; cases hg; simp [rep] at hop; simp [optIf, hop]
  · rw [form_tee inv ts'] at hg; cases hg; simp [rep] at hop
  · rw [form_strings inv ts' IOGen.tr (by simp)] at hg; cases hg; simp [rep'] at hop
  · match ho : inv.operandList with
    | [] => rw [form_uniq_0 inv ts' ho] at hg; cases hg; simp at hop
    | [o] => rw [form_uniq_1 inv ts' ho] at hg; cases hg; rfl
    | [o, o'] => rw [form_uniq_2 inv ts' ho] at hg; cases hg; rfl
    | o :: o' :: o'' :: os => rw [form_uniq_3 inv ts' (by simp [ho])] at hg; cases hg
  · by_cases hh : Has inv "--files0-from"
    · rw [form_wc_files0 inv ts' hh] at hg; cases hg
    · rw [form_wc inv ts' hh] at hg; cases hg; simp [rep] at hop; simp [optIf, hop]
  · rw [form_strings inv ts' IOGen.xargs (by simp)] at hg; cases hg; simp [rep'] at hop

/-- C26, exactly: given a streaming input among the operands, standard input is claimed in addition by the commands of
the list and by no other. -/
theorem C26_exact (inv : CommandInvocationInitial) (c : CommandInvocationWithIO) (h : Typed inv c)
    (hop : ∃ o ∈ c.operandList, HasAccess .streamInput o) :
    c.implicitInput = some stdinStream ↔ inv.cmdName ∈ alwaysStdin := by
  constructor
  · intro hs
    by_cases hn : inv.cmdName ∈ alwaysStdin
    · exact hn
    · rw [C26_stdin_claim_partial inv c h hn hop] at hs; cases hs
  · intro hn
    rcases List.mem_cons.1 hn with hn | hn
    · obtain ⟨ts, i, hts, hg, rfl⟩ := typed_gen hn (show ("sed", IOGen.sed) ∈ ioTable by simp [ioTable]) h
      by_cases hh : Has inv "-e" ∨ Has inv "-f"
      · rw [form_sed_ef inv ts hh] at hg; cases hg; rfl
      · cases ho : inv.operandList with
        | nil => rw [form_sed_nil inv ts hh ho] at hg; cases hg
        | cons o os => rw [form_sed_cons inv ts hh ho] at hg; cases hg; rfl
    · exact (C26_false_for_others inv c h hn).2

example : ∃ inv c, inv.cmdName ∈ alwaysStdin ∧ Typed inv c ∧ ∃ o ∈ c.operandList, HasAccess .streamInput o :=
  ⟨⟨"sed", [], ["s/a/b/", "f"]⟩, ⟨"sed", [], [.argString "s/a/b/", .io (.file "f" .streamInput)],
    some stdinStream, some stdoutStream⟩, by decide +kernel,
    ⟨⟨[], [.argString, inT], some stdinStream, some stdoutStream⟩, by decide +kernel, by decide +kernel⟩,
    .io (.file "f" .streamInput), by simp, rfl⟩

example : ∃ inv c, inv.cmdName ∉ alwaysStdin ∧ Typed inv c ∧ ∃ o ∈ c.operandList, HasAccess .streamInput o :=
  ⟨⟨"grep", [], ["p", "f"]⟩, ⟨"grep", [], [.argString "p", .io (.file "f" .streamInput)], none, some stdoutStream⟩,
    by decide +kernel, ⟨⟨[], [.argString, inT], none, some stdoutStream⟩, by decide +kernel, by decide +kernel⟩,
    .io (.file "f" .streamInput), by simp, rfl⟩

/-- `-n` or `-e` followed by two words that are neither flags nor options nor clusters. -/
theorem derives_flag_two {d : JsonData} {n a b : String} (hne : n ≠ "")
    (hf : Declared (flagGroups d) n) (hc : Canonical (flagGroups d) n n) (ha : StartsOperands d a [b]) :
    Derives d [n, a, b] [.flag n] [a, b] := .flag hne hf hc (.operands ha)

theorem startsOperands_noDash {d : JsonData} {a : String}
    {rest : List String} (ha : a.toList.head? ≠ some '-')
    (hb : ∀ w ∈ setOfAllFlags d ++ setOfAllOptions d, w.toList.head? = some '-') : StartsOperands d a rest := by
  refine .inr ⟨fun h => ?_, fun h => ?_, fun l h => ?_⟩
  · exact ha (hb a (List.mem_append.2 (.inl ((mem_setOfAllFlags d a).2 h))))
  · exact ha (hb a (List.mem_append.2 (.inr ((mem_setOfAllOptions d a).2 h.1))))
  · exact ha (by rw [h.1]; rfl)

/-- C27 is false of the code: in `tail -n COUNT FILE` the count is a streaming input. -/
theorem C27_false_for_tail (count file : String) (hc : count.toList.head? ≠ some '-') :
    ∃ inv c, parse (Shlex.join ["tail", "-n", count, file]) = .ok inv ∧ Typed inv c ∧
      c.operandList = [.io (.file count .streamInput), .io (fileOf .streamInput file)] := by
  have hd : ("tail", Data.d_tail) ∈ Data.table := by simp [Data.table]
  have hder : Derives Data.d_tail ["-n", count, file] [.flag "-n"] [count, file] := by
    refine derives_flag_two (by decide) ?_ ?_ (startsOperands_noDash hc (by decide +kernel))
    · rw [← mem_setOfAllFlags]; decide +kernel
    · have := primaryFlag_canonical Data.d_tail "-n"
      rwa [show primaryFlag Data.d_tail "-n" = "-n" by decide +kernel] at this
  have hp : parse (Shlex.join ["tail", "-n", count, file]) = .ok ⟨"tail", [.flag "-n"], [count, file]⟩ := by
    rw [parse_join (by decide +kernel) (databaseFor_table hd), derives_functional hder]
  refine ⟨_, ⟨"tail", [.flag "-n"], streamingInputs [count, file], none, some stdoutStream⟩, hp, ?_, ?_⟩
  · have hno : ¬ getInputOutputInfo ⟨"tail", [.flag "-n"], [count, file]⟩ = none := by
      rw [C20_refused _ _ hp]; simp [ioCommands, RefusedUsage]
    cases hi : getInputOutputInfo ⟨"tail", [.flag "-n"], [count, file]⟩ with
    | none => exact absurd hi hno
    | some i =>
        obtain ⟨c, hc', ht⟩ := typed_exists hi
        obtain ⟨h1, h2, h3⟩ := C22_filters _ c ht (by simp)
        obtain ⟨c'', hc'', hn, hf, _⟩ := C14_typing_preserves _ i hi
        rw [hc'] at hc''; cases hc''
        have : c = ⟨"tail", [.flag "-n"], streamingInputs [count, file], none, some stdoutStream⟩ := by
          cases c with
          | mk n f o ii oo =>
              simp only at h1 h2 h3 hn hf
              subst hn h1 h2 h3
              have : f = [.flag "-n"] := by
                match f with
                | [.flag n] => simp [untyped] at hf; rw [hf]
                | [.option _ _] => simp [untyped] at hf
                | [] => simp at hf
                | _ :: _ :: _ => simp at hf
              rw [this]; simp
        rw [← this]; exact ht
  · have : count ≠ "-" := by rintro rfl; exact hc rfl
    simp [streamingInputs, fileOf, this]

/-- C27 is false of the code: in `sed -e SCRIPT FILE` the script is a streaming input. -/
theorem C27_false_for_sed (script file : String) (hc : script.toList.head? ≠ some '-') :
    ∃ inv i c, parse (Shlex.join ["sed", "-e", script, file]) = .ok inv ∧ getInputOutputInfo inv = some i ∧
      i.apply inv = .ok c ∧
      c.operandList = [.io (.file script .streamInput), .io (fileOf .streamInput file)] := by
  have hd : ("sed", Data.d_sed) ∈ Data.table := by simp [Data.table]
  have hder : Derives Data.d_sed ["-e", script, file] [.flag "-e"] [script, file] := by
    refine derives_flag_two (by decide) ?_ ?_ (startsOperands_noDash hc (by decide +kernel))
    · rw [← mem_setOfAllFlags]; decide +kernel
    · have := primaryFlag_canonical Data.d_sed "-e"
      rwa [show primaryFlag Data.d_sed "-e" = "-e" by decide +kernel] at this
  have hp : parse (Shlex.join ["sed", "-e", script, file]) = .ok ⟨"sed", [.flag "-e"], [script, file]⟩ := by
    rw [parse_join (by decide +kernel) (databaseFor_table hd), derives_functional hder]
  have hno : ¬ getInputOutputInfo ⟨"sed", [.flag "-e"], [script, file]⟩ = none := by
    rw [C20_refused _ _ hp]; simp [ioCommands, RefusedUsage]
  cases hi : getInputOutputInfo ⟨"sed", [.flag "-e"], [script, file]⟩ with
  | none => exact absurd hi hno
  | some i =>
      obtain ⟨c, hc', ht⟩ := typed_exists hi
      refine ⟨_, i, c, hp, hi, hc', ?_⟩
      obtain ⟨ts, i', _, hg, rfl⟩ := typed_gen rfl (show ("sed", IOGen.sed) ∈ ioTable by simp [ioTable]) ht
      rw [form_sed_ef _ ts (.inl (.inl (by simp)))] at hg; cases hg
      have : script ≠ "-" := by rintro rfl; exact hc rfl
      simp [List.replicate, typedArg, fileOf, this]

/-- C27 for options that the database declares with an argument: whatever the argument, it is not an operand;
the operands are those of the command line without the option. -/
theorem C27_declared_option_partial (name o arg : String) (rest : List String) (d : JsonData)
    (hp : Readable name) (hd : DatabaseFor name d) (ho : Declared (optionGroups d) o)
    (hf : ¬ Declared (flagGroups d) o) (inv : CommandInvocationInitial)
    (h : parse (Shlex.join (name :: rest)) = .ok inv) :
    ∃ p, Canonical (optionGroups d) o p ∧ parse (Shlex.join (name :: o :: arg :: rest)) =
      .ok ⟨name, .option p arg :: inv.flagOptionList, inv.operandList⟩ := by
  obtain ⟨p, hcp⟩ := canonical_exists (optionGroups d) o
  rw [parse_join hp hd] at h
  cases h
  refine ⟨p, hcp, ?_⟩
  rw [parse_join hp hd, derives_functional (.option (shipped_option_nonempty (databaseFor_shipped hd) ho) hf ho hcp
    (derives_parseLoop d rest))]

example : Declared (optionGroups Data.d_head) "-n" ∧ ¬ Declared (flagGroups Data.d_head) "-n" ∧
    Declared (optionGroups Data.d_grep) "-e" ∧ ¬ Declared (flagGroups Data.d_grep) "-e" := by
  rw [← mem_setOfAllFlags, ← mem_setOfAllOptions, ← mem_setOfAllFlags, ← mem_setOfAllOptions]; decide +kernel

end PashAnn
