import Verif.Model.Parser

/-!
Model of /repo/pash_annotations/annotation_generation/datatypes/InputOutputInfo.py and of
annotation_generators/InputOutputInfoGenerator_Interface.py and Generator_Interface.py.
-/

namespace PashAnn

/-- A typer: `(WhichClassForArg.FILESTD, access)`, `(ARGSTRING, None)` or `(PLAINSTRING, None)`
(InputOutputInfo.py:19-21). -/
inductive Typer where
  | fileStd (a : AccessKind)
  | argString
  | plainString
deriving DecidableEq, Repr

/-- `InputOutputInfo` (InputOutputInfo.py:16-33). -/
structure InputOutputInfo where
  flagoptionListTyper : List Typer
  operandListTyper : List Typer
  implicitInput : Option FileWithIO := none
  implicitOutput : Option FileWithIO := none
deriving DecidableEq, Repr

/-- Python `l[0] = x` (InputOutputInfo.py:93, 99, 112 and 115). -/
def setFirst {α : Type} (l : List α) (x : α) : Py (List α) :=
  match l with
  | [] => .error .indexError
  | _ :: t => .ok (x :: t)

/-- Python `l[-1] = x` (InputOutputInfo.py:85, 102 and 105). -/
def setLast {α : Type} (l : List α) (x : α) : Py (List α) :=
  match l with
  | [] => .error .indexError
  | _ => .ok (l.dropLast ++ [x])

/-- Python `l[-1]` (InputOutputInfo.py:83). -/
def getLast {α : Type} (l : List α) : Py α :=
  match l.getLast? with
  | none => .error .indexError
  | some x => .ok x

namespace InputOutputInfo

/-- The constructor (InputOutputInfo.py:18-33): all operands start as streaming inputs, no implicit use. -/
def init (flagTypers : List Typer) (numberOfOperands : Nat) : InputOutputInfo where
  flagoptionListTyper := flagTypers
  operandListTyper := List.replicate numberOfOperands (.fileStd .streamInput)

/-- `set_implicit_use_of_stdin(True)` (InputOutputInfo.py:44-52). The code never calls it with `False`. -/
def setImplicitUseOfStdin (i : InputOutputInfo) : InputOutputInfo :=
  { i with implicitInput := some (.std .stdin .streamInput) }

/-- `set_implicit_use_of_stdout(True)` (InputOutputInfo.py:54-62). -/
def setImplicitUseOfStdout (i : InputOutputInfo) : InputOutputInfo :=
  { i with implicitOutput := some (.std .stdout .streamOutput) }

/-- InputOutputInfo.py:64-65 (`pass`) -/
def allOperandsAreStreamingInputs (i : InputOutputInfo) : InputOutputInfo := i

/-- InputOutputInfo.py:67-69 -/
def allOperandsAreStreamingOutputs (i : InputOutputInfo) : InputOutputInfo :=
  { i with operandListTyper := List.replicate i.operandListTyper.length (.fileStd .streamOutput) }

/-- InputOutputInfo.py:71-73 -/
def allOperandsAreOtherInputs (i : InputOutputInfo) : InputOutputInfo :=
  { i with operandListTyper := List.replicate i.operandListTyper.length (.fileStd .otherInput) }

/-- InputOutputInfo.py:75-77 -/
def allOperandsAreOtherOutputs (i : InputOutputInfo) : InputOutputInfo :=
  { i with operandListTyper := List.replicate i.operandListTyper.length (.fileStd .otherOutput) }

/-- InputOutputInfo.py:79-80 (`pass`) -/
def allButLastOperandIsStreamingInput (i : InputOutputInfo) : InputOutputInfo := i

/-- InputOutputInfo.py:82-85 -/
def allButLastOperandIsOtherInput (i : InputOutputInfo) : Py InputOutputInfo := do
  let originalLastEntry ← getLast i.operandListTyper
  let i := i.allOperandsAreOtherInputs
  let l ← setLast i.operandListTyper originalLastEntry
  .ok { i with operandListTyper := l }

/-- InputOutputInfo.py:87-88 (`pass`) -/
def allButFirstOperandIsStreamingInput (i : InputOutputInfo) : InputOutputInfo := i

/-- InputOutputInfo.py:101-102 -/
def onlyLastOperandIsStreamOutput (i : InputOutputInfo) : Py InputOutputInfo := do
  let l ← setLast i.operandListTyper (.fileStd .streamOutput)
  .ok { i with operandListTyper := l }

/-- InputOutputInfo.py:104-105 -/
def onlyLastOperandIsOtherOutput (i : InputOutputInfo) : Py InputOutputInfo := do
  let l ← setLast i.operandListTyper (.fileStd .otherOutput)
  .ok { i with operandListTyper := l }

/-- InputOutputInfo.py:107-109, and 118-120 (`set_all_operands_as_arg_string`), which does the same. -/
def setAllOperandsAsConfigArgTypeString (i : InputOutputInfo) : InputOutputInfo :=
  { i with operandListTyper := List.replicate i.operandListTyper.length .argString }

/-- InputOutputInfo.py:111-112 -/
def setFirstOperandAsConfigArgTypeString (i : InputOutputInfo) : Py InputOutputInfo := do
  let l ← setFirst i.operandListTyper .argString
  .ok { i with operandListTyper := l }

/-- InputOutputInfo.py:114-115 -/
def setFirstOperandAsConfigArgTypeFilenameOrStdDescriptor (i : InputOutputInfo) : Py InputOutputInfo := do
  let l ← setFirst i.operandListTyper (.fileStd .configInput)
  .ok { i with operandListTyper := l }

/-- `get_from_original_*_with_ioinfo` (BasicDatatypesWithIO.py:29-30, 39-40). -/
def addAccess (a : AccessKind) : FileNameOrStdDescriptor → FileWithIO
  | .file n => .file n a
  | .std d => .std d a

/-- `apply_typer_to_arg` (InputOutputInfo.py:144-164). -/
def applyTyperToArg (arg : String) : Typer → Py ArgWithIO
  | .fileStd access =>
      if access.isAnyInput then .ok (.io (addAccess access (computeActualElForInput arg)))
      else if access.isAnyOutput then .ok (.io (addAccess access (computeActualElForOutput arg)))
      else .error (.exception "access which is neither any input nor output")
  | .argString => .ok (.argString arg)
  | .plainString => .error (.exception "no valid option for argument type WhichClassForArg")

/-- `apply_typer_to_flagoption` (InputOutputInfo.py:166-180). -/
def applyTyperToFlagoption (fo : FlagOption) (typer : Typer) : Py FlagOptionWithIO :=
  match fo with
  | .flag n => .ok (.flag n)
  | .option n arg => do
      pyAssert (typer != .plainString)
      let newArg ← applyTyperToArg arg typer
      .ok (.option n newArg)

/-- `apply_input_output_info_to_command_invocation` (InputOutputInfo.py:124-142); `zip` stops at the
shorter list. -/
def apply (i : InputOutputInfo) (c : CommandInvocationInitial) : Py CommandInvocationWithIO := do
  let fos ← (c.flagOptionList.zip i.flagoptionListTyper).mapM fun p => applyTyperToFlagoption p.1 p.2
  let ops ← (c.operandList.zip i.operandListTyper).mapM fun p => applyTyperToArg p.1 p.2
  .ok { cmdName := c.cmdName, flagOptionList := fos, operandList := ops,
        implicitInput := i.implicitInput, implicitOutput := i.implicitOutput }

/-- `has_other_outputs` (InputOutputInfo.py:182-189). -/
def hasOtherOutputs (i : InputOutputInfo) : Bool :=
  (i.flagoptionListTyper ++ i.operandListTyper).any fun
    | .fileStd a => a.isOtherOutput
    | _ => false

end InputOutputInfo

/-! Generator_Interface.py -/

/-- `get_flag_option_list_filtered_with` (Generator_Interface.py:25-26). -/
def getFlagOptionListFilteredWith (c : CommandInvocationInitial) (names : List String) : List FlagOption :=
  c.flagOptionList.filter fun fo => decide (fo.getName ∈ names)

/-- `does_flag_option_list_contain_at_least_one_of` (Generator_Interface.py:22-23). -/
def containsAtLeastOneOf (c : CommandInvocationInitial) (names : List String) : Bool :=
  decide ((getFlagOptionListFilteredWith c names).length > 0)

/-- `get_operand_list_length` (Generator_Interface.py:28-29). -/
def operandListLength (c : CommandInvocationInitial) : Nat := c.operandList.length

/-- `get_first_operand_name_as_string` (Generator_Interface.py:31-36). -/
def firstOperandName (c : CommandInvocationInitial) : Py String :=
  match c.operandList with
  | [] => .error .indexError
  | o :: _ => .ok o

/-- `does_first_operand_start_with` (Generator_Interface.py:38-40). -/
def doesFirstOperandStartWith (c : CommandInvocationInitial) (arg : String) : Py Bool := do
  let n ← firstOperandName c
  .ok (arg.toList.isPrefixOf n.toList)

/-- `does_first_operand_contain` (Generator_Interface.py:42-44): Python `arg in name`. -/
def doesFirstOperandContain (c : CommandInvocationInitial) (arg : String) : Py Bool := do
  let n ← firstOperandName c
  .ok (decide (pyFind n arg ≥ 0))

/-! InputOutputInfoGenerator_Interface.py -/

/-- `INDICATORS_FOR_FILENAMES` (config/definitions.py:5). -/
def indicatorsForFilenames : List String := ["FILE", "DIR", "DIRECTORY"]

/-- The value assigned for one option entry (InputOutputInfoGenerator_Interface.py:70-85). -/
def typerOfArgInfo : ArgInfo → Py Typer
  | .withAccess kind access => do
      let a ← AccessKind.ofString access
      if kind ∈ indicatorsForFilenames then .ok (.fileStd a) else .ok .argString
  | .word kind => do
      pyAssert (decide (kind ∉ indicatorsForFilenames))
      .ok .argString

/-- `get_dict_option_to_class_for_arg` (InputOutputInfoGenerator_Interface.py:63-86), after the data has
been loaded: the assignments `dict[option_data[0]] = …` in order. -/
def dictOptionToClassForArg (d : JsonData) : Py (List (String × Typer)) :=
  d.option.mapM fun e =>
    match e.names with
    | [] => .error .outsideModel
    | name :: _ => do
        let t ← typerOfArgInfo e.arg
        .ok (name, t)

/-- One step of the loop in `get_flagoption_list_typer_for_specific_list`
(InputOutputInfoGenerator_Interface.py:54-60). -/
def typerOfFlagOption (dict : List (String × Typer)) : FlagOption → Py Typer
  | .flag _ => .ok .plainString
  | .option name _ =>
      match dictGet? dict name with
      | some t => .ok t
      | none => .error .keyError

/-- `get_flagoption_list_typer_for_specific_list` (InputOutputInfoGenerator_Interface.py:47-61). -/
def flagoptionListTyper (c : CommandInvocationInitial) : Py (List Typer) := do
  let d ← getJsonData c.cmdName
  let dict ← dictOptionToClassForArg d
  c.flagOptionList.mapM (typerOfFlagOption dict)

/-- The constructor (InputOutputInfoGenerator_Interface.py:26-35): the info object it creates. -/
def initialInfo (c : CommandInvocationInitial) : Py InputOutputInfo := do
  let typers ← flagoptionListTyper c
  .ok (InputOutputInfo.init typers c.operandList.length)

/-- `if_no_operands_given_stdin_implicitly_used` (InputOutputInfoGenerator_Interface.py:98-100). -/
def ifNoOperandsGivenStdinImplicitlyUsed (c : CommandInvocationInitial) (i : InputOutputInfo) : InputOutputInfo :=
  if c.operandList.length = 0 then i.setImplicitUseOfStdin else i

end PashAnn
