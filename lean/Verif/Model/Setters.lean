import Verif.Model.IOGenerators

/-!
The methods that the author of a generator calls, as data, so that histories of calls can be quantified over:
annotation_generators/InputOutputInfoGenerator_Interface.py:92-150 and the methods of
annotation_generation/datatypes/InputOutputInfo.py they are forwarded to, including those no generator in the
repository calls.
-/

namespace PashAnn

/-- Python `l[0]` (InputOutputInfo.py:91 and 96). -/
def getFirst {α : Type} (l : List α) : Py α :=
  match l with
  | [] => .error .indexError
  | x :: _ => .ok x

namespace InputOutputInfo

/-- `set_implicit_use_of_stdin(value)` (InputOutputInfo.py:44-52): `False` changes nothing. -/
def setImplicitUseOfStdinTo (i : InputOutputInfo) (value : Bool) : InputOutputInfo :=
  if value then i.setImplicitUseOfStdin else i

/-- `set_implicit_use_of_stdout(value)` (InputOutputInfo.py:54-62). -/
def setImplicitUseOfStdoutTo (i : InputOutputInfo) (value : Bool) : InputOutputInfo :=
  if value then i.setImplicitUseOfStdout else i

/-- `all_but_first_operand_is_streaming_output` (InputOutputInfo.py:90-93). -/
def allButFirstOperandIsStreamingOutput (i : InputOutputInfo) : Py InputOutputInfo := do
  let originalFirstEntry ← getFirst i.operandListTyper
  let i := i.allOperandsAreStreamingOutputs
  let l ← setFirst i.operandListTyper originalFirstEntry
  .ok { i with operandListTyper := l }

/-- `all_but_first_operand_is_other_input` (InputOutputInfo.py:95-99). -/
def allButFirstOperandIsOtherInput (i : InputOutputInfo) : Py InputOutputInfo := do
  let originalFirstEntry ← getFirst i.operandListTyper
  let numberOfOperands := i.operandListTyper.length
  let l ← setFirst (List.replicate numberOfOperands (.fileStd .otherInput)) originalFirstEntry
  .ok { i with operandListTyper := l }

end InputOutputInfo

/-- A call of one of the methods for authors (InputOutputInfoGenerator_Interface.py:92-150), by its name. -/
inductive IOCall where
  | setImplicitUseOfStdin (value : Bool)
  | setImplicitUseOfStdout (value : Bool)
  | ifNoOperandsGivenStdinImplicitlyUsed
  | allOperandsAreStreamingInputs
  | allOperandsAreStreamingOutputs
  | allOperandsAreOtherInputs
  | allOperandsAreOtherOutputs
  | allButLastOperandIsStreamingInput
  | allButLastOperandIsOtherInput
  | allButFirstOperandIsStreamingInput
  | allButFirstOperandIsStreamingOutput
  | allButFirstOperandIsOtherInput
  | onlyLastOperandIsStreamOutput
  | onlyLastOperandIsOtherOutput
  | setAllOperandsAsConfigArgTypeString
  | setFirstOperandAsConfigArgTypeString
  | setFirstOperandAsConfigArgTypeFilenameOrStdDescriptor
  | setAllOperandsAsArgString
deriving DecidableEq, Repr

/-- What a call does with the information object of the generator (InputOutputInfoGenerator_Interface.py:92-150). -/
def IOCall.exec (c : CommandInvocationInitial) (i : InputOutputInfo) : IOCall → Py InputOutputInfo
  | .setImplicitUseOfStdin v => .ok (i.setImplicitUseOfStdinTo v)
  | .setImplicitUseOfStdout v => .ok (i.setImplicitUseOfStdoutTo v)
  | .ifNoOperandsGivenStdinImplicitlyUsed => .ok (PashAnn.ifNoOperandsGivenStdinImplicitlyUsed c i)
  | .allOperandsAreStreamingInputs => .ok i.allOperandsAreStreamingInputs
  | .allOperandsAreStreamingOutputs => .ok i.allOperandsAreStreamingOutputs
  | .allOperandsAreOtherInputs => .ok i.allOperandsAreOtherInputs
  | .allOperandsAreOtherOutputs => .ok i.allOperandsAreOtherOutputs
  | .allButLastOperandIsStreamingInput => .ok i.allButLastOperandIsStreamingInput
  | .allButLastOperandIsOtherInput => i.allButLastOperandIsOtherInput
  | .allButFirstOperandIsStreamingInput => .ok i.allButFirstOperandIsStreamingInput
  | .allButFirstOperandIsStreamingOutput => i.allButFirstOperandIsStreamingOutput
  | .allButFirstOperandIsOtherInput => i.allButFirstOperandIsOtherInput
  | .onlyLastOperandIsStreamOutput => i.onlyLastOperandIsStreamOutput
  | .onlyLastOperandIsOtherOutput => i.onlyLastOperandIsOtherOutput
  | .setAllOperandsAsConfigArgTypeString => .ok i.setAllOperandsAsConfigArgTypeString
  | .setFirstOperandAsConfigArgTypeString => i.setFirstOperandAsConfigArgTypeString
  | .setFirstOperandAsConfigArgTypeFilenameOrStdDescriptor => i.setFirstOperandAsConfigArgTypeFilenameOrStdDescriptor
  | .setAllOperandsAsArgString => .ok i.setAllOperandsAsConfigArgTypeString

/-- A `generate_info` that consists of these calls, one after the other (InputOutputInfoGenerator_Interface.py:37-39). -/
def IOCall.execAll (c : CommandInvocationInitial) (i : InputOutputInfo) : List IOCall → Py InputOutputInfo
  | [] => .ok i
  | call :: calls => do
      let i ← call.exec c i
      IOCall.execAll c i calls

/-- Making a generator for an invocation, calling these methods and `get_cmd_inv_with_io` for the same invocation
(InputOutputInfoGenerator_Interface.py:26-35, 44-45). -/
def generateWith (c : CommandInvocationInitial) (calls : List IOCall) : Py CommandInvocationWithIO := do
  let i ← initialInfo c
  let i ← IOCall.execAll c i calls
  i.apply c

end PashAnn
