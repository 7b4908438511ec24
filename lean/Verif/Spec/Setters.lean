import Verif.Model.Setters
import Verif.Spec.IO

/-!
What the names of the methods for authors of generators say.
-/

namespace PashAnn.Spec

/-- What the name of the method says about operand number `k` of `n` (counted from zero); `none` if it says nothing
about it. -/
def says (n k : Nat) : IOCall → Option Typer
  | .setImplicitUseOfStdin _ | .setImplicitUseOfStdout _ | .ifNoOperandsGivenStdinImplicitlyUsed => none
  | .allOperandsAreStreamingInputs => some (.fileStd .streamInput)
  | .allOperandsAreStreamingOutputs => some (.fileStd .streamOutput)
  | .allOperandsAreOtherInputs => some (.fileStd .otherInput)
  | .allOperandsAreOtherOutputs => some (.fileStd .otherOutput)
  | .allButLastOperandIsStreamingInput => if k + 1 = n then none else some (.fileStd .streamInput)
  | .allButLastOperandIsOtherInput => if k + 1 = n then none else some (.fileStd .otherInput)
  | .allButFirstOperandIsStreamingInput => if k = 0 then none else some (.fileStd .streamInput)
  | .allButFirstOperandIsStreamingOutput => if k = 0 then none else some (.fileStd .streamOutput)
  | .allButFirstOperandIsOtherInput => if k = 0 then none else some (.fileStd .otherInput)
  | .onlyLastOperandIsStreamOutput => if k + 1 = n then some (.fileStd .streamOutput) else none
  | .onlyLastOperandIsOtherOutput => if k + 1 = n then some (.fileStd .otherOutput) else none
  | .setAllOperandsAsConfigArgTypeString | .setAllOperandsAsArgString => some .argString
  | .setFirstOperandAsConfigArgTypeString => if k = 0 then some .argString else none
  | .setFirstOperandAsConfigArgTypeFilenameOrStdDescriptor => if k = 0 then some (.fileStd .configInput) else none

/-- What is said last about operand `k` of `n`; if nothing is said, it is a streaming input. -/
def saidLast (n k : Nat) (calls : List IOCall) : Typer :=
  ((calls.filterMap (says n k)).getLast?).getD (.fileStd .streamInput)

/-- The method takes it for granted that there is an operand. -/
def needsOperand : IOCall → Bool
  | .allButLastOperandIsOtherInput | .allButFirstOperandIsStreamingOutput | .allButFirstOperandIsOtherInput
  | .onlyLastOperandIsStreamOutput | .onlyLastOperandIsOtherOutput | .setFirstOperandAsConfigArgTypeString
  | .setFirstOperandAsConfigArgTypeFilenameOrStdDescriptor => true
  | _ => false

/-- The method says that the operands are streaming inputs, as they are in the beginning. -/
def saysStreamingInput : IOCall → Bool
  | .allOperandsAreStreamingInputs | .allButLastOperandIsStreamingInput | .allButFirstOperandIsStreamingInput => true
  | _ => false

/-- No method says of an operand that it is a streaming input after another one has said something else about it. -/
def Orderly (n : Nat) (calls : List IOCall) : Prop :=
  ∀ before call after, calls = before ++ call :: after → saysStreamingInput call = true →
    ∀ k < n, (says n k call).isSome → saidLast n k before = .fileStd .streamInput

/-- The standard input is said to be used. -/
def saysStdin (n : Nat) (calls : List IOCall) : Prop :=
  .setImplicitUseOfStdin true ∈ calls ∨ (.ifNoOperandsGivenStdinImplicitlyUsed ∈ calls ∧ n = 0)

end PashAnn.Spec
