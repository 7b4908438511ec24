import Verif.Model.IOVars

/-!
The queries by access kind of invocations with variables (CommandInvocationWithIOVars.py:196-227) and the object
`generate_inputs` returns (annotation_generation/datatypes/Inputs.py). Those of invocations without variables are in
Model/Basic.lean.
-/

namespace PashAnn

/-- `InputsEnum` (Inputs.py:4-6). -/
inductive InputsKind where
  | default
  | streaming
deriving DecidableEq, Repr

/-- `Inputs` (Inputs.py:9-13); `values` is a pair wherever the code builds one. -/
structure Inputs where
  kind : InputsKind
  values : List IOVar × List IOVar
deriving DecidableEq, Repr

namespace Inputs

/-- Inputs.py:15-16 -/
def isStreaming (i : Inputs) : Bool := i.kind == .streaming

/-- Inputs.py:18-20 -/
def getConfigInputs (i : Inputs) : Py (List IOVar) := do
  pyAssert i.isStreaming
  .ok i.values.1

/-- Inputs.py:22-24 -/
def getStreamingInputs (i : Inputs) : Py (List IOVar) := do
  pyAssert i.isStreaming
  .ok i.values.2

/-- Inputs.py:26-32 -/
def getAllInputs (i : Inputs) : Py (List IOVar) :=
  if i.kind = .streaming then .ok (i.values.1 ++ i.values.2) else .error .assertionError

end Inputs

namespace CommandInvocationWithIOVars

/-- `generate_inputs` with the object it returns (CommandInvocationWithIOVars.py:78-86). -/
def generateInputsObject (c : CommandInvocationWithIOVars) : Py (Inputs × CommandInvocationWithIOVars) := do
  let r ← c.generateInputs
  .ok (⟨.streaming, ([], r.1)⟩, r.2)

/-- CommandInvocationWithIOVars.py:196-200 -/
def getOperandsWithConfigInput (c : CommandInvocationWithIOVars) : List VArg :=
  c.operandList.filter fun
    | .str _ => true
    | .io f => f.access.isConfigInput
    | .var _ => false

/-- CommandInvocationWithIOVars.py:202-204 -/
def getOperandsWithStreamInput (c : CommandInvocationWithIOVars) : List VArg :=
  c.operandList.filter fun
    | .str _ => false
    | .io f => f.access.isStreamInput
    | .var _ => false

/-- CommandInvocationWithIOVars.py:206-208 -/
def getOperandsWithOtherInput (c : CommandInvocationWithIOVars) : List VArg :=
  c.operandList.filter fun
    | .str _ => false
    | .io f => f.access.isOtherInput
    | .var _ => false

/-- CommandInvocationWithIOVars.py:210-212 -/
def getOperandsWithStreamOutput (c : CommandInvocationWithIOVars) : List VArg :=
  c.operandList.filter fun
    | .str _ => false
    | .io f => f.access.isStreamOutput
    | .var _ => false

/-- CommandInvocationWithIOVars.py:214-216 -/
def getOperandsWithOtherOutput (c : CommandInvocationWithIOVars) : List VArg :=
  c.operandList.filter fun
    | .str _ => false
    | .io f => f.access.isOtherOutput
    | .var _ => false

/-- CommandInvocationWithIOVars.py:218-222: only `OptionWithIO` counts. -/
def getOptionsWithOtherOutput (c : CommandInvocationWithIOVars) : List FlagOptionWithIOVar :=
  c.flagOptionList.filter fun
    | .optionIO _ (.io f) => f.access.isOtherOutput
    | _ => false

end CommandInvocationWithIOVars
end PashAnn
