import Verif.Model.Py

/-! Model of /repo/pash_annotations/datatypes/AccessKind.py. -/

namespace PashAnn

/-- `AccessKindEnum` (AccessKind.py:5-12). The wrapper class `AccessKind` (AccessKind.py:15-24) has the
enum as its only field and `standard_eq` as equality, so it is identified with the enum. -/
inductive AccessKind where
  | configInput
  | streamInput
  | containerForInput
  | excludesFromInput
  | otherInput
  | streamOutput
  | otherOutput
deriving DecidableEq, Repr

namespace AccessKind

/-- AccessKind.py:26-27 -/
def isConfigInput (a : AccessKind) : Bool := a == configInput
/-- AccessKind.py:29-30 -/
def isStreamInput (a : AccessKind) : Bool := a == streamInput
/-- AccessKind.py:32-33 -/
def isContainerForInput (a : AccessKind) : Bool := a == containerForInput
/-- AccessKind.py:35-36 -/
def isExcludesFromInput (a : AccessKind) : Bool := a == excludesFromInput
/-- AccessKind.py:38-39 -/
def isOtherInput (a : AccessKind) : Bool := a == otherInput
/-- AccessKind.py:41-43 -/
def isAnyInput (a : AccessKind) : Bool :=
  a.isConfigInput || a.isStreamInput || a.isOtherInput || a.isContainerForInput || a.isExcludesFromInput
/-- AccessKind.py:45-46 -/
def isStreamOutput (a : AccessKind) : Bool := a == streamOutput
/-- AccessKind.py:48-49 -/
def isOtherOutput (a : AccessKind) : Bool := a == otherOutput
/-- AccessKind.py:51-52 -/
def isAnyOutput (a : AccessKind) : Bool := a.isStreamOutput || a.isOtherOutput

/-- `get_access_from_string` (AccessKind.py:75-91). -/
def ofString (value : String) : Py AccessKind :=
  if value = "CONFIG_INPUT" then .ok configInput
  else if value = "STREAM_INPUT" then .ok streamInput
  else if value = "CONTAINER_FOR_INPUT" then .ok containerForInput
  else if value = "EXCLUDES_FROM_INPUT" then .ok excludesFromInput
  else if value = "OTHER_INPUT" then .ok otherInput
  else if value = "STREAM_OUTPUT" then .ok streamOutput
  else if value = "OTHER_OUTPUT" then .ok otherOutput
  else .error (.exception "unknown option for access kind")

end AccessKind
end PashAnn
