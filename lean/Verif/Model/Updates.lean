import Verif.Model.Files

/-!
Reading a command line while files are exchanged: `get_json_data` opens one file and, if there is none, then another, and between
the two anything may happen on the machine. Simplified: each file is opened and read at one moment.
-/

namespace PashAnn.Files

/-- `get_json_data` (util_parser.py:5-16): the file for the command is opened on the first machine (util_parser.py:9), the default
file on the second (util_parser.py:12). -/
def getJsonDuring (m₁ m₂ : Machine) (name : String) : Py Json :=
  if name.toList.contains (Char.ofNat 0) then .error (.valueError "embedded null byte")
  else match getData m₁ (resourceOf name.toList) with
    | .ok bytes => Bytes.loads bytes
    | .error .noEntry =>
      match getData m₂ (resourceOf "_default_data_for_commands".toList) with
      | .ok bytes => Bytes.loads bytes
      | .error .noEntry => .error (.exception "json-File for default values not found.")
      | .error e => .error (raised e)
    | .error e => .error (raised e)

/-- `parse` (parser.py:9-56), with files opened at two moments. -/
def parseDuring (m₁ m₂ : Machine) (command : String) : Py DataFiles.AnyInvocation := do
  match ← Shlex.split command with
  | [] => .error .indexError
  | name :: ws => do
    let j ← getJsonDuring m₁ m₂ name
    let r ← DataFiles.readWords j ws
    .ok ⟨name, r.1, r.2⟩

/-- The constructor of the generators (InputOutputInfoGenerator_Interface.py:26-35, 45-61), with files opened at two moments. -/
def initialInfoDuring (m₁ m₂ : Machine) (c : CommandInvocationInitial) : Py InputOutputInfo := do
  let j ← getJsonDuring m₁ m₂ c.cmdName
  let dict ← DataFiles.dictOptionToClassForArg j
  let typers ← c.flagOptionList.mapM (DataFiles.typerOf dict)
  .ok (InputOutputInfo.init typers c.operandList.length)

end PashAnn.Files
