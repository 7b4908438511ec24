import Verif.Model.IOGenerators
import Verif.Model.ParGenerators

/-! Model of /repo/pash_annotations/annotation_cli.py. The report is kept as a value, and
turning it into text is a parameter; `Model/PlanText.lean` has the text of the report. -/

namespace PashAnn.Cli

/-- The part of the report about inputs and outputs (annotation_cli.py:53-62). -/
inductive IOReport where
  | sideEffectful
  | otherOutputs
  | applied (c : CommandInvocationWithIO)
deriving DecidableEq, Repr

/-- What is reported (annotation_cli.py:45-68). -/
structure Report where
  command : String
  parsed : CommandInvocationInitial
  io : IOReport
  para : ParallelizabilityInfo
deriving Repr

/-- annotation_cli.py:53-61 -/
def ioReport (c : CommandInvocationInitial) : Py IOReport :=
  match getInputOutputInfo c with
  | none => .ok .sideEffectful
  | some i =>
      if i.hasOtherOutputs then .ok .otherOutputs
      else do
        let r ← i.apply c
        .ok (.applied r)

/-- annotation_cli.py:45-68 -/
def report (command : String) : Py Report := do
  let parsed ← parse command
  let io ← ioReport parsed
  .ok { command := command, parsed := parsed, io := io, para := (getParallelizabilityInfo parsed).getD {} }

/-- Regular files by path; `none` if there is no file. Files that exist but cannot be opened, and directories, are
not modelled. Used in annotation_cli.py:36 and 69. -/
abbrev FileSystem := String → Option String

/-- `"".join(script_path.rpartition('/')[:2])` (annotation_cli.py:25-27): the script's path up to and including its
last slash, nothing if it has none. -/
def scriptPrefixOf (scriptPath : String) : String :=
  String.ofList (scriptPath.toList.reverse.dropWhile (· ≠ '/')).reverse

/-- `shall_we_write_to_file` (annotation_cli.py:32-39): opening for reading succeeds if the file exists. The path
is the script's directory followed by the argument (25-27, 36). -/
def shallWeWrite (fs : FileSystem) (scriptPrefix : String) : Option String → Bool
  | none => false
  | some path => (fs (scriptPrefix ++ path)).isSome

/-- The message of annotation_cli.py:40-41. -/
def notice : String := "There exists a file on the provided path so the result will be output (only). "

/-- A whole run of the script (annotation_cli.py:25-73) with parsed arguments: what it prints, line by line, and the
file system afterwards; or the exception it ends with. `text` is the conversion of the report to a string. -/
def run (text : Report → String) (fs : FileSystem) (scriptPrefix : String) (saveTo : Option String)
    (command : String) : (List String × FileSystem) × Option PyErr :=
  let printed := if saveTo.isSome && !shallWeWrite fs scriptPrefix saveTo then [notice] else []
  match report command with
  | .error e => ((printed, fs), some e)
  | .ok r =>
      match saveTo with
      | none => ((printed ++ [text r], fs), none)
      | some path =>
          if shallWeWrite fs scriptPrefix saveTo then
            ((printed, fun p => if p = scriptPrefix ++ path then some (text r) else fs p), none)
          else ((printed ++ [text r], fs), none)

end PashAnn.Cli
