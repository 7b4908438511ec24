import Verif.Model.Access

/-!
Model of the data types in /repo/pash_annotations/datatypes/BasicDatatypes.py,
BasicDatatypesWithIO.py, CommandInvocationInitial.py and CommandInvocationWithIO.py.
Class identity is modelled by constructors; `standard_eq` (util_standard.py:11-14: same class, equal
fields) is then Lean equality.
-/

namespace PashAnn

/-- `Flag` (BasicDatatypes.py:69-75) or `Option` (BasicDatatypes.py:78-88); `FlagOption` is their union
(BasicDatatypes.py:96). Line numbers are those of BasicDatatypes.py itself. -/
inductive FlagOption where
  | flag (name : String)
  | option (name : String) (arg : String)
deriving DecidableEq, Repr

/-- `get_name` of `Flag` and `Option` (BasicDatatypes.py:74-75, 84-85). -/
def FlagOption.getName : FlagOption → String
  | flag n => n
  | option n _ => n

/-- `CommandInvocationInitial` (CommandInvocationInitial.py:6-17). An `Operand`
(BasicDatatypes.py:101-121) wraps exactly one string and is represented by that string. -/
structure CommandInvocationInitial where
  cmdName : String
  flagOptionList : List FlagOption
  operandList : List String
deriving DecidableEq, Repr

/-- Python `s.find(pat)` on the suffix `s` that starts at index `i`: index of the first occurrence or -1. For
BasicDatatypes.py:114-118. -/
def pyFindFrom (pat : List Char) : List Char → Nat → Int
  | [], i => if pat.isPrefixOf [] then (i : Int) else -1
  | c :: cs, i => if pat.isPrefixOf (c :: cs) then (i : Int) else pyFindFrom pat cs (i + 1)

/-- Python `s.find(pat)`. Used in BasicDatatypes.py:114-118. -/
def pyFind (s pat : String) : Int := pyFindFrom pat.toList s.toList 0

/-- `Operand.contains_new_line` (BasicDatatypes.py:112-114): the raw string `\n` is a backslash and an n. -/
def containsNewLine (operand : String) : Bool := decide (pyFind operand "\\n" > 0)

/-- `Operand.contains_null_char` (BasicDatatypes.py:116-118). -/
def containsNullChar (operand : String) : Bool := decide (pyFind operand "\\0" > 0)

/-- `StdDescriptorEnum` (BasicDatatypes.py:31-34); `StdDescriptor` (36-46) wraps it. -/
inductive StdDescriptor where
  | stdin
  | stdout
  | stderr
deriving DecidableEq, Repr

/-- `FileName` or `StdDescriptor` (BasicDatatypes.py:22-57). -/
inductive FileNameOrStdDescriptor where
  | file (name : String)
  | std (d : StdDescriptor)
deriving DecidableEq, Repr

/-- `FileNameOrStdDescriptorWithIOInfo` (BasicDatatypesWithIO.py:23-48). -/
inductive FileWithIO where
  | file (name : String) (access : AccessKind)
  | std (d : StdDescriptor) (access : AccessKind)
deriving DecidableEq, Repr

/-- `get_access` (BasicDatatypesWithIO.py:13-14). -/
def FileWithIO.access : FileWithIO → AccessKind
  | file _ a => a
  | std _ a => a

/-- `Union[ArgStringType, FileNameOrStdDescriptorWithIOInfo]`: typed operands and option arguments
(CommandInvocationWithIO.py:13, BasicDatatypesWithIO.py:82). -/
inductive ArgWithIO where
  | argString (s : String)
  | io (f : FileWithIO)
deriving DecidableEq, Repr

/-- `Union[Flag, OptionWithIO]` (BasicDatatypesWithIO.py:80-93). -/
inductive FlagOptionWithIO where
  | flag (name : String)
  | option (name : String) (arg : ArgWithIO)
deriving DecidableEq, Repr

/-- `CommandInvocationWithIO` (CommandInvocationWithIO.py:7-28). -/
structure CommandInvocationWithIO where
  cmdName : String
  flagOptionList : List FlagOptionWithIO
  operandList : List ArgWithIO
  implicitInput : Option FileWithIO
  implicitOutput : Option FileWithIO
deriving DecidableEq, Repr

namespace CommandInvocationWithIO

/-- CommandInvocationWithIO.py:174-178 -/
def getOperandsWithConfigInput (c : CommandInvocationWithIO) : List ArgWithIO :=
  c.operandList.filter fun
    | .argString _ => true
    | .io f => f.access.isConfigInput

/-- CommandInvocationWithIO.py:180-182 -/
def getOperandsWithStreamInput (c : CommandInvocationWithIO) : List ArgWithIO :=
  c.operandList.filter fun
    | .argString _ => false
    | .io f => f.access.isStreamInput

/-- CommandInvocationWithIO.py:184-186 -/
def getOperandsWithOtherInput (c : CommandInvocationWithIO) : List ArgWithIO :=
  c.operandList.filter fun
    | .argString _ => false
    | .io f => f.access.isOtherInput

/-- CommandInvocationWithIO.py:188-190 -/
def getOperandsWithStreamOutput (c : CommandInvocationWithIO) : List ArgWithIO :=
  c.operandList.filter fun
    | .argString _ => false
    | .io f => f.access.isStreamOutput

/-- CommandInvocationWithIO.py:192-194 -/
def getOperandsWithOtherOutput (c : CommandInvocationWithIO) : List ArgWithIO :=
  c.operandList.filter fun
    | .argString _ => false
    | .io f => f.access.isOtherOutput

/-- CommandInvocationWithIO.py:196-200 -/
def getOptionsWithOtherOutput (c : CommandInvocationWithIO) : List FlagOptionWithIO :=
  c.flagOptionList.filter fun
    | .flag _ => false
    | .option _ (.argString _) => false
    | .option _ (.io f) => f.access.isOtherOutput

end CommandInvocationWithIO

/-- `compute_actual_el_for_input` (util.py:20-24). -/
def computeActualElForInput (el : String) : FileNameOrStdDescriptor :=
  if el = "-" then .std .stdin else .file el

/-- `compute_actual_el_for_output` (util.py:27-31). -/
def computeActualElForOutput (el : String) : FileNameOrStdDescriptor :=
  if el = "-" then .std .stdout else .file el

/-- `list_deduplication` (util.py:13-17): the growing result list is the accumulator. -/
def listDeduplicationGo {α : Type} [DecidableEq α] (acc : List α) : List α → List α
  | [] => acc
  | x :: xs => if x ∈ acc then listDeduplicationGo acc xs else listDeduplicationGo (acc ++ [x]) xs

/-- `list_deduplication` (util.py:13-17). -/
def listDeduplication {α : Type} [DecidableEq α] (l : List α) : List α := listDeduplicationGo [] l

/-- `foldl` (util.py:6-10): note the argument order `func(el, acc)`. -/
def pyFoldl {α β : Type} (func : α → β → β) (acc0 : β) : List α → β
  | [] => acc0
  | el :: els => pyFoldl func (func el acc0) els

end PashAnn
