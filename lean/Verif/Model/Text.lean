import Verif.Model.Basic

/-!
The texts of invocations: what `str`, `repr` and `print` show (util_standard.py:1-9 and the `__repr__` methods of the
classes). The module part of the class names is that of an installed package, `pash_annotations....`.
-/

namespace PashAnn.Text

/-- One round of the loop of `standard_repr` (util_standard.py:7-8). -/
def addAttribute (s : String) (pair : String × String) : String :=
  s ++ "\t " ++ pair.1 ++ ": " ++ pair.2 ++ "\n"

/-- `standard_repr` (util_standard.py:1-9): the class, and every attribute with its text. -/
def standardRepr (cls : String) (attributes : List (String × String)) : String :=
  attributes.foldl addAttribute
    ("<class 'pash_annotations.datatypes." ++ cls ++ "'>" ++ (if attributes.length ≠ 0 then ": \n" else "\n"))

/-- The elements of a list without its brackets, as Python prints them. For util_standard.py:7-8. -/
def commas : List String → String
  | [] => ""
  | [x] => x
  | x :: xs => x ++ ", " ++ commas xs

/-- Python's `str` of a list whose elements have these texts. For util_standard.py:7-8. -/
def listRepr (l : List String) : String := "[" ++ commas l ++ "]"

/-- `Flag` and `Option` (BasicDatatypes.py:69-88; `__repr__` 12-13). -/
def flagOption : FlagOption → String
  | .flag n => standardRepr "BasicDatatypes.Flag" [("flag_name", n)]
  | .option n a => standardRepr "BasicDatatypes.Option" [("option_name", n), ("option_arg", a)]

/-- `CommandInvocationInitial.__repr__` (CommandInvocationInitial.py:8-14). The text of an operand is its name
(BasicDatatypes.py:106-107). -/
def initial (c : CommandInvocationInitial) : String :=
  standardRepr "CommandInvocationInitial.CommandInvocationInitial"
    [("cmd_name", c.cmdName), ("flag_option_list", listRepr (c.flagOptionList.map flagOption)),
     ("operand_list", listRepr c.operandList)]

/-- `str` of a member of `StdDescriptorEnum` (BasicDatatypes.py:31-34). -/
def stdDescriptor : StdDescriptor → String
  | .stdin => "StdDescriptorEnum.STDIN"
  | .stdout => "StdDescriptorEnum.STDOUT"
  | .stderr => "StdDescriptorEnum.STDERR"

/-- `str` of a member of `AccessKindEnum` (AccessKind.py:5-12). -/
def accessKindEnum : AccessKind → String
  | .configInput => "AccessKindEnum.CONFIG_INPUT"
  | .streamInput => "AccessKindEnum.STREAM_INPUT"
  | .containerForInput => "AccessKindEnum.CONTAINER_FOR_INPUT"
  | .excludesFromInput => "AccessKindEnum.EXCLUDES_FROM_INPUT"
  | .otherInput => "AccessKindEnum.OTHER_INPUT"
  | .streamOutput => "AccessKindEnum.STREAM_OUTPUT"
  | .otherOutput => "AccessKindEnum.OTHER_OUTPUT"

/-- `AccessKind.__repr__` (AccessKind.py:17-21). -/
def accessKind (a : AccessKind) : String := standardRepr "AccessKind.AccessKind" [("kind", accessKindEnum a)]

/-- `FileNameWithIOInfo` and `StdDescriptorWithIOInfo` (BasicDatatypesWithIO.py:23-37): the attribute `name` is set
before `access`. -/
def fileWithIO : FileWithIO → String
  | .file n a => standardRepr "BasicDatatypesWithIO.FileNameWithIOInfo" [("name", n), ("access", accessKind a)]
  | .std d a =>
      standardRepr "BasicDatatypesWithIO.StdDescriptorWithIOInfo" [("name", stdDescriptor d), ("access", accessKind a)]

/-- A typed operand or option argument; `ArgStringType` is BasicDatatypes.py:59-65. -/
def argWithIO : ArgWithIO → String
  | .argString s => standardRepr "BasicDatatypes.ArgStringType" [("name", s)]
  | .io f => fileWithIO f

/-- `Flag` or `OptionWithIO` (BasicDatatypesWithIO.py:80-84). -/
def flagOptionWithIO : FlagOptionWithIO → String
  | .flag n => standardRepr "BasicDatatypes.Flag" [("flag_name", n)]
  | .option n a =>
      standardRepr "BasicDatatypesWithIO.OptionWithIO" [("option_name", n), ("option_arg", argWithIO a)]

/-- An implicit stream, or `None`. For util_standard.py:7-8. -/
def implicit : Option FileWithIO → String
  | none => "None"
  | some f => fileWithIO f

/-- `CommandInvocationWithIO.__repr__` (CommandInvocationWithIO.py:10-25). -/
def withIO (c : CommandInvocationWithIO) : String :=
  standardRepr "CommandInvocationWithIO.CommandInvocationWithIO"
    [("cmd_name", c.cmdName), ("flag_option_list", listRepr (c.flagOptionList.map flagOptionWithIO)),
     ("operand_list", listRepr (c.operandList.map argWithIO)),
     ("implicit_use_of_streaming_input", implicit c.implicitInput),
     ("implicit_use_of_streaming_output", implicit c.implicitOutput)]

end PashAnn.Text
