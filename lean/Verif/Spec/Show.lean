import Verif.Model.IOVars

/-! What a printed object looks like, for property C113. -/

namespace PashAnn

/-- The printed form of an object of the class with this path: the class on the first line, then one line per attribute with its
name and its value. (Values may have line breaks themselves.) -/
def PrintedObject (path : String) (attributes : List (String × String)) : String :=
  "<class '" ++ path ++ "'>" ++ (if attributes = [] then "" else ": ") ++ "\n" ++
    String.join (attributes.map fun a => "\t " ++ a.1 ++ ": " ++ a.2 ++ "\n")

/-- Elements or items with commas between them. -/
def Separated : List String → String
  | [] => ""
  | x :: xs => x ++ String.join (xs.map fun y => ", " ++ y)

/-- The attributes of an invocation with variables, in order, with their texts: variables are numbers, and the accesses are shown as
a dictionary from variables, in the order in which they were entered. The texts of flags, of operands that are not variables,
and of accesses are given. -/
def PrintedVars (flag : FlagOptionWithIOVar → String) (operand : VArg → String) (access : AccessKind → String)
    (c : CommandInvocationWithIOVars) : List (String × String) :=
  [("cmd_name", c.cmdName),
   ("flag_option_list", "[" ++ Separated (c.flagOptionList.map flag) ++ "]"),
   ("operand_list", "[" ++ Separated (c.operandList.map fun
      | .var v => toString v
      | a => operand a) ++ "]"),
   ("implicit_use_of_streaming_input", c.implicitInput.elim "None" toString),
   ("implicit_use_of_streaming_output", c.implicitOutput.elim "None" toString),
   ("access_map", "{" ++ Separated (c.accessMap.map fun p => toString p.1 ++ ": " ++ access p.2) ++ "}")]

end PashAnn
