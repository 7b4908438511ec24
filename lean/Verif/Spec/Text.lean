import Verif.Model.Basic

/-! Names that cannot be mistaken for something else in the text of an invocation. -/

namespace PashAnn.Spec

/-- No line break. -/
def OneLine (s : String) : Prop := '\n' ∉ s.toList

/-- No comma followed by a space. -/
def NoSeparator (s : String) : Prop := ¬ [',', ' '] <:+: s.toList

/-- The names and the argument of a flag or option are on one line. -/
def OneLineFlag : FlagOption → Prop
  | .flag n => OneLine n
  | .option n a => OneLine n ∧ OneLine a

/-- The name of a typed operand or option argument is on one line. -/
def OneLineArg : ArgWithIO → Prop
  | .argString s => OneLine s
  | .io (.file n _) => OneLine n
  | .io (.std _ _) => True

/-- The same for typed flags and options. -/
def OneLineFlagWithIO : FlagOptionWithIO → Prop
  | .flag n => OneLine n
  | .option n a => OneLine n ∧ OneLineArg a

/-- All names of a typed invocation are on one line. -/
structure OneLineInvocation (c : CommandInvocationWithIO) : Prop where
  command : OneLine c.cmdName
  flagsAndOptions : ∀ x ∈ c.flagOptionList, OneLineFlagWithIO x
  operands : ∀ x ∈ c.operandList, OneLineArg x
  input : ∀ f, c.implicitInput = some f → OneLineArg (.io f)
  output : ∀ f, c.implicitOutput = some f → OneLineArg (.io f)

end PashAnn.Spec
