import Verif.Model.IOVars

/-! Specification vocabulary for invocations whose files are replaced by variables. -/

namespace PashAnn.Spec

/-- The variable an argument is, if it is one. -/
def varOf : VArg → List IOVar
  | .var v => [v]
  | _ => []

/-- The variable in the argument of an `OptionWithIO`. -/
def optionVar : FlagOptionWithIOVar → List IOVar
  | .optionIO _ a => varOf a
  | _ => []

/-- The variable in the argument of an `OptionWithIOVar`, the class meant to hold variables. -/
def hiddenVar : FlagOptionWithIOVar → List IOVar
  | .optionVar _ _ a => varOf a
  | _ => []

/-- The variables of operands and implicit streams (and `OptionWithIO` arguments), in order of appearance. -/
def occurrences (c : CommandInvocationWithIOVars) : List IOVar :=
  c.flagOptionList.flatMap optionVar ++ c.operandList.flatMap varOf ++ c.implicitInput.toList ++
    c.implicitOutput.toList

/-- The variables that are arguments of `OptionWithIOVar` options. -/
def hiddenVars (c : CommandInvocationWithIOVars) : List IOVar := c.flagOptionList.flatMap hiddenVar

/-- The access kind recorded for a variable. -/
def accessOf (c : CommandInvocationWithIOVars) (v : IOVar) : Option AccessKind := c.accessMap.lookup v

/-- Every occurring variable has an access kind. -/
def Described (c : CommandInvocationWithIOVars) : Prop := ∀ v ∈ occurrences c, accessOf c v ≠ none

/-- The access map describes exactly the variables that occur anywhere. -/
def Consistent (c : CommandInvocationWithIOVars) : Prop :=
  ∀ v, accessOf c v ≠ none ↔ v ∈ occurrences c ∨ v ∈ hiddenVars c

/-- Occurrences with a given access kind. -/
def withAccess (c : CommandInvocationWithIOVars) (a : AccessKind) : List IOVar :=
  (occurrences c).filter (fun v => accessOf c v = some a)

/-- Rename the variables of an argument. -/
def renameArg (f : IOVar → IOVar) : VArg → VArg
  | .var v => .var (f v)
  | x => x

/-- Rename the variable of an `OptionWithIO`. -/
def renameOption (f : IOVar → IOVar) : FlagOptionWithIOVar → FlagOptionWithIOVar
  | .optionIO n a => .optionIO n (renameArg f a)
  | x => x

/-- Rename all occurrences, leaving the access map alone. -/
def rename (f : IOVar → IOVar) (c : CommandInvocationWithIOVars) : CommandInvocationWithIOVars :=
  { c with flagOptionList := c.flagOptionList.map (renameOption f)
           operandList := c.operandList.map (renameArg f)
           implicitInput := c.implicitInput.map f
           implicitOutput := c.implicitOutput.map f }

/-- Two invocations are the same except for which variables occur and for the access map. -/
def SameShape (c c' : CommandInvocationWithIOVars) : Prop :=
  { rename (fun _ => 0) c with accessMap := [] } = { rename (fun _ => 0) c' with accessMap := [] }

/-- In `old`, replace the elements that satisfy `p` by the elements of `new`, in order. -/
def replaceInOrder (p : IOVar → Prop) [DecidablePred p] : List IOVar → List IOVar → List IOVar
  | [], _ => []
  | v :: old, new =>
      if p v then match new with
        | [] => v :: replaceInOrder p old []
        | n :: new => n :: replaceInOrder p old new
      else v :: replaceInOrder p old new

end PashAnn.Spec
