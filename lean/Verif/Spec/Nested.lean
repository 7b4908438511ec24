import Verif.Spec.Streams

/-! Specification vocabulary for C93: runs of a command in which parts are run in parallel again. -/

namespace PashAnn.Spec

variable {α : Type}

/-- A mapper that the parallelizer gives for the invocation, with variables that are not used yet. -/
def MapperOf (p : Parallelizer) (c m : CommandInvocationWithIOVars) : Prop :=
  ∃ i o, Unused c i ∧ Unused c o ∧ o ≠ i ∧ p.getActualMapper c i o [] = .ok (some m)

/-- A run of an invocation on an input, which belongs to the parsed invocation `inv`: either the command is run, or a
parallelizer that is offered is executed, where each part is given to a mapper and each mapper is run in any of these
ways, to any depth. -/
inductive Runs (prog : ProgramsOn α) (inv : CommandInvocationInitial) : CommandInvocationWithIOVars → List α → List α → Prop
  | direct (c : CommandInvocationWithIOVars) (x : List α) : Runs prog inv c x (sequential prog c x)
  | parallel {c : CommandInvocationWithIOVars} {x y : List α} {p : Parallelizer}
      {runs : List (CommandInvocationWithIOVars × List α × List α)} (hp : Offered inv p)
      (hs : Split p.splitter x (runs.map (·.2.1))) (hm : ∀ r ∈ runs, MapperOf p c r.1)
      (hr : ∀ r ∈ runs, Runs prog inv r.1 r.2.1 r.2.2) (h : Recombined prog p c (runs.map (·.2.2)) y) :
      Runs prog inv c x y

/-- Same command, same flags and options, same operands that are not files. -/
def SameCommand (c c' : CommandInvocationWithIOVars) : Prop :=
  c'.cmdName = c.cmdName ∧ c'.flagOptionList = c.flagOptionList ∧ strOperands c' = strOperands c

end PashAnn.Spec
