import Verif.Spec.Lines

/-!
When a parallelizer that is offered can be carried out, for C108: the actual mapper is made from the invocation by putting
one new variable in the place of its streaming input and one in the place of its streaming output.
-/

namespace PashAnn.Spec

/-- How a file or stream is accessed. -/
def accessIn : FileWithIO → AccessKind
  | .file _ a => a
  | .std _ a => a

/-- The file or stream that an operand is, if it is one. -/
def fileIn : ArgWithIO → Option FileWithIO
  | .io f => some f
  | .argString _ => none

/-- The files and streams of an invocation that are operands or are used without being named. -/
def streamsOf (c : CommandInvocationWithIO) : List FileWithIO :=
  c.operandList.filterMap fileIn ++ c.implicitInput.toList ++ c.implicitOutput.toList

/-- Those with that access. -/
def streamsWith (c : CommandInvocationWithIO) (a : AccessKind) : List FileWithIO :=
  (streamsOf c).filter fun f => decide (accessIn f = a)

/-- The invocation reads one stream and writes one, and neither is the argument of an option. -/
def OneInOneOut (c : CommandInvocationWithIO) : Prop :=
  (streamsWith c .streamInput).length = 1 ∧ (streamsWith c .streamOutput).length = 1

/-- The invocations with a parallelizer that have one streaming input and one streaming output, command by command.
`sed` and some test commands are taken to read standard input even if files are given; the sorts write the argument of
`-o`. -/
inductive OneWorker (inv : CommandInvocationInitial) : Prop
  | always : inv.cmdName ∈ ["custom_tr", "set_diff", "tr", "uniq", "xargs"] → OneWorker inv
  | cut : inv.cmdName = "cut" → inv.operandList.length ≤ 1 → OneWorker inv
  | sort : inv.cmdName ∈ ["custom_sort", "sort"] → inv.operandList.length ≤ 1 → ¬ Has inv "-o" → OneWorker inv
  | stdin : inv.cmdName ∈ ["alt_bigrams_aux", "col", "test_one", "test_two"] → inv.operandList = [] →
      OneWorker inv
  | grepOption : inv.cmdName = "grep" → Has inv "-e" ∨ Has inv "-f" → inv.operandList.length ≤ 1 → OneWorker inv
  | grepOperand : inv.cmdName = "grep" → ¬ (Has inv "-e" ∨ Has inv "-f") → inv.operandList.length ≤ 2 → OneWorker inv
  | sed : inv.cmdName = "sed" → ¬ (Has inv "-e" ∨ Has inv "-f") → inv.operandList.length = 1 → OneWorker inv

end PashAnn.Spec
