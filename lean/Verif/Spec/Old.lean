import Verif.Spec.ParTable
import Verif.Model.OldData

/-!
The classes of the older annotations, compared with the parallelizers that are offered, for C110.
-/

namespace PashAnn.Spec

/-- A file of the older annotations is about the command, and the first of its cases that applies has this class. -/
def OldSays (inv : CommandInvocationInitial) (k : OldClass) : Prop :=
  ∃ a ∈ oldAnnotations, a.command = inv.cmdName ∧ ∃ c, a.case inv = some c ∧ c.cls = k

/-- What is offered fits the class: for stateless commands the outputs on the parts can be concatenated, for
parallelizable pure ones they can be combined somehow, and for others nothing is offered. -/
def FitsClass (inv : CommandInvocationInitial) : OldClass → Prop
  | .stateless => ∃ p, Offered inv p ∧ p.coreAggregatorSpec.kind = .concatenate
  | .parallelizablePure => ∃ p, Offered inv p
  | .pureOnly | .sideEffectful => ¬ ∃ p, Offered inv p

/-- Something is offered although the older class forbids it. -/
inductive Bolder (inv : CommandInvocationInitial) : Prop
  | uniq : inv.cmdName = "uniq" → ¬ HasAny inv ["-d", "-D", "--all-repeated"] → Bolder inv
  | sed {o os} : inv.cmdName = "sed" → inv.operandList = o :: os →
      StartsWith "-" o ∨ StartsWith "s" o ∨ (¬ Occurs "d" o ∧ ¬ Occurs "q" o) → Bolder inv
  /-- `cut` by fields that end with newlines. -/
  | cut : inv.cmdName = "cut" → (∃ n ∈ ["-d", "--delimiter"], .option n "\n" ∈ inv.flagOptionList) →
      HasAny inv ["-f", "--fields"] → Bolder inv
  | trSqueeze : inv.cmdName = "tr" → ¬ Has inv "-d" → Has inv "-s" → inv.operandList ≠ [] → Bolder inv
  /-- `grep -c` is thought to print lines if lines around the matches are asked for as well. -/
  | grepCount : inv.cmdName = "grep" → Has inv "-c" → ¬ Has inv "-q" → HasAny inv ["-A", "-B", "-C", "-m"] → Bolder inv
  /-- `grep` in the files of a directory. -/
  | grepRecursive : inv.cmdName = "grep" → ¬ Has inv "-c" → inv.operandList.length ≠ 1 →
      HasAny inv ["-r", "--recursive", "-R", "--dereference-recursive"] → ¬ Has inv "-q" →
      HasAny inv ["-A", "-B", "-C", "-m"] ∨ ¬ HasAny inv ["-L", "-l", "-n", "-b"] → Bolder inv

/-- Nothing is offered, or only another way of recombining, although the older class allows it. -/
inductive Shyer (inv : CommandInvocationInitial) : Prop
  | trDelete {os o} : inv.cmdName = "tr" → Has inv "-d" → inv.operandList = os ++ [o] → LastSetHasNewline inv os o → Shyer inv
  | trNothing : inv.cmdName = "tr" → Has inv "-d" → inv.operandList = [] → Shyer inv
  | grep : inv.cmdName = "grep" → ¬ Has inv "-c" →
      inv.operandList.length = 1 ∨ ¬ HasAny inv ["-r", "--recursive", "-R", "--dereference-recursive"] →
      Has inv "-q" ∨ (¬ HasAny inv ["-A", "-B", "-C", "-m"] ∧ HasAny inv ["-L", "-l", "-n", "-b"]) → Shyer inv
  | sort : inv.cmdName ∈ ["sort", "custom_sort"] → ¬ Has inv "-m" →
      HasAny inv ["-c", "-C", "-u", "-z", "-R", "-s", "--files0-from", "--random-source"] → Shyer inv

/-- The command with which a parallelizer recombines the outputs, if it names one. -/
def recombiner (inv : CommandInvocationInitial) : AggregatorSpec → Option String
  | .nonFunc _ _ => none
  | .funcTransformer _ _ _ => some inv.cmdName
  | .funcString _ cmd _ => some cmd

end PashAnn.Spec
