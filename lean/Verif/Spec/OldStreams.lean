import Verif.Spec.Old
import Verif.Spec.IOTable

/-!
The streams that the older annotations name, compared with those that the library finds, for C114.
-/

namespace PashAnn.Spec

/-- The file or standard stream that a typed operand names. -/
def operandFile : ArgWithIO → Option FileWithIO
  | .io f => some f
  | .argString _ => none

/-- The files and standard streams that a typed invocation uses with some access: the standard streams that it uses without naming
them, then those that its operands name. Arguments of options are left out, because the older annotations cannot name them. -/
def usedWith (c : CommandInvocationWithIO) (a : AccessKind) : List FileWithIO :=
  (c.implicitInput.toList ++ c.implicitOutput.toList ++
    c.operandList.filterMap operandFile).filter fun f => f.access = a

/-- A case of an older annotation names exactly the streams that the typed invocation uses, in the same order and with the same
access. -/
def SameStreams (inv : CommandInvocationInitial) (c : CommandInvocationWithIO) (o : OldCase) : Prop :=
  ∀ a, o.streams.files inv a = usedWith c a

/-- The invocations for which the older annotations name the streams that the library finds. -/
inductive StreamsAgree (inv : CommandInvocationInitial) : Prop
  /-- Commands of which the older files say that they read standard input only. -/
  | filter : inv.cmdName ∈ ["cut", "head", "tail", "wc"] → inv.operandList = [] ∨ inv.operandList = ["-"] → StreamsAgree inv
  | noOperands : inv.cmdName ∈ ["alt_bigrams_aux", "bigrams_aux", "col", "test_one", "test_two"] → inv.operandList = [] →
      StreamsAgree inv
  | strings : inv.cmdName ∈ ["tr", "custom_tr", "xargs", "seq"] → StreamsAgree inv
  | awkOption : inv.cmdName = "awk" → Has inv "-f" → inv.operandList = [] ∨ inv.operandList = ["-"] → StreamsAgree inv
  | awkOperand {p} : inv.cmdName = "awk" → ¬ Has inv "-f" → inv.operandList = [p] ∨ inv.operandList = [p, "-"] → StreamsAgree inv
  | sedOption : inv.cmdName = "sed" → Has inv "-e" ∨ Has inv "-f" → inv.operandList = [] → StreamsAgree inv
  | sedOperand {p} : inv.cmdName = "sed" → ¬ (Has inv "-e" ∨ Has inv "-f") → inv.operandList = [p] → StreamsAgree inv
  | uniq : inv.cmdName = "uniq" → inv.operandList ∈ [[], ["-"], ["-", "-"]] → StreamsAgree inv
  | setDiff {o} : inv.cmdName = "set_diff" → inv.operandList = [o] → o ≠ "-" → StreamsAgree inv
  | tee : inv.cmdName = "tee" → "-" ∉ inv.operandList → StreamsAgree inv
  /-- Commands of which they say that they read their operands. -/
  | cat : inv.cmdName = "cat" → ¬ (Has inv "-n" ∧ inv.operandList = []) → StreamsAgree inv
  | comm : inv.cmdName = "comm" → StreamsAgree inv
  | operands : inv.cmdName ∈ ["alt_bigram_aux_reduce", "diff"] → "-" ∉ inv.operandList → StreamsAgree inv
  /-- Commands of which they say the one or the other. -/
  | sort : inv.cmdName ∈ ["sort", "custom_sort"] → ¬ Has inv "-m" → ¬ Has inv "-o" →
      (inv.operandList = [] ∧ ¬ Has inv "--files0-from") ∨ inv.operandList = ["-"] → StreamsAgree inv
  | sortMerge : inv.cmdName ∈ ["sort", "custom_sort"] → Has inv "-m" → ¬ Has inv "-o" →
      (inv.operandList ≠ [] ∧ "-" ∉ inv.operandList) ∨ (inv.operandList = [] ∧ Has inv "--files0-from") → StreamsAgree inv
  | grepOption : inv.cmdName = "grep" → ¬ Has inv "-q" → Has inv "-e" ∨ Has inv "-f" →
      inv.operandList = ["-"] ∨ (Has inv "-c" ∧ inv.operandList = []) ∨
        (¬ Has inv "-c" ∧ 2 ≤ inv.operandList.length ∧ "-" ∉ inv.operandList) → StreamsAgree inv
  | grepOperand {p} : inv.cmdName = "grep" → ¬ Has inv "-q" → ¬ (Has inv "-e" ∨ Has inv "-f") →
      inv.operandList = [p] ∨ (Has inv "-c" ∧ inv.operandList = [p, "-"]) → StreamsAgree inv

end PashAnn.Spec
