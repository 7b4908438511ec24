import Verif.Spec.IO

/-!
How the operands of every annotated command are read, and which standard streams it uses without being told, as one
table. Uses only the data types of the model.
-/

namespace PashAnn.Spec

/-- The operands read as files with that access. -/
def files (a : AccessKind) (l : List String) : List ArgWithIO := l.map fun s => .io (fileOf a s)

/-- The operands read as plain strings. -/
def strings (l : List String) : List ArgWithIO := l.map .argString

/-- `Reads inv ops stdin stdout`: the operands of `inv` are read as `ops`, and standard input and standard output are
used implicitly if `stdin` and `stdout` hold. -/
inductive Reads (inv : CommandInvocationInitial) : List ArgWithIO → Prop → Prop → Prop
  /-- Filters: read their operands, or standard input if there are none. -/
  | filter : inv.cmdName ∈ ["cat", "cut", "head", "tail"] →
      Reads inv (files .streamInput inv.operandList) (inv.operandList = []) True
  | wc : inv.cmdName = "wc" → ¬ Has inv "--files0-from" →
      Reads inv (files .streamInput inv.operandList) (inv.operandList = []) True
  /-- The sorts write to standard output unless `-o` is given. -/
  | sort : inv.cmdName ∈ ["sort", "custom_sort"] →
      Reads inv (files .streamInput inv.operandList) (inv.operandList = [] ∧ ¬ Has inv "--files0-from")
        (¬ Has inv "-o")
  /-- Pattern languages, with the program in an option. -/
  | grepOption : inv.cmdName = "grep" → Has inv "-e" ∨ Has inv "-f" →
      Reads inv (files .streamInput inv.operandList) (inv.operandList = []) (¬ Has inv "-q")
  | awkOption : inv.cmdName = "awk" → Has inv "-f" →
      Reads inv (files .streamInput inv.operandList) (inv.operandList = []) True
  | sedOption : inv.cmdName = "sed" → Has inv "-e" ∨ Has inv "-f" →
      Reads inv (files .streamInput inv.operandList) True True
  /-- Pattern languages, with the program in the first operand. -/
  | grepOperand {o os} : inv.cmdName = "grep" → ¬ (Has inv "-e" ∨ Has inv "-f") → inv.operandList = o :: os →
      Reads inv (.argString o :: files .streamInput os) (os = []) (¬ Has inv "-q")
  | awkOperand {o os} : inv.cmdName = "awk" → ¬ Has inv "-f" → inv.operandList = o :: os →
      Reads inv (.argString o :: files .streamInput os) (os = []) True
  | sedOperand {o os} : inv.cmdName = "sed" → ¬ (Has inv "-e" ∨ Has inv "-f") → inv.operandList = o :: os →
      Reads inv (.argString o :: files .streamInput os) True True
  /-- Commands that always read standard input, and their operands too. -/
  | both : inv.cmdName ∈ ["alt_bigrams_aux", "bigrams_aux", "col", "test_one", "test_two"] →
      Reads inv (files .streamInput inv.operandList) True True
  /-- Commands that read their operands and never standard input. -/
  | operandsOnly : inv.cmdName ∈ ["diff", "alt_bigram_aux_reduce"] →
      Reads inv (files .streamInput inv.operandList) False True
  | comm {o o'} : inv.cmdName = "comm" → inv.operandList = [o, o'] →
      Reads inv (files .streamInput [o, o']) False True
  /-- Commands whose operands are no files. -/
  | stringFilter : inv.cmdName ∈ ["tr", "custom_tr", "xargs"] → Reads inv (strings inv.operandList) True True
  | seq : inv.cmdName = "seq" → Reads inv (strings inv.operandList) False True
  | setDiff {o} : inv.cmdName = "set_diff" → inv.operandList = [o] → Reads inv (files .configInput [o]) True True
  /-- Commands that write files. -/
  | tee : inv.cmdName = "tee" → Reads inv (files .streamOutput inv.operandList) True True
  | remove : inv.cmdName ∈ ["rm", "mkfifo"] → Reads inv (files .otherOutput inv.operandList) False False
  | mvOperand {os o} : inv.cmdName = "mv" → count inv "-t" = 0 → inv.operandList = os ++ [o] →
      Reads inv (files .otherInput os ++ files .otherOutput [o]) False False
  | mvOption : inv.cmdName = "mv" → count inv "-t" = 1 → Reads inv (files .otherInput inv.operandList) False False
  | uniq0 : inv.cmdName = "uniq" → inv.operandList = [] → Reads inv [] True True
  | uniq1 {o} : inv.cmdName = "uniq" → inv.operandList = [o] → Reads inv (files .streamInput [o]) False True
  | uniq2 {o o'} : inv.cmdName = "uniq" → inv.operandList = [o, o'] →
      Reads inv (files .streamInput [o] ++ files .streamOutput [o']) False False

/-- The options of the typed invocation are read as the database of the command declares. -/
def OptionsRead (inv : CommandInvocationInitial) (l : List FlagOptionWithIO) : Prop :=
  l.length = inv.flagOptionList.length ∧ ∀ d, DatabaseFor inv.cmdName d → ∀ (k : Nat) (fo : FlagOption),
    inv.flagOptionList[k]? = some fo → ∃ t, FlagOptionClass d fo t ∧ l[k]? = some (typedFlagOption fo t)

end PashAnn.Spec
