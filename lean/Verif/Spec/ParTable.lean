import Verif.Spec.Parallel

/-!
Which parallelizers are stored for every annotated command, as one table.
-/

namespace PashAnn.Spec

/-- The options with which sort is not split. -/
def sortStops : List String := ["-c", "-C", "-u", "-z", "-R", "-s", "-m", "--files0-from", "--random-source"]

/-- The order-defining options that sort's merge keeps. -/
def sortOrder : List String :=
  ["-b", "-d", "-f", "-g", "-i", "-M", "-h", "-n", "-r", "--sort", "-V", "-k", "-t"]

/-- Merge sorted parts: the same command with only its order-defining options, and `-m`. -/
def mergeSorted : AggregatorSpec :=
  .funcTransformer .custom2Ary (.chain [.filter sortOrder, .add [.flag "-m"]]) true

/-- Some of these flags or options is present. -/
def HasAny (inv : CommandInvocationInitial) (l : List String) : Prop := ∃ n ∈ l, Has inv n

/-- The code's notion of "the last set of `tr` contains a newline": an escape occurs, but not at the start; for a
single complemented set, none does. -/
def LastSetHasNewline (inv : CommandInvocationInitial) (os : List String) (o : String) : Prop :=
  (os = [] ∧ Has inv "-c") ↔ ¬ ∃ e ∈ ["\\n", "\\0"], Occurs e o ∧ ¬ StartsWith e o

/-- `Offers inv plans commutative`: these parallelizers are stored for the invocation, and the command is, or is not,
declared commutative. -/
inductive Offers (inv : CommandInvocationInitial) : List Parallelizer → Bool → Prop
  /-- Line-wise commands. -/
  | conc : inv.cmdName ∈ ["col", "custom_tr", "cut", "xargs"] → Offers inv (bothPlans concatenation) false
  /-- Chunks only. -/
  | setDiff : inv.cmdName = "set_diff" → Offers inv [plan .consecChunks concatenation] false
  | test : inv.cmdName ∈ ["test_one", "test_two"] →
      Offers inv [plan .consecChunks (.funcString .customNAry "runtime/agg/opt/concat.sh" false)] false
  /-- Custom mappers and reducers. -/
  | altBigrams : inv.cmdName = "alt_bigrams_aux" →
      Offers inv [⟨.consecChunks, ⟨.custom, some "alt_bigrams_aux", .custom [], true⟩,
        .funcString .custom2Ary "alt_bigram_aux_reduce" true, .noAddInput, 0⟩] false
  | bigrams : inv.cmdName = "bigrams_aux" →
      Offers inv [⟨.consecChunks, ⟨.custom, some "bigram_aux_map", .custom [], true⟩,
        .funcString .custom2Ary "bigram_aux_reduce" true, .noAddInput, 2⟩] false
  | sort : inv.cmdName ∈ ["sort", "custom_sort"] → ¬ HasAny inv sortStops →
      Offers inv [plan .consecChunks mergeSorted] true
  | sortStop : inv.cmdName ∈ ["sort", "custom_sort"] → HasAny inv sortStops → Offers inv [] true
  | grep : inv.cmdName = "grep" → ¬ Has inv "-q" →
      HasAny inv ["-A", "-B", "-C", "-m"] ∨ ¬ HasAny inv ["-L", "-l", "-c", "-n", "-b"] →
      Offers inv (bothPlans concatenation) false
  | grepStop : inv.cmdName = "grep" →
      Has inv "-q" ∨ (¬ HasAny inv ["-A", "-B", "-C", "-m"] ∧ HasAny inv ["-L", "-l", "-c", "-n", "-b"]) →
      Offers inv [] false
  | sed {o os} : inv.cmdName = "sed" → inv.operandList = o :: os →
      StartsWith "-" o ∨ StartsWith "s" o ∨ (¬ Occurs "d" o ∧ ¬ Occurs "q" o) →
      Offers inv (bothPlans concatenation) false
  | sedStop {o os} : inv.cmdName = "sed" → inv.operandList = o :: os →
      ¬ (StartsWith "-" o ∨ StartsWith "s" o ∨ (¬ Occurs "d" o ∧ ¬ Occurs "q" o)) → Offers inv [] false
  | tr : inv.cmdName = "tr" → ¬ Has inv "-d" → ¬ Has inv "-s" → Offers inv (bothPlans concatenation) false
  | trSets {os o} : inv.cmdName = "tr" → Has inv "-d" ∨ Has inv "-s" → inv.operandList = os ++ [o] →
      ¬ LastSetHasNewline inv os o → Offers inv (bothPlans concatenation) false
  | trDelete {os o} : inv.cmdName = "tr" → Has inv "-d" → inv.operandList = os ++ [o] →
      LastSetHasNewline inv os o → Offers inv (bothPlans (.nonFunc .adjLinesMerge false)) false
  | trSqueeze {os o} : inv.cmdName = "tr" → ¬ Has inv "-d" → Has inv "-s" → inv.operandList = os ++ [o] →
      LastSetHasNewline inv os o →
      Offers inv (bothPlans (.funcString .adjLinesFunc "PLACEHOLDER: remove first line if empty" false)) false
  | uniq : inv.cmdName = "uniq" → ¬ HasAny inv ["-d", "-D", "--all-repeated"] → ¬ Has inv "-c" →
      Offers inv (bothPlans (.nonFunc .adjLinesSeq false)) false
  | uniqCount : inv.cmdName = "uniq" → ¬ HasAny inv ["-d", "-D", "--all-repeated"] → Has inv "-c" →
      Offers inv (bothPlans (.funcString .adjLinesFunc "PLACEHOLDER:uniq_merge_count_uniq" false)) false
  | uniqStop : inv.cmdName = "uniq" → HasAny inv ["-d", "-D", "--all-repeated"] → Offers inv [] false

end PashAnn.Spec
