import Verif.Spec.IO
import Verif.Model.ParGenerators

/-! Specification vocabulary for parallelizability information. -/

namespace PashAnn.Spec

/-- The unchanged command as mapper. -/
def sameCommand : MapperSpec := ⟨.sameAsSeq, none, .seq, true⟩

/-- The parallelizer that splits with `s`, runs the unchanged command and recombines with `a`. -/
def plan (s : Splitter) (a : AggregatorSpec) : Parallelizer := ⟨s, sameCommand, a, .noAddInput, 0⟩

/-- Consecutive chunks and round robin, unchanged command, recombined with `a`. -/
def bothPlans (a : AggregatorSpec) : List Parallelizer := [plan .consecChunks a, plan .roundRobinPlain a]

/-- Plain concatenation. -/
def concatenation : AggregatorSpec := .nonFunc .concatenate true

/-- The kinds of aggregators that look at adjacent lines only. -/
def adjacentKinds : List AggregatorKind := [.adjLinesMerge, .adjLinesSeq, .adjLinesFunc]

/-- The information object after `n` calls of the inference function. -/
def asked : Nat → ParallelizabilityInfo → ParallelizabilityInfo
  | 0, i => i
  | n + 1, i => (asked n i).getInferredParallelizerList.2

/-- `p` is offered for the invocation: it is in the list that some call of the inference function (after any
number of earlier ones) returns, or in the stored list. -/
def Offered (c : CommandInvocationInitial) (p : Parallelizer) : Prop :=
  ∃ i n, getParallelizabilityInfo c = some i ∧
    (p ∈ (asked n i).parallelizerList ∨ p ∈ (asked n i).getInferredParallelizerList.1)

/-- The commands that have a parallelizability generator. -/
def parCommands : List String :=
  ["alt_bigrams_aux", "bigrams_aux", "col", "custom_sort", "custom_tr", "cut", "grep", "sed", "set_diff", "sort",
   "test_one", "test_two", "tr", "uniq", "xargs"]

/-- The text `sub` occurs in `s`. -/
def Occurs (sub s : String) : Prop := ∃ before after, s.toList = before ++ sub.toList ++ after

/-- The text `s` starts with `pre`. -/
def StartsWith (pre s : String) : Prop := ∃ after, s.toList = pre.toList ++ after

end PashAnn.Spec
