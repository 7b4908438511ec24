import Verif.Model.Authors
import Verif.Spec.Constructors

/-!
What the names of the methods for authors of parallelizability generators say: `if`, `cc`, `rr` are individual files,
consecutive chunks and round robin; `seq` is the unchanged command; `conc`, `adjm`, `adjs`, `adjf` are concatenation,
merging adjacent lines, the command itself on adjacent lines, and a function of adjacent lines.
-/

namespace PashAnn.Spec

/-- The plan that the name of the method says is added. -/
def saysPlan : ParCall → Option Parallelizer
  | .append p => some p
  | .ifSeqConc => some (plan .indivFiles concatenation)
  | .ifSeqAdjm => some (plan .indivFiles (.nonFunc .adjLinesMerge false))
  | .ccSeqConc => some (plan .consecChunks concatenation)
  | .ccSeqAdjm => some (plan .consecChunks (.nonFunc .adjLinesMerge false))
  | .rrSeqConc => some (plan .roundRobinPlain concatenation)
  | .rrSeqAdjm => some (plan .roundRobinPlain (.nonFunc .adjLinesMerge false))
  | .rrSeqAdjs => some (plan .roundRobinPlain (.nonFunc .adjLinesSeq false))
  | .ccSeqAdjs => some (plan .consecChunks (.nonFunc .adjLinesSeq false))
  | .rrSeqAdjf s b => some (plan .roundRobinPlain (.funcString .adjLinesFunc s b))
  | .ccSeqAdjf s b => some (plan .consecChunks (.funcString .adjLinesFunc s b))
  | .setCommutative => none

/-- The six questions a user can ask an aggregator specification, with the kind each of them asks for. -/
def questions : List ((AggregatorSpec → Bool) × AggregatorKind) :=
  [(AggregatorSpec.isConcatenate, .concatenate), (AggregatorSpec.isAdjLinesMerge, .adjLinesMerge),
   (AggregatorSpec.isAdjLinesSeq, .adjLinesSeq), (AggregatorSpec.isAdjLinesFunc, .adjLinesFunc),
   (AggregatorSpec.isCustom2Ary, .custom2Ary), (AggregatorSpec.isCustomNAry, .customNAry)]

end PashAnn.Spec
