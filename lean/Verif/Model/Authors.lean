import Verif.Model.ParGenerators

/-!
The rest of ParallelizabilityInfoGenerator_Interface.py in
/repo/pash_annotations/annotation_generation/annotation_generators/, as a language of calls, and small helpers from
/repo/pash_annotations/util_flag_option.py and datatypes/CommandInvocationWithIOVars.py.
-/

namespace PashAnn
namespace ParGen

/-- `append_to_parallelizer_list_if_seq_conc` (ParallelizabilityInfoGenerator_Interface.py:34-36). -/
def appendIfSeqConc (i : ParallelizabilityInfo) : Py ParallelizabilityInfo := do
  let p ← Parallelizer.makeIndivFiles
  .ok (i.append p)

/-- `append_to_parallelizer_list_if_seq_adjm` (ParallelizabilityInfoGenerator_Interface.py:38-41). -/
def appendIfSeqAdjm (i : ParallelizabilityInfo) : Py ParallelizabilityInfo := do
  let p ← Parallelizer.makeIndivFiles (a := some .makeAdjLinesMerge)
  .ok (i.append p)

end ParGen

/-- A call of one of the methods that modify the information (ParallelizabilityInfoGenerator_Interface.py:31-82). -/
inductive ParCall where
  | append (p : Parallelizer)
  | ifSeqConc
  | ifSeqAdjm
  | ccSeqConc
  | ccSeqAdjm
  | rrSeqConc
  | rrSeqAdjm
  | rrSeqAdjs
  | ccSeqAdjs
  | rrSeqAdjf (stringReprFunc : String) (isImplemented : Bool)
  | ccSeqAdjf (stringReprFunc : String) (isImplemented : Bool)
  | setCommutative

/-- What the call does (ParallelizabilityInfoGenerator_Interface.py:31-82). -/
def ParCall.exec (i : ParallelizabilityInfo) : ParCall → Py ParallelizabilityInfo
  | .append p => .ok (i.append p)
  | .ifSeqConc => ParGen.appendIfSeqConc i
  | .ifSeqAdjm => ParGen.appendIfSeqAdjm i
  | .ccSeqConc => ParGen.appendCcSeqConc i
  | .ccSeqAdjm => ParGen.appendCcSeqAdjm i
  | .rrSeqConc => ParGen.appendRrSeqConc i
  | .rrSeqAdjm => ParGen.appendRrSeqAdjm i
  | .rrSeqAdjs => ParGen.appendRrSeqAdjs i
  | .ccSeqAdjs => ParGen.appendCcSeqAdjs i
  | .rrSeqAdjf s b => ParGen.appendRrSeqAdjf s b i
  | .ccSeqAdjf s b => ParGen.appendCcSeqAdjf s b i
  | .setCommutative => .ok i.setCommutative

/-- A sequence of calls; an exception ends it. The body of a `generate_info`
(ParallelizabilityInfoGenerator_Interface.py:20-24). -/
def ParCall.execAll (i : ParallelizabilityInfo) : List ParCall → Py ParallelizabilityInfo
  | [] => .ok i
  | call :: rest => do
      let i ← call.exec i
      ParCall.execAll i rest

/-- The objects that can stand at a node of a plan: a command with variables, or an aggregator, which is a subclass
(Aggregator.py:13). -/
inductive CommandObject where
  | command (c : CommandInvocationWithIOVars)
  | aggregator (a : Aggregator)

/-- `is_aggregator_concatenate`, with the override (CommandInvocationWithIOVars.py:38-39, Aggregator.py:34-35). -/
def CommandObject.isAggregatorConcatenate : CommandObject → Bool
  | .command _ => false
  | .aggregator a => a.isConcatenate

/-- `make_arg_simple` (util_flag_option.py:3-9), on lists of strings. -/
def makeArgSimple : List String → Py FlagOption
  | [n] => .ok (.flag n)
  | [n, a] => .ok (.option n a)
  | _ => .error (.exception "no proper kind given for Arg")

end PashAnn
