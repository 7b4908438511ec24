import Verif.Model.Parallel
import Verif.Model.IOGenerators

/-!
Model of all `ParallelizabilityInfoGenerator*.py` files in
/repo/pash_annotations/annotation_generation/annotation_generators/ and of
annotation_generation/AnnotationGeneration.py:82-94.
-/

namespace PashAnn

/-- A generator's `generate_info`, from the empty info object the constructor creates
(ParallelizabilityInfoGenerator_Interface.py:16-18). -/
abbrev ParGenerator := CommandInvocationInitial → Py ParallelizabilityInfo

namespace ParGen
open ParallelizabilityInfo

/-- `append_to_parallelizer_list_cc_seq_conc` (ParallelizabilityInfoGenerator_Interface.py:43-45). -/
def appendCcSeqConc (i : ParallelizabilityInfo) : Py ParallelizabilityInfo := do
  let p ← Parallelizer.makeConsecChunks
  .ok (i.append p)

/-- `append_to_parallelizer_list_cc_seq_adjm` (ParallelizabilityInfoGenerator_Interface.py:47-50). -/
def appendCcSeqAdjm (i : ParallelizabilityInfo) : Py ParallelizabilityInfo := do
  let p ← Parallelizer.makeConsecChunks (a := some .makeAdjLinesMerge)
  .ok (i.append p)

/-- `append_to_parallelizer_list_rr_seq_conc` (ParallelizabilityInfoGenerator_Interface.py:52-54). -/
def appendRrSeqConc (i : ParallelizabilityInfo) : Py ParallelizabilityInfo := do
  let p ← Parallelizer.makeRoundRobin
  .ok (i.append p)

/-- `append_to_parallelizer_list_rr_seq_adjm` (ParallelizabilityInfoGenerator_Interface.py:56-59). -/
def appendRrSeqAdjm (i : ParallelizabilityInfo) : Py ParallelizabilityInfo := do
  let p ← Parallelizer.makeRoundRobin (a := some .makeAdjLinesMerge)
  .ok (i.append p)

/-- `append_to_parallelizer_list_rr_seq_adjs` (ParallelizabilityInfoGenerator_Interface.py:61-64). -/
def appendRrSeqAdjs (i : ParallelizabilityInfo) : Py ParallelizabilityInfo := do
  let p ← Parallelizer.makeRoundRobin (a := some .makeAdjLinesSeq)
  .ok (i.append p)

/-- `append_to_parallelizer_list_cc_seq_adjs` (ParallelizabilityInfoGenerator_Interface.py:66-69). -/
def appendCcSeqAdjs (i : ParallelizabilityInfo) : Py ParallelizabilityInfo := do
  let p ← Parallelizer.makeConsecChunks (a := some .makeAdjLinesSeq)
  .ok (i.append p)

/-- `append_to_parallelizer_list_rr_seq_adjf` (ParallelizabilityInfoGenerator_Interface.py:71-74). -/
def appendRrSeqAdjf (s : String) (impl : Bool) (i : ParallelizabilityInfo) : Py ParallelizabilityInfo := do
  let p ← Parallelizer.makeRoundRobin (a := some (.makeAdjLinesFuncFromString s impl))
  .ok (i.append p)

/-- `append_to_parallelizer_list_cc_seq_adjf` (ParallelizabilityInfoGenerator_Interface.py:76-79). -/
def appendCcSeqAdjf (s : String) (impl : Bool) (i : ParallelizabilityInfo) : Py ParallelizabilityInfo := do
  let p ← Parallelizer.makeConsecChunks (a := some (.makeAdjLinesFuncFromString s impl))
  .ok (i.append p)

/-- Both plain splittings: `cc_seq_conc` then `rr_seq_conc` (ParallelizabilityInfoGeneratorCol.py:6-7). -/
def appendConcBoth (i : ParallelizabilityInfo) : Py ParallelizabilityInfo := do
  let i ← appendCcSeqConc i
  appendRrSeqConc i

/-- ParallelizabilityInfoGeneratorAltBigramsAux.py:11-15 -/
def altBigramsAux : ParGenerator := fun _ => do
  let m ← MapperSpec.makeCustomFromString "alt_bigrams_aux" true
  let a := AggregatorSpec.makeCustom2AryFromString "alt_bigram_aux_reduce" true
  let p ← Parallelizer.makeConsecChunks (some m) (some a)
  .ok (ParallelizabilityInfo.append {} p)

/-- ParallelizabilityInfoGeneratorBigramsAux.py:10-15 -/
def bigramsAux : ParGenerator := fun _ => do
  let m ← MapperSpec.makeCustomFromString "bigram_aux_map" true
  let a := AggregatorSpec.makeCustom2AryFromString "bigram_aux_reduce" true
  let p ← Parallelizer.makeConsecChunks (some m) (some a)
  let p := { p with infoMapperAggregator := 2 }
  .ok (ParallelizabilityInfo.append {} p)

/-- ParallelizabilityInfoGeneratorCol.py:5-7 -/
def col : ParGenerator := fun _ => appendConcBoth {}

/-- The options that stop `sort` from being parallelized (ParallelizabilityInfoGeneratorSort.py:17,
ParallelizabilityInfoGeneratorCustomSort.py:16). -/
def sortBlockers : List String := ["-c", "-C", "-u", "-z", "-R", "-s", "-m", "--files0-from", "--random-source"]

/-- The options kept by the merge (ParallelizabilityInfoGeneratorSort.py:21,
ParallelizabilityInfoGeneratorCustomSort.py:20). -/
def sortKept : List String := ["-b", "-d", "-f", "-g", "-i", "-M", "-h", "-n", "-r", "--sort", "-V", "-k", "-t"]

/-- `chained_transformers` (ParallelizabilityInfoGeneratorSort.py:21-23). -/
def sortTransformer : Transformer := .chain [.filter sortKept, .add [.flag "-m"]]

/-- ParallelizabilityInfoGeneratorSort.py:15-29, and ParallelizabilityInfoGeneratorCustomSort.py:13-28 which
is a copy of it. -/
def sort : ParGenerator := fun c => do
  let i := ParallelizabilityInfo.setCommutative {}
  if containsAtLeastOneOf c sortBlockers then .ok i
  else do
    let a := AggregatorSpec.makeCustom2AryFromTransformers (some sortTransformer) true
    let p ← Parallelizer.makeConsecChunks (a := some a)
    .ok (i.append p)

/-- ParallelizabilityInfoGeneratorCustomTr.py:6-8 -/
def customTr : ParGenerator := fun _ => appendConcBoth {}

/-- ParallelizabilityInfoGeneratorCut.py:10-12 -/
def cut : ParGenerator := fun _ => appendConcBoth {}

/-- The case analysis that chooses mapper, aggregator and splitter information
(ParallelizabilityInfoGeneratorGrep.py:30-58). -/
def grepParts (c : CommandInvocationInitial) :
    Option MapperSpec × Option AggregatorSpec × Option AdditionalInfoSplitterToMapper :=
  if !containsAtLeastOneOf c ["-A", "-B", "-C", "-m"] then
    if containsAtLeastOneOf c ["-L", "-l"] then
      (none, some (.makeCustom2AryFromString "PLACEHOLDER:merge_keeping_longer_output" false), none)
    else if containsAtLeastOneOf c ["-c"] then
      (none, some (.makeCustom2AryFromString "PLACEHOLDER:sum_indiv_results_up" false), none)
    else if containsAtLeastOneOf c ["-n"] && containsAtLeastOneOf c ["-b"] then
      (some (.makeCustom "PLACEHOLDER:grep_add_line_number_and_byte_offset" none false), none, some .lineNumAndByteOffset)
    else if containsAtLeastOneOf c ["-n"] then
      (some (.makeCustom "PLACEHOLDER:grep_add_line_number_offset" none false), none, some .lineNumOffset)
    else if containsAtLeastOneOf c ["-b"] then
      (some (.makeCustom "PLACEHOLDER:grep_add_byte_offset" none false), none, some .byteOffset)
    else (none, none, none)
  else (none, none, none)

/-- ParallelizabilityInfoGeneratorGrep.py:25-71 -/
def grep : ParGenerator := fun c =>
  if !containsAtLeastOneOf c ["-q"] then
    let (m, a, info) := grepParts c
    if (m.isNone || m.any (·.isImplemented)) && (a.isNone || a.any (·.isImplemented)) then do
      let cc ← Parallelizer.makeConsecChunks m a info
      let rr ← Parallelizer.makeRoundRobin m a info
      .ok ((ParallelizabilityInfo.append {} cc).append rr)
    else .ok {}
  else .ok {}

/-- The condition at ParallelizabilityInfoGeneratorSed.py:12-14, with Python's short-circuit order. -/
def sedCondition (c : CommandInvocationInitial) : Py Bool := do
  let dash ← doesFirstOperandStartWith c "-"
  if dash then .ok true
  else do
    let s ← doesFirstOperandStartWith c "s"
    if s then .ok true
    else do
      let d ← doesFirstOperandContain c "d"
      if d then .ok false
      else do
        let q ← doesFirstOperandContain c "q"
        .ok (!q)

/-- ParallelizabilityInfoGeneratorSed.py:10-16 -/
def sed : ParGenerator := fun c => do
  let b ← sedCondition c
  if b then appendConcBoth {} else .ok {}

/-- ParallelizabilityInfoGeneratorSetDiff.py:5-6 -/
def setDiff : ParGenerator := fun _ => appendCcSeqConc {}

/-- ParallelizabilityInfoGeneratorTestOne.py:10-13 -/
def testOne : ParGenerator := fun _ => do
  let p ← Parallelizer.makeConsecChunks (a := some (.makeCustomNAryFromString "runtime/agg/opt/concat.sh"))
  .ok (ParallelizabilityInfo.append {} p)

/-- ParallelizabilityInfoGeneratorTestTwo.py:10-13 -/
def testTwo : ParGenerator := fun _ => do
  let p ← Parallelizer.makeConsecChunks (a := some (.makeCustomNAryFromString "runtime/agg/opt/concat.sh"))
  .ok (ParallelizabilityInfo.append {} p)

/-- `does_last_set_effectively_contain_newline` (ParallelizabilityInfoGeneratorTr.py:44-52). -/
def doesLastSetEffectivelyContainNewline (c : CommandInvocationInitial) : Py Bool := do
  let lastOperand ← getLast c.operandList
  let nl := containsNewLine lastOperand
  let nul := containsNullChar lastOperand
  if decide (c.operandList.length = 1) && containsAtLeastOneOf c ["-c"] then .ok (!(nl || nul))
  else .ok (nl || nul)

/-- ParallelizabilityInfoGeneratorTr.py:19-42 -/
def tr : ParGenerator := fun c => do
  let doesDelete ←
    if containsAtLeastOneOf c ["-d"] then doesLastSetEffectivelyContainNewline c else .ok false
  let doesSqueeze ←
    if containsAtLeastOneOf c ["-s"] then doesLastSetEffectivelyContainNewline c else .ok false
  if doesDelete then do
    let i ← appendCcSeqAdjm {}
    appendRrSeqAdjm i
  else if doesSqueeze then do
    let i ← appendCcSeqAdjf "PLACEHOLDER: remove first line if empty" false {}
    appendRrSeqAdjf "PLACEHOLDER: remove first line if empty" false i
  else appendConcBoth {}

/-- ParallelizabilityInfoGeneratorUniq.py:21-34 -/
def uniq : ParGenerator := fun c =>
  if !containsAtLeastOneOf c ["-d", "-D", "--all-repeated"] then
    if containsAtLeastOneOf c ["-c"] then do
      let a := AggregatorSpec.makeAdjLinesFuncFromString "PLACEHOLDER:uniq_merge_count_uniq" false
      let cc ← Parallelizer.makeConsecChunks (a := some a)
      let rr ← Parallelizer.makeRoundRobin (a := some a)
      .ok ((ParallelizabilityInfo.append {} cc).append rr)
    else do
      let i ← appendCcSeqAdjs {}
      appendRrSeqAdjs i
  else .ok {}

/-- ParallelizabilityInfoGeneratorXargs.py:5-8 -/
def xargs : ParGenerator := fun _ => appendConcBoth {}

end ParGen

/-- The classes `ParallelizabilityInfoGenerator<name>` bound by the import loop
(AnnotationGeneration.py:58-65). -/
def parGeneratorClasses : List (String × ParGenerator) :=
  [("AltBigramsAux", ParGen.altBigramsAux), ("BigramsAux", ParGen.bigramsAux), ("Col", ParGen.col),
   ("CustomSort", ParGen.sort), ("CustomTr", ParGen.customTr), ("Cut", ParGen.cut), ("Grep", ParGen.grep),
   ("Sed", ParGen.sed), ("SetDiff", ParGen.setDiff), ("Sort", ParGen.sort), ("TestOne", ParGen.testOne),
   ("TestTwo", ParGen.testTwo), ("Tr", ParGen.tr), ("Uniq", ParGen.uniq), ("Xargs", ParGen.xargs)]

/-- The body of the `try` block (AnnotationGeneration.py:86-92). -/
def tryParallelizabilityInfo (c : CommandInvocationInitial) : Py ParallelizabilityInfo :=
  match parGeneratorClasses.lookup (commandRepr c.cmdName) with
  | none => .error .attributeError
  | some generateInfo => generateInfo c

/-- `get_parallelizability_info_from_cmd_invocation` (AnnotationGeneration.py:82-94). -/
def getParallelizabilityInfo (c : CommandInvocationInitial) : Option ParallelizabilityInfo :=
  match tryParallelizabilityInfo c with
  | .ok i => some i
  | .error _ => none

end PashAnn
