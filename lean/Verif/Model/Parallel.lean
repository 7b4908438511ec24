import Verif.Model.Parser
import Verif.Model.Transformers

/-!
Model of the files Splitter.py, AggregatorKind.py, Aggregator.py, AggregatorSpec.py, Mapper.py,
MapperSpec.py, Parallelizer.py in
/repo/pash_annotations/annotation_generation/datatypes/parallelizability/ and of
annotation_generation/datatypes/ParallelizabilityInfo.py.
-/

namespace PashAnn

/-- `SplitterKindEnum` (Splitter.py:4-8); `Splitter` (11-29) has it as only field. -/
inductive Splitter where
  | indivFiles
  | roundRobinPlain
  | roundRobinUnwrapFlag
  | consecChunks
deriving DecidableEq, Repr

/-- Splitter.py:22-23 -/
def Splitter.isRoundRobin (s : Splitter) : Bool := s == .roundRobinPlain
/-- Splitter.py:25-26 -/
def Splitter.isRoundRobinWithUnwrapFlag (s : Splitter) : Bool := s == .roundRobinUnwrapFlag
/-- Splitter.py:28-29 -/
def Splitter.isConsecChunks (s : Splitter) : Bool := s == .consecChunks

/-- `AggregatorKindEnum` (AggregatorKind.py:3-14). -/
inductive AggregatorKind where
  | concatenate
  | adjLinesMerge
  | adjLinesSeq
  | adjLinesFunc
  | custom2Ary
  | customNAry
deriving DecidableEq, Repr

/-- `Aggregator` (Aggregator.py:13-26): a command invocation with a kind. -/
structure Aggregator where
  kind : AggregatorKind
  cmd : CommandInvocationWithIOVars
deriving DecidableEq, Repr

/-- `is_aggregator_concatenate` (Aggregator.py:34-35). -/
def Aggregator.isConcatenate (a : Aggregator) : Bool := a.kind == .concatenate

/-- The three subclasses of `AggregatorSpec` (AggregatorSpec.py:162-167, 203-213, 251-259). -/
inductive AggregatorSpec where
  | nonFunc (kind : AggregatorKind) (isImplemented : Bool)
  | funcTransformer (kind : AggregatorKind) (t : Transformer) (isImplemented : Bool)
  | funcString (kind : AggregatorKind) (cmdInvAsStr : String) (isImplemented : Bool)
deriving Repr

namespace AggregatorSpec

/-- `get_kind` (AggregatorSpec.py:97-98). -/
def kind : AggregatorSpec → AggregatorKind
  | nonFunc k _ => k
  | funcTransformer k _ _ => k
  | funcString k _ _ => k

/-- The field `is_implemented` (AggregatorSpec.py:46). -/
def isImplemented : AggregatorSpec → Bool
  | nonFunc _ b => b
  | funcTransformer _ _ b => b
  | funcString _ _ b => b

/-- AggregatorSpec.py:55-56 -/
def isConcatenate (a : AggregatorSpec) : Bool := a.kind == .concatenate
/-- AggregatorSpec.py:58-59 -/
def isAdjLinesMerge (a : AggregatorSpec) : Bool := a.kind == .adjLinesMerge
/-- AggregatorSpec.py:61-62 -/
def isAdjLinesSeq (a : AggregatorSpec) : Bool := a.kind == .adjLinesSeq
/-- AggregatorSpec.py:64-65 -/
def isAdjLinesFunc (a : AggregatorSpec) : Bool := a.kind == .adjLinesFunc
/-- AggregatorSpec.py:67-68 -/
def isCustom2Ary (a : AggregatorSpec) : Bool := a.kind == .custom2Ary
/-- AggregatorSpec.py:70-71 -/
def isCustomNAry (a : AggregatorSpec) : Bool := a.kind == .customNAry

/-- AggregatorSpec.py:100-101 -/
def makeConcatenate : AggregatorSpec := nonFunc .concatenate true
/-- AggregatorSpec.py:103-104 -/
def makeAdjLinesMerge : AggregatorSpec := nonFunc .adjLinesMerge false
/-- AggregatorSpec.py:106-107 -/
def makeAdjLinesSeq : AggregatorSpec := nonFunc .adjLinesSeq false
/-- AggregatorSpec.py:109-116, with the constructor 205-213 -/
def makeAdjLinesFuncFromTransformers (t : Option Transformer := none) (impl : Bool := false) : AggregatorSpec :=
  funcTransformer .adjLinesFunc (transformerSameAsSeqIfNone t) impl
/-- AggregatorSpec.py:118-123 -/
def makeAdjLinesFuncFromString (s : String) (impl : Bool := false) : AggregatorSpec := funcString .adjLinesFunc s impl
/-- AggregatorSpec.py:125-132, with the constructor 205-213 -/
def makeCustom2AryFromTransformers (t : Option Transformer := none) (impl : Bool := false) : AggregatorSpec :=
  funcTransformer .custom2Ary (transformerSameAsSeqIfNone t) impl
/-- AggregatorSpec.py:134-139 -/
def makeCustom2AryFromString (s : String) (impl : Bool := false) : AggregatorSpec := funcString .custom2Ary s impl
/-- AggregatorSpec.py:141-148, with the constructor 205-213 -/
def makeCustomNAryFromTransformers (t : Option Transformer := none) (impl : Bool := false) : AggregatorSpec :=
  funcTransformer .customNAry (transformerSameAsSeqIfNone t) impl
/-- AggregatorSpec.py:150-155 -/
def makeCustomNAryFromString (s : String) (impl : Bool := false) : AggregatorSpec := funcString .customNAry s impl

/-- `return_aggregator_conc_if_none_else_itself` (AggregatorSpec.py:157-158). -/
def concIfNone : Option AggregatorSpec → AggregatorSpec
  | none => makeConcatenate
  | some a => a

end AggregatorSpec

/-- The loop that accepts only flags (AggregatorSpec.py:273-276, 310-313; MapperSpec.py:130-133). -/
def onlyFlags : List FlagOption → Py (List FlagOptionWithIOVar)
  | [] => .ok []
  | .flag n :: rest => do
      let r ← onlyFlags rest
      .ok (.flag n :: r)
  | .option _ _ :: _ => .error .assertionError

/-- The loop at AggregatorSpec.py:234-236. Inputs are `IOVar`s (the type annotation also names
`ArgStringType`, "needed for typing, only IOVar provided"). -/
def addFreshInputs : AccessMap → List IOVar → Py AccessMap
  | m, [] => .ok m
  | m, v :: vs => do
      pyAssert (m.get? v).isNone
      addFreshInputs (AccessMap.set m v .streamInput) vs

namespace AggregatorSpec

/-- `get_aggregator`: AggregatorSpecNonFunc (AggregatorSpec.py:169-190; a kind not listed falls off the end
and returns `None`), AggregatorSpecFuncTransformer (215-238), AggregatorSpecFuncStringRepresentation
(261-294). -/
def getAggregator (a : AggregatorSpec) (original : CommandInvocationWithIOVars) (inputsFrom : List IOVar)
    (outputTo : IOVar) : Py (Option Aggregator) :=
  match a with
  | nonFunc kind impl =>
      if !impl then .ok none
      else match kind with
        | .concatenate => .ok (some ⟨kind, CommandInvocationWithIOVars.makeCat inputsFrom outputTo⟩)
        | .adjLinesMerge => .error .assertionError
        | .adjLinesSeq => .error .assertionError
        | _ => .ok none
  | funcTransformer kind t impl =>
      if !impl then .ok none
      else do
        match kind with
        | .adjLinesFunc => pyAssert (decide (inputsFrom.length = 1))
        | .custom2Ary => pyAssert (decide (inputsFrom.length = 2))
        | _ => .ok ()
        let c := { original with flagOptionList := t.apply original.flagOptionList }
        let c ← c.removeStreamingInputs
        let m ← addFreshInputs c.accessMap inputsFrom
        let c := { c with operandList := inputsFrom.map VArg.var, accessMap := m }
        let c ← c.replaceVar c.implicitOutput outputTo
        .ok (some ⟨kind, c⟩)
  | funcString kind s impl =>
      if !impl then .ok none
      else do
        let agg ← parse s
        let fos ← onlyFlags agg.flagOptionList
        let c : CommandInvocationWithIOVars :=
          { cmdName := agg.cmdName, flagOptionList := fos, operandList := inputsFrom.map VArg.var,
            implicitInput := none, implicitOutput := some outputTo,
            accessMap := AccessMap.set (AccessMap.ofKeys inputsFrom .streamInput) outputTo .streamOutput }
        match kind with
        | .adjLinesFunc => do
            pyAssert (decide (inputsFrom.length = 1))
            .error (.exception "case not yet implemented")
        | .custom2Ary => do
            pyAssert (decide (inputsFrom.length = 2))
            .ok (some ⟨kind, c⟩)
        | _ => .ok (some ⟨kind, c⟩)

/-- `get_actual_2_ary_aggregator_with_aux` (AggregatorSpec.py:192-200, 240-248, 296-332). -/
def getActual2AryAggregatorWithAux (a : AggregatorSpec) (fstNormal : IOVar) (fstAux : List IOVar)
    (sndNormal : IOVar) (sndAux : List IOVar) (outputTo : IOVar) (auxOutputs : List IOVar) : Py Aggregator :=
  match a with
  | nonFunc _ _ => .error (.exception "Auxiliary information from mapper to aggregator only supported for aggregators given as string")
  | funcTransformer _ _ _ => .error (.exception "Auxiliary information from mapper to aggregator only supported for aggregators given as string")
  | funcString kind s _ => do
      pyAssert (decide (fstAux.length = sndAux.length))
      pyAssert (decide (fstAux.length = auxOutputs.length))
      let agg ← parse s
      let fos ← onlyFlags agg.flagOptionList
      let allInputs := [fstNormal] ++ fstAux ++ [sndNormal] ++ sndAux
      let allOutputs := [outputTo] ++ auxOutputs
      let m := AccessMap.setAll [] allInputs .streamInput
      let m := AccessMap.setAll m allOutputs .streamOutput
      .ok ⟨kind,
        { cmdName := agg.cmdName, flagOptionList := fos,
          operandList := ([fstNormal] ++ fstAux ++ [sndNormal] ++ sndAux ++ [outputTo] ++ auxOutputs).map VArg.var,
          implicitInput := none, implicitOutput := none, accessMap := m }⟩

end AggregatorSpec

/-- `MapperSpecKindEnum` (MapperSpec.py:19-21). -/
inductive MapperSpecKind where
  | sameAsSeq
  | custom
deriving DecidableEq, Repr

/-- `MapperSpec` (MapperSpec.py:24-46). -/
structure MapperSpec where
  kind : MapperSpecKind
  specMapperCmdName : Option String
  transformer : Transformer
  isImplemented : Bool
deriving Repr

/-- The loop at MapperSpec.py:84-86. -/
def popOperands : AccessMap → List VArg → Py AccessMap
  | m, [] => .ok m
  | m, .var v :: rest => do
      let r ← m.pop v
      popOperands r.2 rest
  | _, _ :: _ => .error .assertionError

namespace MapperSpec

/-- The constructor with its sanity checks (MapperSpec.py:26-46). -/
def make (kind : MapperSpecKind) (cmdName : Option String) (t : Option Transformer) (impl : Bool) : Py MapperSpec := do
  match kind with
  | .sameAsSeq => do
      pyAssert cmdName.isNone
      pyAssert t.isNone
  | .custom => .ok ()
  .ok { kind := kind, specMapperCmdName := cmdName, transformer := transformerSameAsSeqIfNone t, isImplemented := impl }

/-- `make_mapper_spec_seq` (MapperSpec.py:101-102); the constructor's checks succeed on these arguments. -/
def makeSeq : MapperSpec := { kind := .sameAsSeq, specMapperCmdName := none, transformer := .seq, isImplemented := true }

/-- `return_mapper_spec_seq_if_none_else_itself` (MapperSpec.py:104-105). -/
def seqIfNone : Option MapperSpec → MapperSpec
  | none => makeSeq
  | some m => m

/-- `make_mapper_spec_custom` (MapperSpec.py:107-121). -/
def makeCustom (cmdName : String) (t : Option Transformer := none) (impl : Bool := false) : MapperSpec :=
  { kind := .custom, specMapperCmdName := some cmdName, transformer := transformerSameAsSeqIfNone t, isImplemented := impl }

/-- `make_mapper_spec_custom_from_string_representation` (MapperSpec.py:123-137). -/
def makeCustomFromString (s : String) (impl : Bool := false) : Py MapperSpec := do
  let c ← parse s
  let fos ← onlyFlags c.flagOptionList
  .ok (makeCustom c.cmdName (some (.custom fos)) impl)

/-- The mapper before substitution (MapperSpec.py:66-77; Mapper.py:36-43). -/
def initialMapper (ms : MapperSpec) (original : CommandInvocationWithIOVars) : CommandInvocationWithIOVars :=
  match ms.kind with
  | .sameAsSeq => original
  | .custom =>
      { original with
        cmdName := ms.specMapperCmdName.getD original.cmdName
        flagOptionList := ms.transformer.apply original.flagOptionList }

/-- `get_mapper` (MapperSpec.py:57-98). -/
def getMapper (ms : MapperSpec) (original : CommandInvocationWithIOVars) (inputFrom outputTo : IOVar)
    (auxOutputTos : List IOVar) : Py (Option CommandInvocationWithIOVars) :=
  if !ms.isImplemented then .ok none
  else do
    let mapper := ms.initialMapper original
    if auxOutputTos.length = 0 then do
      let mapper ← mapper.substitute [inputFrom] [outputTo]
      .ok (some mapper)
    else do
      let m ← popOperands mapper.accessMap mapper.operandList
      let m := AccessMap.set m inputFrom .streamInput
      let m := AccessMap.set m outputTo .streamOutput
      let m := AccessMap.setAll m auxOutputTos .streamOutput
      .ok (some { mapper with
        operandList := ([inputFrom, outputTo] ++ auxOutputTos).map VArg.var
        accessMap := m
        implicitOutput := none
        implicitInput := none })

end MapperSpec

/-- `AdditionalInfoSplitterToMapper` (Parallelizer.py:22-26). -/
inductive AdditionalInfoSplitterToMapper where
  | noAddInput
  | lineNumOffset
  | byteOffset
  | lineNumAndByteOffset
deriving DecidableEq, Repr

/-- `Parallelizer` (Parallelizer.py:29-44). -/
structure Parallelizer where
  splitter : Splitter
  coreMapperSpec : MapperSpec
  coreAggregatorSpec : AggregatorSpec
  infoSplitterMapper : AdditionalInfoSplitterToMapper
  infoMapperAggregator : Nat
deriving Repr

namespace Parallelizer

/-- The constructor with its sanity check (Parallelizer.py:31-50). -/
def make (s : Splitter) (m : MapperSpec) (a : AggregatorSpec) (info : Option AdditionalInfoSplitterToMapper)
    (n : Nat) : Py Parallelizer := do
  if s.isRoundRobin then
    pyAssert (a.isConcatenate || a.isAdjLinesMerge || a.isAdjLinesSeq || a.isAdjLinesFunc)
  .ok { splitter := s, coreMapperSpec := m, coreAggregatorSpec := a,
        infoSplitterMapper := info.getD .noAddInput, infoMapperAggregator := n }

/-- `are_all_parts_implemented` (Parallelizer.py:102-103). -/
def areAllPartsImplemented (p : Parallelizer) : Bool :=
  p.coreMapperSpec.isImplemented && p.coreAggregatorSpec.isImplemented

/-- `get_actual_mapper` (Parallelizer.py:67-74). -/
def getActualMapper (p : Parallelizer) (c : CommandInvocationWithIOVars) (inputFrom outputTo : IOVar)
    (aux : List IOVar) : Py (Option CommandInvocationWithIOVars) := do
  pyAssert (decide (aux.length = p.infoMapperAggregator))
  p.coreMapperSpec.getMapper c inputFrom outputTo aux

/-- `get_actual_aggregator` (Parallelizer.py:79-85). -/
def getActualAggregator (p : Parallelizer) (c : CommandInvocationWithIOVars) (inputsFrom : List IOVar)
    (outputTo : IOVar) : Py (Option Aggregator) :=
  p.coreAggregatorSpec.getAggregator c inputsFrom outputTo

/-- `get_actual_2_ary_aggregator_with_aux` (Parallelizer.py:87-97). -/
def getActual2AryAggregatorWithAux (p : Parallelizer) (fstNormal : IOVar) (fstAux : List IOVar)
    (sndNormal : IOVar) (sndAux : List IOVar) (outputTo : IOVar) (auxOutputs : List IOVar) : Py Aggregator :=
  p.coreAggregatorSpec.getActual2AryAggregatorWithAux fstNormal fstAux sndNormal sndAux outputTo auxOutputs

/-- `make_parallelizer_indiv_files` (Parallelizer.py:105-112). -/
def makeIndivFiles (m : Option MapperSpec := none) (a : Option AggregatorSpec := none)
    (info : Option AdditionalInfoSplitterToMapper := none) (n : Nat := 0) : Py Parallelizer :=
  make .indivFiles (MapperSpec.seqIfNone m) (AggregatorSpec.concIfNone a) info n

/-- `make_parallelizer_round_robin` (Parallelizer.py:114-121). -/
def makeRoundRobin (m : Option MapperSpec := none) (a : Option AggregatorSpec := none)
    (info : Option AdditionalInfoSplitterToMapper := none) (n : Nat := 0) : Py Parallelizer :=
  make .roundRobinPlain (MapperSpec.seqIfNone m) (AggregatorSpec.concIfNone a) info n

/-- `make_parallelizer_round_robin_with_unwrap_from_other` (Parallelizer.py:123-126): the splitter is
replaced after a deep copy, so the constructor's check is not run. -/
def makeRoundRobinWithUnwrapFromOther (p : Parallelizer) : Parallelizer :=
  { p with splitter := .roundRobinUnwrapFlag }

/-- `make_parallelizer_consec_chunks` (Parallelizer.py:128-135). -/
def makeConsecChunks (m : Option MapperSpec := none) (a : Option AggregatorSpec := none)
    (info : Option AdditionalInfoSplitterToMapper := none) (n : Nat := 0) : Py Parallelizer :=
  make .consecChunks (MapperSpec.seqIfNone m) (AggregatorSpec.concIfNone a) info n

end Parallelizer

/-- `ParallelizabilityInfo` (ParallelizabilityInfo.py:8-19). -/
structure ParallelizabilityInfo where
  parallelizerList : List Parallelizer := []
  roundRobinCompatibleWithCat : Bool := false
  isCommutative : Bool := false
deriving Repr

namespace ParallelizabilityInfo

/-- `append_to_parallelizer_list` (ParallelizabilityInfo.py:24-25). -/
def append (i : ParallelizabilityInfo) (p : Parallelizer) : ParallelizabilityInfo :=
  { i with parallelizerList := i.parallelizerList ++ [p] }

/-- `set_commutative` (ParallelizabilityInfo.py:27-28). -/
def setCommutative (i : ParallelizabilityInfo) : ParallelizabilityInfo := { i with isCommutative := true }

/-- The loop of `get_inferred_parallelizer_list` (ParallelizabilityInfo.py:33-35). The list being iterated is
the list being appended to: `visited` are the elements the iterator has passed, `rest` the ones ahead. -/
def inferLoop (commutative : Bool) (visited rest : List Parallelizer) : List Parallelizer :=
  match rest with
  | [] => visited
  | p :: rest =>
      if _h : (commutative && p.splitter.isConsecChunks) = true then
        inferLoop commutative (visited ++ [p]) (rest ++ [p.makeRoundRobinWithUnwrapFromOther])
      else inferLoop commutative (visited ++ [p]) rest
termination_by (rest.countP (·.splitter.isConsecChunks), rest.length)
decreasing_by
  · left
    simp only [Bool.and_eq_true, Splitter.isConsecChunks, beq_iff_eq] at _h
    simp [Parallelizer.makeRoundRobinWithUnwrapFromOther, Splitter.isConsecChunks, _h.2]
  · cases hp : p.splitter.isConsecChunks with
    | true => left; simp [hp]
    | false =>
        have : (p :: rest).countP (·.splitter.isConsecChunks) = rest.countP (·.splitter.isConsecChunks) := by
          simp [hp]
        rw [this]; right; simp

/-- `get_inferred_parallelizer_list` (ParallelizabilityInfo.py:30-36): the returned list, which is also the
stored list from then on. -/
def getInferredParallelizerList (i : ParallelizabilityInfo) : List Parallelizer × ParallelizabilityInfo :=
  let l := inferLoop i.isCommutative [] i.parallelizerList
  (l, { i with parallelizerList := l })

/-- `unpack_info` (ParallelizabilityInfo.py:38-39). -/
def unpackInfo (i : ParallelizabilityInfo) : (List Parallelizer × Bool × Bool) × ParallelizabilityInfo :=
  let r := i.getInferredParallelizerList
  ((r.1, i.roundRobinCompatibleWithCat, i.isCommutative), r.2)

end ParallelizabilityInfo
end PashAnn
