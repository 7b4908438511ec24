import Verif.Model.Parallel

/-!
Model of the in-place updates of /repo/pash_annotations/datatypes/CommandInvocationWithIOVars.py and of the functions that
make mappers and aggregators (MapperSpec.py, AggregatorSpec.py) on a heap of mutable objects.

`Model/IOVars.lean` and `Model/Parallel.lean` model the same functions on values. Here lists, dictionaries and invocations
are objects at addresses, so that sharing between objects and the updates made before an exception are visible.
The elements of lists and the values of dictionaries are never changed in place by the code and are values here.
A list that a function builds for itself and then stores is allocated when it is stored.
-/

namespace PashAnn.Heap

/-- The identity of an object. The objects are those made in CommandInvocationWithIOVars.py:25-30. -/
abbrev Addr := Nat

/-- The fields of a `CommandInvocationWithIOVars` object (CommandInvocationWithIOVars.py:25-30). A `Mapper`
(Mapper.py:10-28) has the same fields; the kind of an `Aggregator` (Aggregator.py:13-26) is never changed and is the one
of its specification, so it is left out. -/
structure InvObj where
  cmdName : String
  flagOptionList : Addr
  operandList : Addr
  implicitInput : Option IOVar
  implicitOutput : Option IOVar
  accessMap : Addr
deriving DecidableEq, Repr

/-- Mutable objects. The objects are those made in CommandInvocationWithIOVars.py:25-30. -/
inductive Obj where
  | vars (l : List VArg)
  | options (l : List FlagOptionWithIOVar)
  | map (m : AccessMap)
  | inv (o : InvObj)
deriving DecidableEq, Repr

/-- All objects; the address is the position. Objects are never deleted. The objects are those made in
CommandInvocationWithIOVars.py:25-30. -/
abbrev Heap := List Obj

/-- A Python computation: its result or exception, and the heap afterwards in both cases. The objects are those made in
CommandInvocationWithIOVars.py:25-30. -/
def HM (α : Type) := Heap → Py α × Heap

instance : Monad HM where
  pure a := fun h => (.ok a, h)
  bind x f := fun h => match x h with
    | (.ok a, h') => f a h'
    | (.error e, h') => (.error e, h')

/-- `raise`. As in MapperSpec.py:79. -/
def raise {α : Type} (e : PyErr) : HM α := fun h => (.error e, h)

/-- A computation without effects on the heap. As in CommandInvocationWithIOVars.py:77. -/
def liftPy {α : Type} (x : Py α) : HM α := fun h => (x, h)

/-- A new object. The objects are those made in CommandInvocationWithIOVars.py:25-30. -/
def alloc (o : Obj) : HM Addr := fun h => (.ok h.length, h ++ [o])

/-- Change of an object. The objects are those made in CommandInvocationWithIOVars.py:25-30. -/
def put (a : Addr) (o : Obj) : HM Unit := fun h => (.ok (), h.set a o)

/-- Reading a list of operands or variables (CommandInvocationWithIOVars.py:27). -/
def getVars (a : Addr) : HM (List VArg) := fun h => match h[a]? with
  | some (.vars l) => (.ok l, h)
  | _ => (.error .attributeError, h)

/-- Reading a list of flags and options (CommandInvocationWithIOVars.py:26). -/
def getOptions (a : Addr) : HM (List FlagOptionWithIOVar) := fun h => match h[a]? with
  | some (.options l) => (.ok l, h)
  | _ => (.error .attributeError, h)

/-- Reading a dictionary (CommandInvocationWithIOVars.py:30). -/
def getMap (a : Addr) : HM AccessMap := fun h => match h[a]? with
  | some (.map m) => (.ok m, h)
  | _ => (.error .attributeError, h)

/-- Reading the fields of an invocation. The objects are those made in CommandInvocationWithIOVars.py:25-30. -/
def getInv (a : Addr) : HM InvObj := fun h => match h[a]? with
  | some (.inv o) => (.ok o, h)
  | _ => (.error .attributeError, h)

/-- A list of operands that are all variables. Other elements are outside the model, as in `Model/Parallel.lean`
(CommandInvocationWithIOVars.py:162-168). -/
def onlyVars : List VArg → Py (List IOVar)
  | [] => .ok []
  | .var v :: rest => do
      let r ← onlyVars rest
      .ok (v :: r)
  | _ :: _ => .error .outsideModel

/-- `l.pop(0)` for a list of variables (CommandInvocationWithIOVars.py:61, 71). -/
def popFront (a : Addr) : HM IOVar := do
  let l ← getVars a
  match l with
  | [] => raise .indexError
  | .var v :: rest => do
      put a (.vars rest)
      pure v
  | _ :: _ => raise .outsideModel

/-- The loop of `flat_map_non_names_aux_flag_option_list` (CommandInvocationWithIOVars.py:117-123): the list is looked up
again for every index. -/
def flagOptionLoop (self : Addr) (f : IOVar → HM (List IOVar)) :
    List Nat → List FlagOptionWithIOVar → HM (List FlagOptionWithIOVar)
  | [], acc => pure acc
  | i :: is, acc => do
      let o ← getInv self
      let l ← getOptions o.flagOptionList
      match l[i]? with
      | none => raise .indexError
      | some (.optionIO n (.var v)) => do
          let r ← f v
          match r with
          | [new] => flagOptionLoop self f is (acc ++ [.optionIO n (.var new)])
          | _ => raise (.valueError "not enough values to unpack")
      | some x => flagOptionLoop self f is (acc ++ [x])

/-- The loop of `flat_map_non_names_aux_operand_list` (CommandInvocationWithIOVars.py:128-129). -/
def operandLoop (self : Addr) (f : IOVar → HM (List IOVar)) : List Nat → List VArg → HM (List VArg)
  | [], acc => pure acc
  | i :: is, acc => do
      let o ← getInv self
      let l ← getVars o.operandList
      match l[i]? with
      | none => raise .indexError
      | some (.var v) => do
          let r ← f v
          operandLoop self f is (acc ++ r.map VArg.var)
      | some x => operandLoop self f is (acc ++ [x])

/-- `flat_map_non_names_aux_flag_option_list` (CommandInvocationWithIOVars.py:115-124). -/
def flatMapFlagOptionList (self : Addr) (f : IOVar → HM (List IOVar)) : HM Unit := do
  let o ← getInv self
  let l ← getOptions o.flagOptionList
  let new ← flagOptionLoop self f (List.range l.length) []
  let a ← alloc (.options new)
  let o ← getInv self
  put self (.inv { o with flagOptionList := a })

/-- `flat_map_non_names_aux_operand_list` (CommandInvocationWithIOVars.py:126-130). -/
def flatMapOperandList (self : Addr) (f : IOVar → HM (List IOVar)) : HM Unit := do
  let o ← getInv self
  let l ← getVars o.operandList
  let new ← operandLoop self f (List.range l.length) []
  let a ← alloc (.vars new)
  let o ← getInv self
  put self (.inv { o with operandList := a })

/-- The common part of `flat_map_non_names_aux_implicit_streaming_input` and `…_output`
(CommandInvocationWithIOVars.py:132-138, 140-146): the new value. `None` is not an `int` and stays. -/
def flatMapImplicit (f : IOVar → HM (List IOVar)) : Option IOVar → HM (Option IOVar)
  | none => pure none
  | some v => do
      let r ← f v
      match r with
      | [] => pure none
      | [new] => pure (some new)
      | _ => raise .assertionError

/-- `flat_map_anything_non_names` (CommandInvocationWithIOVars.py:150-154). -/
def flatMapAnythingNonNames (self : Addr) (f : IOVar → HM (List IOVar)) : HM Unit := do
  flatMapFlagOptionList self f
  flatMapOperandList self f
  let o ← getInv self
  let i ← flatMapImplicit f o.implicitInput
  let o ← getInv self
  put self (.inv { o with implicitInput := i })
  let o ← getInv self
  let i ← flatMapImplicit f o.implicitOutput
  let o ← getInv self
  put self (.inv { o with implicitOutput := i })

/-- `replace_var_consistently` (CommandInvocationWithIOVars.py:106-109). -/
def replaceVarConsistently (self : Addr) (fromVar toVar : IOVar) : HM IOVar := do
  let o ← getInv self
  let m ← getMap o.accessMap
  let r ← liftPy (PashAnn.replaceVarConsistently m fromVar toVar)
  put o.accessMap (.map r.2)
  pure r.1

/-- The function applied at CommandInvocationWithIOVars.py:59-64 and 69-74. -/
def substituteFun (self : Addr) (pred : AccessKind → Bool) (newVars : Addr) (v : IOVar) : HM (List IOVar) := do
  let o ← getInv self
  let m ← getMap o.accessMap
  let a ← liftPy (m.getItem v)
  if pred a then do
    let newVar ← popFront newVars
    let r ← replaceVarConsistently self v newVar
    pure [r]
  else pure [v]

/-- The function applied at CommandInvocationWithIOVars.py:80-83, 90-93 and 99-102; `acc` is the list collected. -/
def collectFun (self : Addr) (pred : AccessKind → Bool) (acc : Addr) (v : IOVar) : HM (List IOVar) := do
  let o ← getInv self
  let m ← getMap o.accessMap
  let a ← liftPy (m.getItem v)
  if pred a then do
    let l ← getVars acc
    put acc (.vars (l ++ [.var v]))
    pure [v]
  else pure [v]

/-- The function applied at CommandInvocationWithIOVars.py:112. -/
def replaceFun (self : Addr) (fromVar : Option IOVar) (toVar : IOVar) (el : IOVar) : HM (List IOVar) :=
  if some el = fromVar then do
    let r ← replaceVarConsistently self el toVar
    pure [r]
  else pure [el]

/-- The function applied at CommandInvocationWithIOVars.py:176-181 and 186-191. -/
def removeFun (self : Addr) (pred : AccessKind → Bool) (v : IOVar) : HM (List IOVar) := do
  let o ← getInv self
  let m ← getMap o.accessMap
  let a ← liftPy (m.getItem v)
  if pred a then do
    let r ← liftPy (m.pop v)
    put o.accessMap (.map r.2)
    pure []
  else pure [v]

/-- `substitute_inputs_in_cmd_invocation` (CommandInvocationWithIOVars.py:58-66) and `…_outputs_…` (68-76). -/
def substituteOne (self : Addr) (pred : AccessKind → Bool) (newVars : Addr) : HM Unit := do
  flatMapAnythingNonNames self (substituteFun self pred newVars)
  let l ← getVars newVars
  liftPy (pyAssert (decide (l.length = 0)))

/-- `substitute_inputs_and_outputs_in_cmd_invocation` (CommandInvocationWithIOVars.py:52-56). -/
def substitute (self inputsFrom outputsTo : Addr) : HM Unit := do
  substituteOne self AccessKind.isStreamInput inputsFrom
  substituteOne self AccessKind.isStreamOutput outputsTo

/-- The collecting methods (CommandInvocationWithIOVars.py:78-104): the list collected. -/
def collect (self : Addr) (pred : AccessKind → Bool) : HM Addr := do
  let acc ← alloc (.vars [])
  flatMapAnythingNonNames self (collectFun self pred acc)
  pure acc

/-- `generate_inputs` (CommandInvocationWithIOVars.py:78-86): the list of streaming inputs in the returned `Inputs`. -/
def generateInputs (self : Addr) : HM Addr := collect self AccessKind.isStreamInput

/-- `generate_outputs` (CommandInvocationWithIOVars.py:88-95). -/
def generateOutputs (self : Addr) : HM Addr := collect self AccessKind.isAnyOutput

/-- `has_other_outputs` (CommandInvocationWithIOVars.py:97-104). -/
def hasOtherOutputs (self : Addr) : HM Bool := do
  let acc ← collect self AccessKind.isOtherOutput
  let l ← getVars acc
  pure (decide (l.length > 0))

/-- `replace_var` (CommandInvocationWithIOVars.py:111-113). -/
def replaceVar (self : Addr) (fromVar : Option IOVar) (toVar : IOVar) : HM Unit :=
  flatMapAnythingNonNames self (replaceFun self fromVar toVar)

/-- `remove_streaming_inputs` (CommandInvocationWithIOVars.py:174-182). -/
def removeStreamingInputs (self : Addr) : HM Unit := flatMapAnythingNonNames self (removeFun self AccessKind.isStreamInput)

/-- `remove_streaming_outputs` (CommandInvocationWithIOVars.py:184-192). -/
def removeStreamingOutputs (self : Addr) : HM Unit :=
  flatMapAnythingNonNames self (removeFun self AccessKind.isStreamOutput)

/-- The constructor (CommandInvocationWithIOVars.py:17-30): the lists and the dictionary are copied. -/
def construct (cmdName : String) (flagOptionList operandList : Addr) (implicitInput implicitOutput : Option IOVar)
    (accessMap : Addr) : HM Addr := do
  let fos ← getOptions flagOptionList
  let a ← alloc (.options fos)
  let ops ← getVars operandList
  let b ← alloc (.vars ops)
  let m ← getMap accessMap
  let c ← alloc (.map m)
  alloc (.inv ⟨cmdName, a, b, implicitInput, implicitOutput, c⟩)

/-- `make_cat_command_invocation_with_io_vars` (CommandInvocationWithIOVars.py:162-172). -/
def makeCat (inputIds : Addr) (outputId : IOVar) : HM Addr := do
  let ids ← getVars inputIds
  let ids ← liftPy (onlyVars ids)
  let m ← alloc (.map (AccessMap.set (AccessMap.ofKeys ids .streamInput) outputId .streamOutput))
  let fos ← alloc (.options [])
  construct "cat" fos inputIds none (some outputId) m

mutual
/-- `get_flag_option_list_after_transformer_application` (TransformerFlagOptionList.py:61-64, 71-77, 84-88, 95-99, 106-109,
116-119, 148-151). The first class returns the list it was given, the others a list of their own. (The custom class
returns the list stored in it; here it is a copy, which makes no difference because no such list is ever changed.) -/
def applyTransformer : Transformer → Addr → HM Addr
  | .seq, a => pure a
  | .chain ts, a => applyChain ts a
  | t, a => do
      let l ← getOptions a
      alloc (.options (t.apply l))

/-- TransformerFlagOptionList.py:49-52, 151. -/
def applyChain : List Transformer → Addr → HM Addr
  | [], a => pure a
  | t :: ts, a => do
      let b ← applyTransformer t a
      applyChain ts b
end

/-- The loop at MapperSpec.py:84-86. -/
def popOperands (mapA : Addr) : List VArg → HM Unit
  | [] => pure ()
  | .var v :: rest => do
      let m ← getMap mapA
      let r ← liftPy (m.pop v)
      put mapA (.map r.2)
      popOperands mapA rest
  | _ :: _ => raise .assertionError

/-- The mapper before substitution (MapperSpec.py:66-77; Mapper.py:36-43). -/
def initialMapper (ms : MapperSpec) (o : InvObj) : HM Addr :=
  match ms.kind with
  | .sameAsSeq => construct o.cmdName o.flagOptionList o.operandList o.implicitInput o.implicitOutput o.accessMap
  | .custom => do
      let fos ← applyTransformer ms.transformer o.flagOptionList
      construct (ms.specMapperCmdName.getD o.cmdName) fos o.operandList o.implicitInput o.implicitOutput o.accessMap

/-- `get_mapper` (MapperSpec.py:57-98), with Mapper.py:36-43. -/
def getMapper (ms : MapperSpec) (original : Addr) (inputFrom outputTo : IOVar) (auxOutputTos : Addr) :
    HM (Option Addr) := do
  if !ms.isImplemented then pure none
  else do
    let o ← getInv original
    let mapper ← initialMapper ms o
    let aux ← getVars auxOutputTos
    let aux ← liftPy (onlyVars aux)
    if aux.length = 0 then do
      let ins ← alloc (.vars [.var inputFrom])
      let outs ← alloc (.vars [.var outputTo])
      substitute mapper ins outs
      pure (some mapper)
    else do
      let mo ← getInv mapper
      let ops ← getVars mo.operandList
      popOperands mo.accessMap ops
      let new ← alloc (.vars (([inputFrom, outputTo] ++ aux).map VArg.var))
      put mapper (.inv { mo with operandList := new })
      let m ← getMap mo.accessMap
      let m := AccessMap.set m inputFrom .streamInput
      let m := AccessMap.set m outputTo .streamOutput
      put mo.accessMap (.map (AccessMap.setAll m aux .streamOutput))
      put mapper (.inv { mo with operandList := new, implicitOutput := none, implicitInput := none })
      pure (some mapper)

/-- The loop at AggregatorSpec.py:234-236. -/
def addFreshInputs (mapA : Addr) : List IOVar → HM Unit
  | [] => pure ()
  | v :: vs => do
      let m ← getMap mapA
      liftPy (pyAssert (m.get? v).isNone)
      put mapA (.map (AccessMap.set m v .streamInput))
      addFreshInputs mapA vs

/-- `deepcopy` of an invocation (AggregatorSpec.py:228). -/
def deepcopy (a : Addr) : HM Addr := do
  let o ← getInv a
  construct o.cmdName o.flagOptionList o.operandList o.implicitInput o.implicitOutput o.accessMap

/-- `get_aggregator` (AggregatorSpec.py:169-190, 215-238, 261-294) with `make_aggregator_from_cmd_inv_with_io`
(Aggregator.py:37-45), which calls the constructor. The caller's list of inputs is stored in the invocation for a while
(line 233). -/
def getAggregator (spec : AggregatorSpec) (original : Addr) (inputsFrom : Addr) (outputTo : IOVar) : HM (Option Addr) :=
  match spec with
  | .nonFunc kind impl =>
      if !impl then pure none
      else match kind with
        | .concatenate => do
            let cat ← makeCat inputsFrom outputTo
            let r ← deepcopy cat
            pure (some r)
        | .adjLinesMerge => raise .assertionError
        | .adjLinesSeq => raise .assertionError
        | _ => pure none
  | .funcTransformer kind t impl =>
      if !impl then pure none
      else do
        let ids ← getVars inputsFrom
        let ids ← liftPy (onlyVars ids)
        liftPy (match kind with
          | .adjLinesFunc => pyAssert (decide (ids.length = 1))
          | .custom2Ary => pyAssert (decide (ids.length = 2))
          | _ => .ok ())
        let c ← deepcopy original
        let oo ← getInv original
        let fos ← applyTransformer t oo.flagOptionList
        let o ← getInv c
        put c (.inv { o with flagOptionList := fos })
        removeStreamingInputs c
        let o ← getInv c
        put c (.inv { o with operandList := inputsFrom })
        addFreshInputs o.accessMap ids
        let o ← getInv c
        replaceVar c o.implicitOutput outputTo
        let r ← deepcopy c
        pure (some r)
  | .funcString kind s impl =>
      if !impl then pure none
      else do
        let agg ← liftPy (parse s)
        let fos ← liftPy (onlyFlags agg.flagOptionList)
        let fosA ← alloc (.options fos)
        let ids ← getVars inputsFrom
        let ids ← liftPy (onlyVars ids)
        let m ← alloc (.map (AccessMap.set (AccessMap.ofKeys ids .streamInput) outputTo .streamOutput))
        let r ← construct agg.cmdName fosA inputsFrom none (some outputTo) m
        match kind with
        | .adjLinesFunc => do
            liftPy (pyAssert (decide (ids.length = 1)))
            raise (.exception "case not yet implemented")
        | .custom2Ary => do
            liftPy (pyAssert (decide (ids.length = 2)))
            pure (some r)
        | _ => pure (some r)

end PashAnn.Heap
