import Verif.Model.Basic

/-!
Model of /repo/pash_annotations/datatypes/CommandInvocationWithIOVars.py and BasicDatatypesWithIOVar.py.

In-place updates of `self` are modelled by returning the updated invocation. When a method raises, the
partial updates made before the exception are not tracked here; `Model/Heap.lean` does. `deepcopy` in the constructor
(CommandInvocationWithIOVars.py:26-30) makes the new object independent of its arguments; values in the
model are immutable, so it is the identity here.
-/

namespace PashAnn

/-- `IOVar = int` (BasicDatatypesWithIOVar.py:4). -/
abbrev IOVar := Int

/-- Operands and option arguments: an `IOVar`, an `ArgStringType`, or a typed file (only possible inside
an `OptionWithIO`) (CommandInvocationWithIOVars.py:20, BasicDatatypesWithIOVar.py:8, BasicDatatypesWithIO.py:82). -/
inductive VArg where
  | var (v : IOVar)
  | str (s : String)
  | io (f : FileWithIO)
deriving DecidableEq, Repr

/-- Elements of `flag_option_list`: `Flag`, `OptionWithIOVar` (BasicDatatypesWithIOVar.py:6-19) or
`OptionWithIO` (handled at CommandInvocationWithIOVars.py:119). `OptionWithIOVar` defines no `__eq__`, so
its equality is object identity; `oid` stands for that identity. -/
inductive FlagOptionWithIOVar where
  | flag (name : String)
  | optionVar (oid : Nat) (name : String) (arg : VArg)
  | optionIO (name : String) (arg : VArg)
deriving DecidableEq, Repr

/-- `get_name` (BasicDatatypes.py:74-75, BasicDatatypesWithIO.py:86-87, BasicDatatypesWithIOVar.py:12-13). -/
def FlagOptionWithIOVar.getName : FlagOptionWithIOVar → String
  | flag n => n
  | optionVar _ n _ => n
  | optionIO n _ => n

/-- Python `==` between elements: `standard_eq` for flags and `OptionWithIO`, identity for
`OptionWithIOVar` (BasicDatatypes.py:15-16, BasicDatatypesWithIOVar.py:6-19). -/
def FlagOptionWithIOVar.pyEq : FlagOptionWithIOVar → FlagOptionWithIOVar → Bool
  | flag a, flag b => a == b
  | optionVar i _ _, optionVar j _ _ => i == j
  | optionIO n a, optionIO m b => n == m && a == b
  | _, _ => false

/-- `access_map : Dict[IOVar, AccessKind]`. A list of its items in their order, each key once; only `str` observes the order
(C113) (CommandInvocationWithIOVars.py:23 and 30). -/
abbrev AccessMap := List (IOVar × AccessKind)

namespace AccessMap

/-- `m.get(k)`. For CommandInvocationWithIOVars.py:60 and 107. -/
def get? (m : AccessMap) (k : IOVar) : Option AccessKind := List.lookup k m

/-- `m` without key `k`. For CommandInvocationWithIOVars.py:108 and 178. -/
def erase (m : AccessMap) (k : IOVar) : AccessMap := List.filter (fun p => !(p.1 == k)) m

/-- `m[k] = a`: a key that is there keeps its place, a new one comes last (CommandInvocationWithIOVars.py:108 and 164,
MapperSpec.py:92-95). -/
def set (m : AccessMap) (k : IOVar) (a : AccessKind) : AccessMap :=
  if (get? m k).isSome then List.map (fun p => if p.1 = k then (k, a) else p) m else m ++ [(k, a)]

/-- `m[k]` (CommandInvocationWithIOVars.py:60, 70, 81, 91, 100, 177 and 187) -/
def getItem (m : AccessMap) (k : IOVar) : Py AccessKind :=
  match get? m k with
  | some a => .ok a
  | none => .error .keyError

/-- `m.pop(k)`: the value and the remaining map (CommandInvocationWithIOVars.py:108, 178 and 188, MapperSpec.py:86). -/
def pop (m : AccessMap) (k : IOVar) : Py (AccessKind × AccessMap) :=
  match get? m k with
  | some a => .ok (a, erase m k)
  | none => .error .keyError

/-- `{k: a for k in keys}` (CommandInvocationWithIOVars.py:163) -/
def ofKeys (keys : List IOVar) (a : AccessKind) : AccessMap := keys.foldl (fun m k => set m k a) []

/-- `for k in keys: m[k] = a` (MapperSpec.py:94-95) -/
def setAll (m : AccessMap) (keys : List IOVar) (a : AccessKind) : AccessMap :=
  keys.foldl (fun m k => set m k a) m

end AccessMap

/-- `CommandInvocationWithIOVars` (CommandInvocationWithIOVars.py:13-30); `Mapper` (Mapper.py:10-28) has the
same fields. -/
structure CommandInvocationWithIOVars where
  cmdName : String
  flagOptionList : List FlagOptionWithIOVar
  operandList : List VArg
  implicitInput : Option IOVar
  implicitOutput : Option IOVar
  accessMap : AccessMap
deriving DecidableEq, Repr

/-- A function applied to variables while the invocation is traversed, with the mutable state it closes
over: it returns the replacement list and the new state. On anything that is not an `int` the callers in
the code (lines 157, 176-181, 186-191) return the element unchanged (CommandInvocationWithIOVars.py:150-158). -/
abbrev VarFun (σ : Type) := σ → IOVar → Py (List IOVar × σ)

/-- `flat_map_non_names_aux_flag_option_list` (CommandInvocationWithIOVars.py:115-124). -/
def flatMapFlagOptionList {σ : Type} (f : VarFun σ) :
    σ → List FlagOptionWithIOVar → Py (List FlagOptionWithIOVar × σ)
  | s, [] => .ok ([], s)
  | s, .optionIO n (.var v) :: rest => do
      let r ← f s v
      match r.1 with
      | [new] => do
          let r' ← flatMapFlagOptionList f r.2 rest
          .ok (.optionIO n (.var new) :: r'.1, r'.2)
      | _ => .error (.valueError "not enough values to unpack")
  | s, x :: rest => do
      let r' ← flatMapFlagOptionList f s rest
      .ok (x :: r'.1, r'.2)

/-- `flat_map_non_names_aux_operand_list` (CommandInvocationWithIOVars.py:126-130). -/
def flatMapOperandList {σ : Type} (f : VarFun σ) : σ → List VArg → Py (List VArg × σ)
  | s, [] => .ok ([], s)
  | s, .var v :: rest => do
      let r ← f s v
      let r' ← flatMapOperandList f r.2 rest
      .ok (r.1.map VArg.var ++ r'.1, r'.2)
  | s, x :: rest => do
      let r' ← flatMapOperandList f s rest
      .ok (x :: r'.1, r'.2)

/-- `flat_map_non_names_aux_implicit_streaming_input` / `…_output`
(CommandInvocationWithIOVars.py:132-138, 140-146). -/
def flatMapImplicit {σ : Type} (f : VarFun σ) (s : σ) : Option IOVar → Py (Option IOVar × σ)
  | none => .ok (none, s)
  | some v => do
      let r ← f s v
      match r.1 with
      | [] => .ok (none, r.2)
      | [new] => .ok (some new, r.2)
      | _ => .error .assertionError

/-- `flat_map_anything_non_names` (CommandInvocationWithIOVars.py:150-154). The access map is part of the
state `σ` of the callers and is written back by them. -/
def flatMapAnythingNonNames {σ : Type} (f : VarFun σ) (s : σ) (c : CommandInvocationWithIOVars) :
    Py (CommandInvocationWithIOVars × σ) := do
  let fos ← flatMapFlagOptionList f s c.flagOptionList
  let ops ← flatMapOperandList f fos.2 c.operandList
  let inp ← flatMapImplicit f ops.2 c.implicitInput
  let out ← flatMapImplicit f inp.2 c.implicitOutput
  .ok ({ c with flagOptionList := fos.1, operandList := ops.1, implicitInput := inp.1, implicitOutput := out.1 },
       out.2)

/-- `replace_var_consistently` (CommandInvocationWithIOVars.py:106-109), on the access map. -/
def replaceVarConsistently (m : AccessMap) (fromVar toVar : IOVar) : Py (IOVar × AccessMap) := do
  pyAssert (m.get? fromVar).isSome
  let r ← m.pop fromVar
  .ok (toVar, AccessMap.set r.2 toVar r.1)

/-- The function applied to variables at CommandInvocationWithIOVars.py:59-64 and 69-74; the state is the
access map and the list of variables not yet consumed. -/
def substituteFun (pred : AccessKind → Bool) : VarFun (AccessMap × List IOVar) := fun s v => do
  let a ← AccessMap.getItem s.1 v
  if pred a then
    match s.2 with
    | [] => .error .indexError
    | newVar :: remaining => do
        let r ← replaceVarConsistently s.1 v newVar
        .ok ([r.1], (r.2, remaining))
  else .ok ([v], s)

/-- The function applied at CommandInvocationWithIOVars.py:80-83, 90-93, 99-102; the state is the list
collected so far. -/
def collectFun (pred : AccessKind → Bool) (m : AccessMap) : VarFun (List IOVar) := fun s v => do
  let a ← AccessMap.getItem m v
  .ok ([v], if pred a then s ++ [v] else s)

/-- The function applied at CommandInvocationWithIOVars.py:112. `fromVar` may be `None` (AggregatorSpec.py:237),
which equals no variable. -/
def replaceFun (fromVar : Option IOVar) (toVar : IOVar) : VarFun AccessMap := fun m el =>
  if some el = fromVar then do
    let r ← replaceVarConsistently m el toVar
    .ok ([r.1], r.2)
  else .ok ([el], m)

/-- The function applied at CommandInvocationWithIOVars.py:176-181 and 186-191. -/
def removeFun (pred : AccessKind → Bool) : VarFun AccessMap := fun m v => do
  let a ← AccessMap.getItem m v
  if pred a then do
    let r ← m.pop v
    .ok ([], r.2)
  else .ok ([v], m)

namespace CommandInvocationWithIOVars

/-- `substitute_inputs_in_cmd_invocation` (CommandInvocationWithIOVars.py:58-66). -/
def substituteInputs (c : CommandInvocationWithIOVars) (inputsFrom : List IOVar) : Py CommandInvocationWithIOVars := do
  let r ← flatMapAnythingNonNames (substituteFun AccessKind.isStreamInput) (c.accessMap, inputsFrom) c
  pyAssert (decide (r.2.2.length = 0))
  .ok { r.1 with accessMap := r.2.1 }

/-- `substitute_outputs_in_cmd_invocation` (CommandInvocationWithIOVars.py:68-76). -/
def substituteOutputs (c : CommandInvocationWithIOVars) (outputsTo : List IOVar) : Py CommandInvocationWithIOVars := do
  let r ← flatMapAnythingNonNames (substituteFun AccessKind.isStreamOutput) (c.accessMap, outputsTo) c
  pyAssert (decide (r.2.2.length = 0))
  .ok { r.1 with accessMap := r.2.1 }

/-- `substitute_inputs_and_outputs_in_cmd_invocation` (CommandInvocationWithIOVars.py:52-56). -/
def substitute (c : CommandInvocationWithIOVars) (inputsFrom outputsTo : List IOVar) :
    Py CommandInvocationWithIOVars := do
  let c ← c.substituteInputs inputsFrom
  c.substituteOutputs outputsTo

/-- `generate_inputs` (CommandInvocationWithIOVars.py:78-86): the streaming inputs of the returned `Inputs`
object (its configuration inputs are `[]`) and the invocation afterwards. -/
def generateInputs (c : CommandInvocationWithIOVars) : Py (List IOVar × CommandInvocationWithIOVars) := do
  let r ← flatMapAnythingNonNames (collectFun AccessKind.isStreamInput c.accessMap) [] c
  .ok (r.2, r.1)

/-- `generate_outputs` (CommandInvocationWithIOVars.py:88-95): the result and the invocation afterwards. -/
def generateOutputs (c : CommandInvocationWithIOVars) : Py (List IOVar × CommandInvocationWithIOVars) := do
  let r ← flatMapAnythingNonNames (collectFun AccessKind.isAnyOutput c.accessMap) [] c
  .ok (r.2, r.1)

/-- `has_other_outputs` (CommandInvocationWithIOVars.py:97-104): the result and the invocation afterwards. -/
def hasOtherOutputs (c : CommandInvocationWithIOVars) : Py (Bool × CommandInvocationWithIOVars) := do
  let r ← flatMapAnythingNonNames (collectFun AccessKind.isOtherOutput c.accessMap) [] c
  .ok (decide (r.2.length > 0), r.1)

/-- `replace_var` (CommandInvocationWithIOVars.py:111-113). -/
def replaceVar (c : CommandInvocationWithIOVars) (fromVar : Option IOVar) (toVar : IOVar) :
    Py CommandInvocationWithIOVars := do
  let r ← flatMapAnythingNonNames (replaceFun fromVar toVar) c.accessMap c
  .ok { r.1 with accessMap := r.2 }

/-- `remove_streaming_inputs` (CommandInvocationWithIOVars.py:174-182). -/
def removeStreamingInputs (c : CommandInvocationWithIOVars) : Py CommandInvocationWithIOVars := do
  let r ← flatMapAnythingNonNames (removeFun AccessKind.isStreamInput) c.accessMap c
  .ok { r.1 with accessMap := r.2 }

/-- `remove_streaming_outputs` (CommandInvocationWithIOVars.py:184-192). -/
def removeStreamingOutputs (c : CommandInvocationWithIOVars) : Py CommandInvocationWithIOVars := do
  let r ← flatMapAnythingNonNames (removeFun AccessKind.isStreamOutput) c.accessMap c
  .ok { r.1 with accessMap := r.2 }

/-- `make_cat_command_invocation_with_io_vars` (CommandInvocationWithIOVars.py:162-172). -/
def makeCat (inputIds : List IOVar) (outputId : IOVar) : CommandInvocationWithIOVars where
  cmdName := "cat"
  flagOptionList := []
  operandList := inputIds.map VArg.var
  implicitInput := none
  implicitOutput := some outputId
  accessMap := AccessMap.set (AccessMap.ofKeys inputIds .streamInput) outputId .streamOutput

end CommandInvocationWithIOVars
end PashAnn
