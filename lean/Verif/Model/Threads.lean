import Verif.Model.Parallel

/-!
Model of the methods of /repo/pash_annotations/datatypes/CommandInvocationWithIOVars.py, and of `get_mapper` and
`get_aggregator`, as sequences of elementary accesses to the invocation, so that they can be interleaved when several
threads use the same invocation.

`Model/IOVars.lean` and `Model/Parallel.lean` model the same functions as one step each. An elementary access is what
CPython does without switching to another thread: reading or assigning an attribute of the invocation (and taking the length or one element of
the list read, which no code changes in place), and one operation on its dictionary. Everything else, in
particular the lists that a method builds or is given, belongs to the thread.
-/

namespace PashAnn.Threads

/-- An elementary access to an invocation. For the methods in CommandInvocationWithIOVars.py:52-192. -/
inductive Op where
  /-- `self.cmd_name` -/
  | name
  /-- `self.flag_option_list` -/
  | options
  /-- `len(self.flag_option_list)` -/
  | optionCount
  /-- `self.flag_option_list[i]` -/
  | option (i : Nat)
  /-- `self.flag_option_list = l` -/
  | storeOptions (l : List FlagOptionWithIOVar)
  /-- `self.operand_list` -/
  | operands
  /-- `len(self.operand_list)` -/
  | operandCount
  /-- `self.operand_list[i]` -/
  | operand (i : Nat)
  /-- `self.operand_list = l` -/
  | storeOperands (l : List VArg)
  /-- `self.implicit_use_of_streaming_input` -/
  | input
  /-- `self.implicit_use_of_streaming_input = v` -/
  | storeInput (v : Option IOVar)
  /-- `self.implicit_use_of_streaming_output` -/
  | output
  /-- `self.implicit_use_of_streaming_output = v` -/
  | storeOutput (v : Option IOVar)
  /-- `deepcopy(self.access_map)`. Taken as one access, which matters only if another thread changes the dictionary. -/
  | access
  /-- `self.access_map[v]` -/
  | lookup (v : IOVar)
  /-- `v in self.access_map` -/
  | member (v : IOVar)
  /-- `self.access_map.pop(v)` -/
  | pop (v : IOVar)
  /-- `self.access_map[v] = a` -/
  | store (v : IOVar) (a : AccessKind)

/-- What an access gives. For the methods in CommandInvocationWithIOVars.py:52-192. -/
abbrev Op.Result : Op → Type
  | .name => String
  | .options => List FlagOptionWithIOVar
  | .optionCount => Nat
  | .option _ => FlagOptionWithIOVar
  | .storeOptions _ => Unit
  | .operands => List VArg
  | .operandCount => Nat
  | .operand _ => VArg
  | .storeOperands _ => Unit
  | .input => Option IOVar
  | .storeInput _ => Unit
  | .output => Option IOVar
  | .storeOutput _ => Unit
  | .access => AccessMap
  | .lookup _ => AccessKind
  | .member _ => Bool
  | .pop _ => AccessKind
  | .store _ _ => Unit

/-- The effect of an access: what it gives or raises, and the invocation afterwards. For the methods in
CommandInvocationWithIOVars.py:52-192. -/
def Op.run (o : Op) (c : CommandInvocationWithIOVars) : Py o.Result × CommandInvocationWithIOVars :=
  match o with
  | .name => (.ok c.cmdName, c)
  | .options => (.ok c.flagOptionList, c)
  | .optionCount => (.ok c.flagOptionList.length, c)
  | .option i => (match c.flagOptionList[i]? with
      | some x => .ok x
      | none => .error .indexError, c)
  | .storeOptions l => (.ok (), { c with flagOptionList := l })
  | .operands => (.ok c.operandList, c)
  | .operandCount => (.ok c.operandList.length, c)
  | .operand i => (match c.operandList[i]? with
      | some x => .ok x
      | none => .error .indexError, c)
  | .storeOperands l => (.ok (), { c with operandList := l })
  | .input => (.ok c.implicitInput, c)
  | .storeInput v => (.ok (), { c with implicitInput := v })
  | .output => (.ok c.implicitOutput, c)
  | .storeOutput v => (.ok (), { c with implicitOutput := v })
  | .access => (.ok c.accessMap, c)
  | .lookup v => (c.accessMap.getItem v, c)
  | .member v => (.ok (c.accessMap.get? v).isSome, c)
  | .pop v => match c.accessMap.pop v with
      | .ok r => (.ok r.1, { c with accessMap := r.2 })
      | .error e => (.error e, c)
  | .store v a => (.ok (), { c with accessMap := c.accessMap.set v a })

/-- A computation of one thread: it has ended with a result or an exception, or its next access is `o`, to the invocation
with the number `a`, and it goes on as `k` says, depending on what the access gives or raises. For the methods in
CommandInvocationWithIOVars.py:52-192. -/
inductive Prog (α : Type) where
  | done (r : Py α)
  | step (a : Nat) (o : Op) (k : Py o.Result → Prog α)

namespace Prog

/-- One computation after the other. For the methods in CommandInvocationWithIOVars.py:52-192. -/
def bind {α β : Type} : Prog α → (α → Prog β) → Prog β
  | .done (.ok x), f => f x
  | .done (.error e), _ => .done (.error e)
  | .step a o k, f => .step a o (fun r => (k r).bind f)

/-- `try: … except Exception as e: …`: an exception is caught and becomes the result. For the methods in
CommandInvocationWithIOVars.py:52-192. -/
def attempt {α : Type} : Prog α → Prog (Py α)
  | .done r => .done (.ok r)
  | .step a o k => .step a o (fun r => (k r).attempt)

instance : Monad Prog where
  pure x := .done (.ok x)
  bind := bind

end Prog

/-- An access as a computation. For the methods in CommandInvocationWithIOVars.py:52-192. -/
def perform (a : Nat) (o : Op) : Prog o.Result := .step a o .done

/-- `raise`. For the methods in CommandInvocationWithIOVars.py:52-192. -/
def raise {α : Type} (e : PyErr) : Prog α := .done (.error e)

/-- The function applied to a variable, with the state of the thread that it closes over. For the methods in
CommandInvocationWithIOVars.py:52-192. -/
abbrev VarProg (σ : Type) := σ → IOVar → Prog (List IOVar × σ)

/-- The loop of `flat_map_non_names_aux_flag_option_list` (CommandInvocationWithIOVars.py:117-123). -/
def optionLoop {σ : Type} (self : Nat) (f : VarProg σ) :
    List Nat → σ → List FlagOptionWithIOVar → Prog (List FlagOptionWithIOVar × σ)
  | [], s, acc => pure (acc, s)
  | i :: is, s, acc => do
      let x : FlagOptionWithIOVar ← perform self (.option i)
      match x with
      | .optionIO n (.var v) => do
          let r ← f s v
          match r.1 with
          | [new] => optionLoop self f is r.2 (acc ++ [.optionIO n (.var new)])
          | _ => raise (.valueError "not enough values to unpack")
      | x => optionLoop self f is s (acc ++ [x])

/-- `flat_map_non_names_aux_flag_option_list` (CommandInvocationWithIOVars.py:115-124). -/
def flatMapOptions {σ : Type} (self : Nat) (f : VarProg σ) (s : σ) : Prog σ := do
  let n ← perform self .optionCount
  let r ← optionLoop self f (List.range n) s []
  let _ ← perform self (.storeOptions r.1)
  pure r.2

/-- The loop of `flat_map_non_names_aux_operand_list` (CommandInvocationWithIOVars.py:128-129). -/
def operandLoop {σ : Type} (self : Nat) (f : VarProg σ) : List Nat → σ → List VArg → Prog (List VArg × σ)
  | [], s, acc => pure (acc, s)
  | i :: is, s, acc => do
      let x : VArg ← perform self (.operand i)
      match x with
      | .var v => do
          let r ← f s v
          operandLoop self f is r.2 (acc ++ r.1.map VArg.var)
      | x => operandLoop self f is s (acc ++ [x])

/-- `flat_map_non_names_aux_operand_list` (CommandInvocationWithIOVars.py:126-130). -/
def flatMapOperands {σ : Type} (self : Nat) (f : VarProg σ) (s : σ) : Prog σ := do
  let n ← perform self .operandCount
  let r ← operandLoop self f (List.range n) s []
  let _ ← perform self (.storeOperands r.1)
  pure r.2

/-- The new value of an implicit stream (CommandInvocationWithIOVars.py:133-138, 141-146). -/
def flatMapStream {σ : Type} (f : VarProg σ) (s : σ) : Option IOVar → Prog (Option IOVar × σ)
  | none => pure (none, s)
  | some v => do
      let r ← f s v
      match r.1 with
      | [] => pure (none, r.2)
      | [new] => pure (some new, r.2)
      | _ => raise .assertionError

/-- `flat_map_non_names_aux_implicit_streaming_input` (CommandInvocationWithIOVars.py:132-138). -/
def flatMapInput {σ : Type} (self : Nat) (f : VarProg σ) (s : σ) : Prog σ := do
  let v ← perform self .input
  let r ← flatMapStream f s v
  let _ ← perform self (.storeInput r.1)
  pure r.2

/-- `flat_map_non_names_aux_implicit_streaming_output` (CommandInvocationWithIOVars.py:140-146). -/
def flatMapOutput {σ : Type} (self : Nat) (f : VarProg σ) (s : σ) : Prog σ := do
  let v ← perform self .output
  let r ← flatMapStream f s v
  let _ ← perform self (.storeOutput r.1)
  pure r.2

/-- `flat_map_anything_non_names` (CommandInvocationWithIOVars.py:150-154). -/
def flatMapAnythingNonNames {σ : Type} (self : Nat) (f : VarProg σ) (s : σ) : Prog σ := do
  let s ← flatMapOptions self f s
  let s ← flatMapOperands self f s
  let s ← flatMapInput self f s
  flatMapOutput self f s

/-- `replace_var_consistently` (CommandInvocationWithIOVars.py:106-109). -/
def replaceVarConsistently (self : Nat) (fromVar toVar : IOVar) : Prog IOVar := do
  let b : Bool ← perform self (.member fromVar)
  if b then do
    let a ← perform self (.pop fromVar)
    let _ ← perform self (.store toVar a)
    pure toVar
  else raise .assertionError

/-- The function applied at CommandInvocationWithIOVars.py:59-64 and 69-74. -/
def substituteFun (self : Nat) (pred : AccessKind → Bool) : VarProg (List IOVar) := fun s v => do
  let a ← perform self (.lookup v)
  if pred a then
    match s with
    | [] => raise .indexError
    | newVar :: remaining => do
        let r ← replaceVarConsistently self v newVar
        pure ([r], remaining)
  else pure ([v], s)

/-- The function applied at CommandInvocationWithIOVars.py:80-83, 90-93 and 99-102. -/
def collectFun (self : Nat) (pred : AccessKind → Bool) : VarProg (List IOVar) := fun s v => do
  let a ← perform self (.lookup v)
  pure ([v], if pred a then s ++ [v] else s)

/-- The function applied at CommandInvocationWithIOVars.py:112. -/
def replaceFun (self : Nat) (fromVar : Option IOVar) (toVar : IOVar) : VarProg Unit := fun _ el =>
  if some el = fromVar then do
    let r ← replaceVarConsistently self el toVar
    pure ([r], ())
  else pure ([el], ())

/-- The function applied at CommandInvocationWithIOVars.py:176-181 and 186-191. -/
def removeFun (self : Nat) (pred : AccessKind → Bool) : VarProg Unit := fun _ v => do
  let a ← perform self (.lookup v)
  if pred a then do
    let _ ← perform self (.pop v)
    pure ([], ())
  else pure ([v], ())

/-- `substitute_inputs_in_cmd_invocation` (CommandInvocationWithIOVars.py:58-66) and `…_outputs_…` (68-76). -/
def substituteOne (self : Nat) (pred : AccessKind → Bool) (newVars : List IOVar) : Prog Unit := do
  let rest ← flatMapAnythingNonNames self (substituteFun self pred) newVars
  if rest.length = 0 then pure () else raise .assertionError

/-- `substitute_inputs_and_outputs_in_cmd_invocation` (CommandInvocationWithIOVars.py:52-56). -/
def substitute (self : Nat) (inputsFrom outputsTo : List IOVar) : Prog Unit := do
  substituteOne self AccessKind.isStreamInput inputsFrom
  substituteOne self AccessKind.isStreamOutput outputsTo

/-- `generate_inputs` (CommandInvocationWithIOVars.py:78-86): the streaming inputs. -/
def generateInputs (self : Nat) : Prog (List IOVar) :=
  flatMapAnythingNonNames self (collectFun self AccessKind.isStreamInput) []

/-- `generate_outputs` (CommandInvocationWithIOVars.py:88-95). -/
def generateOutputs (self : Nat) : Prog (List IOVar) :=
  flatMapAnythingNonNames self (collectFun self AccessKind.isAnyOutput) []

/-- `has_other_outputs` (CommandInvocationWithIOVars.py:97-104). -/
def hasOtherOutputs (self : Nat) : Prog Bool := do
  let l ← flatMapAnythingNonNames self (collectFun self AccessKind.isOtherOutput) []
  pure (decide (l.length > 0))

/-- `replace_var` (CommandInvocationWithIOVars.py:111-113). -/
def replaceVar (self : Nat) (fromVar : Option IOVar) (toVar : IOVar) : Prog Unit :=
  flatMapAnythingNonNames self (replaceFun self fromVar toVar) ()

/-- `remove_streaming_inputs` (CommandInvocationWithIOVars.py:174-182). -/
def removeStreamingInputs (self : Nat) : Prog Unit :=
  flatMapAnythingNonNames self (removeFun self AccessKind.isStreamInput) ()

/-- `remove_streaming_outputs` (CommandInvocationWithIOVars.py:184-192). -/
def removeStreamingOutputs (self : Nat) : Prog Unit :=
  flatMapAnythingNonNames self (removeFun self AccessKind.isStreamOutput) ()

/-- A copy of an invocation: every field is read and copied (Mapper.py:36-43 with CommandInvocationWithIOVars.py:26-30;
`deepcopy` at AggregatorSpec.py:228). The copy belongs to the thread. -/
def copy (self : Nat) : Prog CommandInvocationWithIOVars := do
  let n ← perform self .name
  let fos ← perform self .options
  let ops ← perform self .operands
  let i ← perform self .input
  let o ← perform self .output
  let m ← perform self .access
  pure ⟨n, fos, ops, i, o, m⟩

/-- `get_mapper` (MapperSpec.py:57-98): the rest works on the copy, which no other thread knows. If the mapper is not
implemented the code does not read the invocation; reading changes nothing. -/
def getMapper (ms : MapperSpec) (original : Nat) (inputFrom outputTo : IOVar) (aux : List IOVar) :
    Prog (Option CommandInvocationWithIOVars) := do
  let c ← copy original
  .done (ms.getMapper c inputFrom outputTo aux)

/-- `get_aggregator` (AggregatorSpec.py:169-190, 215-238, 261-294). The list of options is read again after the copy was
made (line 230); it is what the copy is given. Aggregators that do not depend on the command do not read it; reading
changes nothing. -/
def getAggregator (spec : AggregatorSpec) (original : Nat) (inputsFrom : List IOVar) (outputTo : IOVar) :
    Prog (Option Aggregator) := do
  let c ← copy original
  let fos ← perform original .options
  .done (spec.getAggregator { c with flagOptionList := fos } inputsFrom outputTo)

end PashAnn.Threads
