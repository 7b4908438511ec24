import Verif.Model.Heap

/-!
Specification vocabulary for C73–C76: what a client of the library sees of an object, and what a client can do.
-/

namespace PashAnn.Spec
open Heap

/-- What a client sees at an address: the contents of a list or dictionary, or an invocation with the contents of its
lists and its dictionary. -/
inductive Value where
  | list (l : List VArg)
  | options (l : List FlagOptionWithIOVar)
  | dict (m : AccessMap)
  | command (c : CommandInvocationWithIOVars)
deriving DecidableEq, Repr

/-- The invocation at an address. -/
def commandAt (h : Heap) (a : Addr) : Option CommandInvocationWithIOVars :=
  match h[a]? with
  | some (.inv o) =>
      match h[o.flagOptionList]?, h[o.operandList]?, h[o.accessMap]? with
      | some (.options fos), some (.vars ops), some (.map m) =>
          some ⟨o.cmdName, fos, ops, o.implicitInput, o.implicitOutput, m⟩
      | _, _, _ => none
  | _ => none

/-- The value at an address. -/
def valueAt (h : Heap) (a : Addr) : Option Value :=
  match h[a]? with
  | some (.vars l) => some (.list l)
  | some (.options l) => some (.options l)
  | some (.map m) => some (.dict m)
  | some (.inv _) => (commandAt h a).map Value.command
  | none => none

/-- What a client can do: make and change lists and dictionaries of its own, make invocations from them, call the methods,
and ask for mappers and aggregators. It does not reach into the fields of an invocation. -/
inductive Call where
  | newList (l : List VArg)
  | newOptions (l : List FlagOptionWithIOVar)
  | newDict (m : AccessMap)
  | changeList (a : Addr) (l : List VArg)
  | changeOptions (a : Addr) (l : List FlagOptionWithIOVar)
  | changeDict (a : Addr) (m : AccessMap)
  | construct (cmdName : String) (flagOptions operands : Addr) (input output : Option IOVar) (accessMap : Addr)
  | substitute (self inputsFrom outputsTo : Addr)
  | generateInputs (self : Addr)
  | generateOutputs (self : Addr)
  | hasOtherOutputs (self : Addr)
  | replaceVar (self : Addr) (fromVar : Option IOVar) (toVar : IOVar)
  | removeStreamingInputs (self : Addr)
  | removeStreamingOutputs (self : Addr)
  | makeCat (inputIds : Addr) (outputId : IOVar)
  | getMapper (spec : MapperSpec) (original : Addr) (inputFrom outputTo : IOVar) (auxOutputs : Addr)
  | getAggregator (spec : AggregatorSpec) (original inputsFrom : Addr) (outputTo : IOVar)

namespace Call

/-- The effect of a call; the result is the address of the object returned, if an object is returned. -/
def run : Call → HM (Option Addr)
  | newList l => do let a ← alloc (.vars l); pure (some a)
  | newOptions l => do let a ← alloc (.options l); pure (some a)
  | newDict m => do let a ← alloc (.map m); pure (some a)
  | changeList a l => do let _ ← getVars a; put a (.vars l); pure none
  | changeOptions a l => do let _ ← getOptions a; put a (.options l); pure none
  | changeDict a m => do let _ ← getMap a; put a (.map m); pure none
  | construct n f o i u m => do let a ← Heap.construct n f o i u m; pure (some a)
  | substitute s i o => do Heap.substitute s i o; pure none
  | generateInputs s => do let a ← Heap.generateInputs s; pure (some a)
  | generateOutputs s => do let a ← Heap.generateOutputs s; pure (some a)
  | hasOtherOutputs s => do let _ ← Heap.hasOtherOutputs s; pure none
  | replaceVar s v w => do Heap.replaceVar s v w; pure none
  | removeStreamingInputs s => do Heap.removeStreamingInputs s; pure none
  | removeStreamingOutputs s => do Heap.removeStreamingOutputs s; pure none
  | makeCat i o => do let a ← Heap.makeCat i o; pure (some a)
  | getMapper m s i o x => Heap.getMapper m s i o x
  | getAggregator g s i o => Heap.getAggregator g s i o

/-- The objects a call names. -/
def args : Call → List Addr
  | newList _ | newOptions _ | newDict _ => []
  | changeList a _ => [a]
  | changeOptions a _ => [a]
  | changeDict a _ => [a]
  | construct _ f o _ _ m => [f, o, m]
  | substitute s i o => [s, i, o]
  | generateInputs s => [s]
  | generateOutputs s => [s]
  | hasOtherOutputs s => [s]
  | replaceVar s _ _ => [s]
  | removeStreamingInputs s => [s]
  | removeStreamingOutputs s => [s]
  | makeCat i _ => [i]
  | getMapper _ s _ _ x => [s, x]
  | getAggregator _ s i _ => [s, i]

/-- The objects named are of the right kind. -/
def Typed (h : Heap) : Call → Prop
  | newList _ | newOptions _ | newDict _ => True
  | changeList a _ => ∃ l, h[a]? = some (.vars l)
  | changeOptions a _ => ∃ l, h[a]? = some (.options l)
  | changeDict a _ => ∃ m, h[a]? = some (.map m)
  | construct _ f o _ _ m =>
      (∃ l, h[f]? = some (.options l)) ∧ (∃ l, h[o]? = some (.vars l)) ∧ ∃ x, h[m]? = some (.map x)
  | substitute s i o => (∃ x, h[s]? = some (.inv x)) ∧ (∃ l, h[i]? = some (.vars l)) ∧ ∃ l, h[o]? = some (.vars l)
  | generateInputs s => ∃ x, h[s]? = some (.inv x)
  | generateOutputs s => ∃ x, h[s]? = some (.inv x)
  | hasOtherOutputs s => ∃ x, h[s]? = some (.inv x)
  | replaceVar s _ _ => ∃ x, h[s]? = some (.inv x)
  | removeStreamingInputs s => ∃ x, h[s]? = some (.inv x)
  | removeStreamingOutputs s => ∃ x, h[s]? = some (.inv x)
  | makeCat i _ => ∃ vs : List IOVar, h[i]? = some (.vars (vs.map VArg.var))
  | getMapper _ s _ _ x => (∃ o, h[s]? = some (.inv o)) ∧ ∃ vs : List IOVar, h[x]? = some (.vars (vs.map VArg.var))
  | getAggregator _ s i _ => (∃ o, h[s]? = some (.inv o)) ∧ ∃ vs : List IOVar, h[i]? = some (.vars (vs.map VArg.var))

/-- The objects a call is meant to change: the receiver of a changing method, and the lists of new variables, which
substitution consumes. -/
def changes : Call → List Addr
  | changeList a _ => [a]
  | changeOptions a _ => [a]
  | changeDict a _ => [a]
  | substitute s i o => [s, i, o]
  | replaceVar s _ _ => [s]
  | removeStreamingInputs s => [s]
  | removeStreamingOutputs s => [s]
  | _ => []

end Call

/-- The state of a client: the heap and the addresses it has been given. -/
structure Client where
  heap : Heap
  known : List Addr

/-- A call by a client. If it raises, the client catches the exception and goes on. -/
def Client.call (s : Client) (c : Call) : Client :=
  match c.run s.heap with
  | (.ok (some a), h) => ⟨h, a :: s.known⟩
  | (_, h) => ⟨h, s.known⟩

/-- A history: a sequence of calls, each naming only objects the client knows at that time, of the right kind. -/
inductive History : Client → List Call → Client → Prop
  | done {s} : History s [] s
  | step {s t c cs} : (∀ a ∈ c.args, a ∈ s.known) → c.Typed s.heap → History (s.call c) cs t → History s (c :: cs) t

end PashAnn.Spec
