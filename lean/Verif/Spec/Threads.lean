import Verif.Model.Threads

/-!
Specification vocabulary for C95: several threads call methods of invocations, and take turns in any order.
-/

namespace PashAnn.Spec
open Threads

/-- The invocations that exist, by number. -/
abbrev World := Nat → CommandInvocationWithIOVars

/-- The same with another invocation at one number. -/
def World.set (w : World) (a : Nat) (c : CommandInvocationWithIOVars) : World := fun b => if b = a then c else w b

/-- The methods of an invocation that are considered. -/
inductive Method where
  | generateInputs
  | generateOutputs
  | hasOtherOutputs
  | getMapper (spec : MapperSpec) (inputFrom outputTo : IOVar) (aux : List IOVar)
  | getAggregator (spec : AggregatorSpec) (inputsFrom : List IOVar) (outputTo : IOVar)
  | substitute (inputsFrom outputsTo : List IOVar)
  | replaceVar (fromVar : Option IOVar) (toVar : IOVar)
  | removeStreamingInputs
  | removeStreamingOutputs

/-- What a method answers. -/
inductive Answer where
  | nothing
  | vars (l : List IOVar)
  | bool (b : Bool)
  | command (c : Option CommandInvocationWithIOVars)
  | aggregator (g : Option Aggregator)
deriving DecidableEq, Repr

namespace Method

/-- The methods that only ask. -/
def Asks : Method → Prop
  | generateInputs | generateOutputs | hasOtherOutputs | getMapper .. | getAggregator .. => True
  | substitute .. | replaceVar .. | removeStreamingInputs | removeStreamingOutputs => False

/-- The accesses of a method of the invocation with the number `a`. -/
def prog (a : Nat) : Method → Prog Answer
  | generateInputs => do let l ← Threads.generateInputs a; pure (.vars l)
  | generateOutputs => do let l ← Threads.generateOutputs a; pure (.vars l)
  | hasOtherOutputs => do let b ← Threads.hasOtherOutputs a; pure (.bool b)
  | getMapper ms i o aux => do let r ← Threads.getMapper ms a i o aux; pure (.command r)
  | getAggregator g is o => do let r ← Threads.getAggregator g a is o; pure (.aggregator r)
  | substitute is os => do Threads.substitute a is os; pure .nothing
  | replaceVar v w => do Threads.replaceVar a v w; pure .nothing
  | removeStreamingInputs => do Threads.removeStreamingInputs a; pure .nothing
  | removeStreamingOutputs => do Threads.removeStreamingOutputs a; pure .nothing

/-- What the method does if nobody else uses the invocation: the answer and the invocation afterwards, as in
`Model/IOVars.lean` and `Model/Parallel.lean`. -/
def effect (c : CommandInvocationWithIOVars) : Method → Py (Answer × CommandInvocationWithIOVars)
  | generateInputs => do let r ← c.generateInputs; pure (.vars r.1, r.2)
  | generateOutputs => do let r ← c.generateOutputs; pure (.vars r.1, r.2)
  | hasOtherOutputs => do let r ← c.hasOtherOutputs; pure (.bool r.1, r.2)
  | getMapper ms i o aux => do let r ← ms.getMapper c i o aux; pure (.command r, c)
  | getAggregator g is o => do let r ← g.getAggregator c is o; pure (.aggregator r, c)
  | substitute is os => do let r ← c.substitute is os; pure (.nothing, r)
  | replaceVar v w => do let r ← c.replaceVar v w; pure (.nothing, r)
  | removeStreamingInputs => do let r ← c.removeStreamingInputs; pure (.nothing, r)
  | removeStreamingOutputs => do let r ← c.removeStreamingOutputs; pure (.nothing, r)

end Method

/-- A method called for the invocation with a number. -/
structure MethodCall where
  self : Nat
  method : Method

/-- What a thread does: its calls, one after the other. Exceptions are caught and the thread goes on; the result are the
answers and exceptions. -/
def threadOf : List MethodCall → Prog (List (Py Answer))
  | [] => pure []
  | m :: ms => do
      let r ← (m.method.prog m.self).attempt
      let rs ← threadOf ms
      pure (r :: rs)

/-- A turn: some thread that has not ended makes its next access. -/
inductive Turn {α : Type} : World × List (Prog α) → World × List (Prog α) → Prop
  | turn {w ts} (i : Nat) {a o k} : ts[i]? = some (.step a o k) →
      Turn (w, ts) (w.set a (o.run (w a)).2, ts.set i (k (o.run (w a)).1))

/-- Any number of turns, by any threads in any order. -/
inductive Turns {α : Type} : World × List (Prog α) → World × List (Prog α) → Prop
  | refl {s} : Turns s s
  | step {s t u} : Turn s t → Turns t u → Turns s u

/-- A thread that nobody disturbs: its result and the invocations afterwards. -/
def undisturbed {α : Type} : Prog α → World → Py α × World
  | .done r, w => (r, w)
  | .step a o k, w => undisturbed (k (o.run (w a)).1) (w.set a (o.run (w a)).2)

/-- The threads keep apart: an invocation that two threads use is only asked. -/
def KeepApart (ts : List (List MethodCall)) : Prop :=
  ∀ (i j : Nat) (t u : List MethodCall), ts[i]? = some t → ts[j]? = some u → i ≠ j → ∀ m ∈ t, ∀ n ∈ u,
    m.self = n.self → m.method.Asks ∧ n.method.Asks

/-- The calls of one thread with nobody else around, in terms of what each method does as a whole: the answers and
exceptions, and the invocations afterwards. In what state a call that raises leaves the invocation is left open. -/
inductive Sequential : List MethodCall → World → List (Py Answer) → World → Prop
  | nil {w} : Sequential [] w [] w
  | answers {m ms w r rs w'} : m.method.effect (w m.self) = .ok r → Sequential ms (w.set m.self r.2) rs w' →
      Sequential (m :: ms) w (.ok r.1 :: rs) w'
  | raises {m ms w e c rs w'} : m.method.effect (w m.self) = .error e → Sequential ms (w.set m.self c) rs w' →
      Sequential (m :: ms) w (.error e :: rs) w'

end PashAnn.Spec
