import Verif.Spec.Vars

/-!
What substituting streams does, as a walk along the variables of the invocation, for any variables: new ones, used
ones, repeated ones.
-/

namespace PashAnn.Spec

/-- `Walk a acc new vars result`: the variables are visited in order; `acc` says how each variable is accessed at that
moment; a variable accessed by `a` is replaced by the next of the new ones, which is accessed by `a` from then on,
while the old one is not described any more; all other variables stay. A variable that is not described is a
`KeyError`, a missing new variable an `IndexError`, and new variables left over at the end an `AssertionError`. -/
inductive Walk (a : AccessKind) : (IOVar → Option AccessKind) → List IOVar → List IOVar →
    Py (List IOVar × (IOVar → Option AccessKind)) → Prop
  | done (acc) : Walk a acc [] [] (.ok ([], acc))
  | left (acc n ns) : Walk a acc (n :: ns) [] (.error .assertionError)
  | unknown {acc ns v vs} : acc v = none → Walk a acc ns (v :: vs) (.error .keyError)
  | missing {acc v vs} : acc v = some a → Walk a acc [] (v :: vs) (.error .indexError)
  | replace {acc acc' n ns v vs vs'} : acc v = some a →
      Walk a (fun x => if x = n then some a else if x = v then none else acc x) ns vs (.ok (vs', acc')) →
      Walk a acc (n :: ns) (v :: vs) (.ok (n :: vs', acc'))
  | replaceThenRaise {acc n ns v vs e} : acc v = some a →
      Walk a (fun x => if x = n then some a else if x = v then none else acc x) ns vs (.error e) →
      Walk a acc (n :: ns) (v :: vs) (.error e)
  | keep {acc acc' b ns v vs vs'} : acc v = some b → b ≠ a → Walk a acc ns vs (.ok (vs', acc')) →
      Walk a acc ns (v :: vs) (.ok (v :: vs', acc'))
  | keepThenRaise {acc b ns v vs e} : acc v = some b → b ≠ a → Walk a acc ns vs (.error e) →
      Walk a acc ns (v :: vs) (.error e)

end PashAnn.Spec
