import Verif.Model.Stores

/-! What a step of a client writes, for C92. -/

namespace PashAnn.Spec

/-- The step sets the property `n` in the dictionary `d`, through an object that holds it or directly. `objects` says
which dictionary each object holds. -/
def WritesTo {α : Type} (objects : List Nat) (d : Nat) (n : String) : PropStep α → Prop
  | .setProperty o m _ => objects[o]? = some d ∧ m = n
  | .store e m _ => e = d ∧ m = n
  | _ => False

/-- What the step says that a new dictionary holds under `n`: nothing if the step makes an object, which gets an empty
dictionary; what the client wrote if it makes a dictionary. -/
def Initially {α : Type} (n : String) : PropStep α → Option α → Prop
  | .make _, x => x = none
  | .dict d, x => (∃ v, x = some v ∧ ∃ a b, d = a ++ (n, v) :: b ∧ ∀ e ∈ a, e.1 ≠ n) ∨ (x = none ∧ ∀ e ∈ d, e.1 ≠ n)
  | _, _ => False

/-- Every dictionary that is given to an object exists at that time. -/
def GivenExist {α : Type} (steps : List (PropStep α)) : Prop :=
  ∀ before d after, steps = before ++ .make (some d) :: after → d < (PropWorld.history before).dicts.length

end PashAnn.Spec
