/-!
Python primitives shared by the model: exceptions as values, and the few list and dictionary operations
the code relies on.
-/

namespace PashAnn

/-- Exceptions that the modelled code can raise. `outsideModel` marks inputs the model deliberately does
not cover (see DESIGN.md, section 2); no Python exception corresponds to it. -/
inductive PyErr where
  | indexError
  | keyError
  | valueError (msg : String)
  | assertionError
  | notImplementedError
  | attributeError
  | exception (msg : String)
  | notADirectoryError
  | osError (msg : String)
  | typeError
  | outsideModel
deriving DecidableEq, Repr

/-- Result of a Python computation that may raise. For example parser.py:14 and CommandInvocationWithIOVars.py:66 raise. -/
abbrev Py (α : Type) := Except PyErr α

/-- `assert b` (CommandInvocationWithIOVars.py:66, 76, 107, 137 and 145). -/
def pyAssert (b : Bool) : Py Unit := if b then .ok () else .error .assertionError

/-- A Python dictionary built by successive assignments `d[k] = v`, kept as the list of assignments in
order; a later assignment to the same key wins (parser.py:90-102). -/
def dictGet? {κ ν : Type} [BEq κ] (assignments : List (κ × ν)) (k : κ) : Option ν :=
  assignments.reverse.lookup k

/-- `d.get(k, default)` (parser.py:32 and 36). -/
def dictGetD {κ ν : Type} [BEq κ] (assignments : List (κ × ν)) (k : κ) (default : ν) : ν :=
  match dictGet? assignments k with
  | some v => v
  | none => default

/-- Equality of results is decidable; used only to evaluate concrete examples. -/
instance {ε α : Type} [DecidableEq ε] [DecidableEq α] : DecidableEq (Except ε α)
  | .ok a, .ok b => if h : a = b then isTrue (h ▸ rfl) else isFalse (fun e => h (Except.ok.inj e))
  | .error a, .error b => if h : a = b then isTrue (h ▸ rfl) else isFalse (fun e => h (Except.error.inj e))
  | .ok _, .error _ => isFalse (fun e => nomatch e)
  | .error _, .ok _ => isFalse (fun e => nomatch e)

instance {α : Type} [DecidableEq α] : DecidableEq (Py α) :=
  inferInstanceAs (DecidableEq (Except PyErr α))

end PashAnn
