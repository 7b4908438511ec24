import Verif.Spec.Files

/-!
A machine on which the writing of files was interrupted: everything is where it should be, but of each file only a beginning may be
there.
-/

namespace PashAnn.Spec.PartialFiles
open PashAnn.Files (Node Machine)
open PashAnn.Spec.Files (At)

/-- The second is the first, or the beginning of it if it is a file. -/
inductive Cut : Node → Node → Prop
  | file {q s : List UInt8} : Cut (.file (q ++ s)) (.file q)
  | dir {es es'} : Cut (.dir es) (.dir es')
  | link {target} : Cut (.link target) (.link target)
  | unreadable : Cut .unreadable .unreadable
  | closed : Cut .closed .closed

/-- The second machine is the first one, but with a beginning of each file, which may be all or nothing of it. -/
structure Interrupted (m m' : Machine) : Prop where
  package : m'.package = m.package
  nameMax : m'.nameMax = m.nameMax
  pathMax : m'.pathMax = m.pathMax
  linkMax : m'.linkMax = m.linkMax
  there (pos : List String) (node : Node) : At m.root pos node → ∃ node', At m'.root pos node' ∧ Cut node node'
  nothingElse (pos : List String) (node' : Node) : At m'.root pos node' → ∃ node, At m.root pos node

/-- The errors for bytes that hold no value; the last one is for half a pair of surrogates. -/
def noValue : List PyErr := [.valueError "UnicodeDecodeError", .valueError "JSONDecodeError", .outsideModel]

end PashAnn.Spec.PartialFiles
