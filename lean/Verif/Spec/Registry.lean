import Verif.Model.Registry

/-! Specification vocabulary for C98: what the library finds for a registered command. -/

namespace PashAnn.Spec
open Registry

/-- The full name of the module that should define the class `n`. -/
def moduleOf (n : String) : String := "pash_annotations.annotation_generation.annotation_generators." ++ n

/-- The module is there and defines the class `g` under the name `n`. -/
def Provides {α : Type} (modules : Modules α) (n : String) (g : Class α) : Prop :=
  ∃ names, modules (moduleOf n) = .defines names ∧ names.lookup n = some g

/-- Looking for the class `n` does no harm: there is no module for it, or a module is missing that it needs, or it defines the
class. -/
def Harmless {α : Type} (modules : Modules α) (n : String) : Prop :=
  modules (moduleOf n) = .absent ∨ modules (moduleOf n) = .raises true ∨ ∃ g, Provides modules n g

/-- The two kinds of classes. -/
def kinds : List String := ["InputOutputInfoGenerator", "ParallelizabilityInfoGenerator"]

end PashAnn.Spec
