import Verif.Spec.Parallel

/-! Specification vocabulary for the constructors of plans. -/

namespace PashAnn.Spec

/-- The aggregators with which lines may be dealt out one by one: concatenation and those that look at adjacent
lines. -/
def dealableKinds : List AggregatorKind := .concatenate :: adjacentKinds

/-- A plan that a user can have: made by the constructor, or from such a plan by the function that changes the
splitter to round robin with unwrapping. -/
inductive Built : Parallelizer → Prop
  | constructed {s m a info n p} : Parallelizer.make s m a info n = .ok p → Built p
  | unwrapped {p} : Built p → Built p.makeRoundRobinWithUnwrapFromOther

/-- An information object that a user can have: a new one, with plans appended, declared commutative, or asked for
its inferred plans. -/
inductive BuiltInfo : ParallelizabilityInfo → Prop
  | empty : BuiltInfo {}
  | appended {i p} : BuiltInfo i → Built p → BuiltInfo (i.append p)
  | declared {i} : BuiltInfo i → BuiltInfo i.setCommutative
  | inferred {i} : BuiltInfo i → BuiltInfo i.getInferredParallelizerList.2
  | unpacked {i} : BuiltInfo i → BuiltInfo i.unpackInfo.2

end PashAnn.Spec
