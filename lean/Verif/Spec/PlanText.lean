import Verif.Spec.Text
import Verif.Model.Parallel

/-! Plans whose names cannot be mistaken for something else in their text. -/

namespace PashAnn.Spec

/-- A list of flags whose names are on one line. -/
def FlagsOnOneLine (l : List FlagOptionWithIOVar) : Prop := ∀ x ∈ l, ∃ n, x = .flag n ∧ OneLine n

/-- The lists of flags in a transformer contain flags only, with names on one line. -/
inductive PlainTransformer : Transformer → Prop
  | seq : PlainTransformer .seq
  | empty : PlainTransformer .empty
  | remove (l) : PlainTransformer (.remove l)
  | filter (l) : PlainTransformer (.filter l)
  | add {l} : FlagsOnOneLine l → PlainTransformer (.add l)
  | custom {l} : FlagsOnOneLine l → PlainTransformer (.custom l)
  | chain {l} : (∀ t ∈ l, PlainTransformer t) → PlainTransformer (.chain l)

/-- The name of the mapper, if it has one, is on one line and is not the word `None`. -/
structure PlainMapper (m : MapperSpec) : Prop where
  name : ∀ n, m.specMapperCmdName = some n → OneLine n ∧ n ≠ "None"
  transformer : PlainTransformer m.transformer

/-- The command of the aggregator is on one line. -/
def PlainAggregator : AggregatorSpec → Prop
  | .nonFunc _ _ => True
  | .funcTransformer _ t _ => PlainTransformer t
  | .funcString _ s _ => OneLine s

/-- Both are plain. -/
structure PlainPlan (p : Parallelizer) : Prop where
  mapper : PlainMapper p.coreMapperSpec
  aggregator : PlainAggregator p.coreAggregatorSpec

/-- The plans agree on what is shown of them. -/
structure ShownAlike (p q : Parallelizer) : Prop where
  splitter : p.splitter = q.splitter
  mapper : p.coreMapperSpec = q.coreMapperSpec
  aggregator : p.coreAggregatorSpec = q.coreAggregatorSpec

/-- The words of a parsed command are on one line, the operands contain no comma followed by a space, and there is not
just one empty operand. -/
structure PlainInvocation (c : CommandInvocationInitial) : Prop where
  command : OneLine c.cmdName
  flagsAndOptions : ∀ x ∈ c.flagOptionList, OneLineFlag x
  operands : ∀ x ∈ c.operandList, OneLine x ∧ NoSeparator x
  notEmpty : c.operandList ≠ [""]

end PashAnn.Spec
