import Verif.Model.IOVars

/-! Model of
/repo/pash_annotations/annotation_generation/datatypes/parallelizability/TransformerFlagOptionList.py. -/

namespace PashAnn

/-- The subclasses of `TransformerFlagOptionList` (TransformerFlagOptionList.py:56-119, 143-151). -/
inductive Transformer where
  | seq
  | add (listToAdd : List FlagOptionWithIOVar)
  | remove (listToRemove : List String)
  | filter (listFilter : List String)
  | empty
  | custom (listCustom : List FlagOptionWithIOVar)
  | chain (listTransformers : List Transformer)
deriving Repr

/-- Python `x in l` (TransformerFlagOptionList.py:76). -/
def pyIn (x : FlagOptionWithIOVar) (l : List FlagOptionWithIOVar) : Bool := l.any (·.pyEq x)

mutual
/-- `get_flag_option_list_after_transformer_application` of each class: Seq (TransformerFlagOptionList.py:61-64),
Add (71-77), Remove (84-88), Filter (95-99), Empty (106-109), Custom (116-119), Chain (148-151). -/
def Transformer.apply : Transformer → List FlagOptionWithIOVar → List FlagOptionWithIOVar
  | .seq, l => l
  | .add toAdd, l => l ++ toAdd.filter fun x => !pyIn x l
  | .remove names, l => l.filter fun x => decide (x.getName ∉ names)
  | .filter names, l => l.filter fun x => decide (x.getName ∈ names)
  | .empty, _ => []
  | .custom l', _ => l'
  | .chain ts, l => Transformer.applyChain ts l

/-- `foldl(apply_individual_transformer_flagoption_list, original, list_transformers)`
(TransformerFlagOptionList.py:49-52, 151; util.py:6-10). -/
def Transformer.applyChain : List Transformer → List FlagOptionWithIOVar → List FlagOptionWithIOVar
  | [], acc => acc
  | t :: ts, acc => Transformer.applyChain ts (Transformer.apply t acc)
end

/-- `return_transformer_flagoption_list_same_as_seq_if_none_else_itself` (TransformerFlagOptionList.py:42-47). -/
def transformerSameAsSeqIfNone : Option Transformer → Transformer
  | none => .seq
  | some t => t

/-- `return_transformer_flagoption_list_empty_if_none_else_itself` (TransformerFlagOptionList.py:35-40). -/
def transformerEmptyIfNone : Option Transformer → Transformer
  | none => .empty
  | some t => t

end PashAnn
