import Verif.Model.Text
import Verif.Model.Cli

/-!
The texts of plans and of the information about parallelizability (the `__repr__` methods below
/repo/pash_annotations/annotation_generation/datatypes/), and the text of the script's report
(/repo/pash_annotations/annotation_cli.py:45-68).
-/

namespace PashAnn.Text

/-- `standard_repr` (util_standard.py:1-9) of an object of any class, given with its module. -/
def classRepr (path : String) (attributes : List (String × String)) : String :=
  attributes.foldl addAttribute ("<class '" ++ path ++ "'>" ++ (if attributes.length ≠ 0 then ": \n" else "\n"))

/-- The module of the classes of plans. Printed by util_standard.py:2. -/
def planModule : String := "pash_annotations.annotation_generation.datatypes.parallelizability."

/-- `str` of a truth value. For util_standard.py:7-8. -/
def truth : Bool → String
  | true => "True"
  | false => "False"

/-- A hexadecimal digit. For util_standard.py:7-8. -/
def hexDigit (n : Nat) : Char := if n < 10 then Char.ofNat (48 + n) else Char.ofNat (87 + n)

/-- One character of Python's `repr` of a string between the quotes `q`. Simplified: characters beyond ASCII are shown
as they are, whereas Python escapes those that cannot be printed. For util_standard.py:7-8. -/
def reprChar (q c : Char) : List Char :=
  if c = '\\' then ['\\', '\\']
  else if c = q then ['\\', q]
  else if c = '\n' then ['\\', 'n']
  else if c = '\r' then ['\\', 'r']
  else if c = '\t' then ['\\', 't']
  else if c.toNat < 32 ∨ c.toNat = 127 then ['\\', 'x', hexDigit (c.toNat / 16), hexDigit (c.toNat % 16)]
  else [c]

/-- The quote Python chooses for the `repr` of a string. For util_standard.py:7-8. -/
def quoteFor (s : String) : Char := if '\'' ∈ s.toList ∧ '"' ∉ s.toList then '"' else '\''

/-- Python's `repr` of a string, which is how strings are shown inside a list. For util_standard.py:7-8. -/
def strRepr (s : String) : String :=
  String.ofList (quoteFor s :: s.toList.flatMap (reprChar (quoteFor s)) ++ [quoteFor s])

/-- A flag in a list of flags and options (BasicDatatypes.py:69-76). Options in such a list are of the class
`OptionWithIOVar`, which has no text of its own (BasicDatatypesWithIOVar.py:6-19): Python shows its address.
`other` stands for whatever is shown. -/
def flagOptionVar (other : FlagOptionWithIOVar → String) : FlagOptionWithIOVar → String
  | .flag n => standardRepr "BasicDatatypes.Flag" [("flag_name", n)]
  | x => other x

mutual
/-- `__repr__` of the transformers (TransformerFlagOptionList.py:26-27): the classes for the same list and for the
empty list have no attributes (55-59, 101-104), the others have one (66-69, 79-82, 90-93, 111-114, 143-146). -/
def transformer (other : FlagOptionWithIOVar → String) : Transformer → String
  | .seq => classRepr (planModule ++ "TransformerFlagOptionList.TransformerFlagOptionListSeq") []
  | .add l => classRepr (planModule ++ "TransformerFlagOptionList.TransformerFlagOptionListAdd")
      [("list_to_add", listRepr (l.map (flagOptionVar other)))]
  | .remove l => classRepr (planModule ++ "TransformerFlagOptionList.TransformerFlagOptionListRemove")
      [("list_to_remove", listRepr (l.map strRepr))]
  | .filter l => classRepr (planModule ++ "TransformerFlagOptionList.TransformerFlagOptionListFilter")
      [("list_filter", listRepr (l.map strRepr))]
  | .empty => classRepr (planModule ++ "TransformerFlagOptionList.TransformerFlagOptionListEmpty") []
  | .custom l => classRepr (planModule ++ "TransformerFlagOptionList.TransformerFlagOptionListCustom")
      [("list_custom", listRepr (l.map (flagOptionVar other)))]
  | .chain l => classRepr (planModule ++ "TransformerFlagOptionList.ChainTransformerFlagOptionList")
      [("list_transformers", listRepr (transformers other l))]
/-- The texts of the members of a chain (TransformerFlagOptionList.py:142-146, printed by util_standard.py:7-8). -/
def transformers (other : FlagOptionWithIOVar → String) : List Transformer → List String
  | [] => []
  | t :: ts => transformer other t :: transformers other ts
end

/-- `str` of a member of `SplitterKindEnum`, and `Splitter.__repr__` (Splitter.py:4-20). -/
def splitter : Splitter → String
  | .indivFiles => "SplitterKindEnum.INDIV_FILES"
  | .roundRobinPlain => "SplitterKindEnum.ROUND_ROBIN_PLAIN"
  | .roundRobinUnwrapFlag => "SplitterKindEnum.ROUND_ROBIN_UNWRAP_FLAG"
  | .consecChunks => "SplitterKindEnum.CONSEC_CHUNKS"

/-- `str` of a member of `AggregatorKindEnum` (AggregatorKind.py:3-14). -/
def aggregatorKind : AggregatorKind → String
  | .concatenate => "AggregatorKindEnum.CONCATENATE"
  | .adjLinesMerge => "AggregatorKindEnum.ADJ_LINES_MERGE"
  | .adjLinesSeq => "AggregatorKindEnum.ADJ_LINES_SEQ"
  | .adjLinesFunc => "AggregatorKindEnum.ADJ_LINES_FUNC"
  | .custom2Ary => "AggregatorKindEnum.CUSTOM_2_ARY"
  | .customNAry => "AggregatorKindEnum.CUSTOM_N_ARY"

/-- `str` of a member of `MapperSpecKindEnum` (MapperSpec.py:19-21). -/
def mapperKind : MapperSpecKind → String
  | .sameAsSeq => "MapperSpecKindEnum.SAME_AS_SEQ"
  | .custom => "MapperSpecKindEnum.CUSTOM"

/-- `str` of the attribute `spec_mapper_cmd_name`, a name or `None` (MapperSpec.py:34, printed by util_standard.py:7-8). -/
def mapperName : Option String → String
  | none => "None"
  | some n => n

/-- `MapperSpec.__repr__` (MapperSpec.py:26-39, 48-55). -/
def mapperSpec (other : FlagOptionWithIOVar → String) (m : MapperSpec) : String :=
  classRepr (planModule ++ "MapperSpec.MapperSpec")
    [("kind", mapperKind m.kind), ("spec_mapper_cmd_name", mapperName m.specMapperCmdName),
     ("flag_option_list_transformer", transformer other m.transformer), ("is_implemented", truth m.isImplemented)]

/-- `AggregatorSpec.__repr__` (AggregatorSpec.py:36-53, 164-167, 205-213, 253-259). -/
def aggregatorSpec (other : FlagOptionWithIOVar → String) : AggregatorSpec → String
  | .nonFunc k b => classRepr (planModule ++ "AggregatorSpec.AggregatorSpecNonFunc")
      [("kind", aggregatorKind k), ("is_implemented", truth b)]
  | .funcTransformer k t b => classRepr (planModule ++ "AggregatorSpec.AggregatorSpecFuncTransformer")
      [("kind", aggregatorKind k), ("is_implemented", truth b),
       ("flag_option_list_transformer", transformer other t)]
  | .funcString k s b => classRepr (planModule ++ "AggregatorSpec.AggregatorSpecFuncStringRepresentation")
      [("kind", aggregatorKind k), ("is_implemented", truth b), ("cmd_inv_as_str", s)]

/-- `Parallelizer.__repr__` (Parallelizer.py:55-59). -/
def parallelizer (other : FlagOptionWithIOVar → String) (p : Parallelizer) : String :=
  "Parallizer: \n" ++ "splitter: " ++ splitter p.splitter ++ " \n" ++
    "mapper attr: " ++ mapperSpec other p.coreMapperSpec ++ " \n" ++
    "aggregator attr: " ++ aggregatorSpec other p.coreAggregatorSpec ++ " \n"

/-- `ParallelizabilityInfo.__repr__` (ParallelizabilityInfo.py:10-23), for the class as known under the module
`path`. -/
def infoIn (path : String) (other : FlagOptionWithIOVar → String) (i : ParallelizabilityInfo) : String :=
  classRepr (path ++ "annotation_generation.datatypes.ParallelizabilityInfo.ParallelizabilityInfo")
    [("parallelizer_list", listRepr (i.parallelizerList.map (parallelizer other))),
     ("round_robin_compatible_with_cat", truth i.roundRobinCompatibleWithCat),
     ("is_commutative", truth i.isCommutative)]

/-- The text of the information the library returns (ParallelizabilityInfo.py:21-22). -/
def info (other : FlagOptionWithIOVar → String) (i : ParallelizabilityInfo) : String := infoIn "pash_annotations." other i

end PashAnn.Text

namespace PashAnn.Cli
open Text

/-- The part about parallelizability (annotation_cli.py:63-68). The information used in place of `None` is made with
the class as imported by the script (annotation_cli.py:9), whose module has another name. -/
def paraText (other : FlagOptionWithIOVar → String) : Option ParallelizabilityInfo → String
  | none => infoIn "" other {}
  | some i => info other i

/-- The part about inputs and outputs (annotation_cli.py:54-62). -/
def ioText : IOReport → String
  | .sideEffectful => "Information not provided so considered side-effectful."
  | .otherOutputs => "Provided command has outputs other than streaming."
  | .applied c => withIO c

/-- Everything after the command itself (annotation_cli.py:48-68). -/
def bodyText (other : FlagOptionWithIOVar → String) (r : Report) : String :=
  ">>> PARSED COMMAND INVOCATION: \n" ++ initial r.parsed ++ "\n" ++
  ">>> INPUT-OUTPUT INFORMATION (applied to command invocation if possible): \n" ++ ioText r.io ++ "\n" ++
  ">>> PARALLELIZABILITY INFORMATION: \n" ++ paraText other (getParallelizabilityInfo r.parsed)

/-- The whole text (annotation_cli.py:45-68). -/
def reportText (other : FlagOptionWithIOVar → String) (r : Report) : String :=
  ">>> READ COMMAND INVOCATION: \n" ++ r.command ++ "\n\n" ++ bodyText other r

end PashAnn.Cli
