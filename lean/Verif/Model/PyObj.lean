import Verif.Model.Parallel

/-!
Python values and their `==`, as far as the classes of /repo that define `__eq__` by `standard_eq`
(/repo/pash_annotations/util_standard.py:11-14) need it, and the representation of the model's data types as such
values: class names and attributes in the order in which the constructors assign them.
-/

namespace PashAnn

/-- Keys of the dictionaries that are compared: attribute names, and variables in access maps. For the comparison in
util_standard.py:12-14. -/
inductive PyKey where
  | int (i : Int)
  | str (s : String)
deriving DecidableEq, Repr

mutual
/-- Python values. Booleans are the integers 0 and 1, as in Python. `obj` is an instance of a class whose `__eq__`
is `standard_eq`; `opaque` is an instance of a class without `__eq__`, whose equality is identity. For the comparison in
util_standard.py:12-14. -/
inductive PyVal where
  | none
  | int (i : Int)
  | str (s : String)
  | enum (cls member : String)
  | list (l : PyList)
  | dict (d : PyDict)
  | obj (cls : String) (attributes : PyDict)
  | opaque (oid : Nat)
/-- The elements of a list. For the comparison in util_standard.py:12-14. -/
inductive PyList where
  | nil
  | cons (v : PyVal) (l : PyList)
/-- A dictionary: its items in insertion order. For the comparison in util_standard.py:12-14. -/
inductive PyDict where
  | nil
  | cons (k : PyKey) (v : PyVal) (d : PyDict)
end

/-- `len(d)`. For the comparison in util_standard.py:12-14. -/
def PyDict.length : PyDict → Nat
  | .nil => 0
  | .cons _ _ d => d.length + 1

/-- The keys of a dictionary. For the comparison in util_standard.py:12-14. -/
def PyDict.keys : PyDict → List PyKey
  | .nil => []
  | .cons k _ d => k :: d.keys

/-- `d.get(k)`. For the comparison in util_standard.py:12-14. -/
def PyDict.get? : PyDict → PyKey → Option PyVal
  | .nil, _ => .none
  | .cons k v d, k' => if k = k' then some v else d.get? k'

mutual
/-- `a == b`. Two instances of classes with `standard_eq` are compared by class and `vars` (util_standard.py:11-14);
dictionaries are compared like CPython does: same length, and each item of the first is looked up in the second. -/
def PyVal.eq : PyVal → PyVal → Bool
  | .none, .none => true
  | .int a, .int b => a == b
  | .str a, .str b => a == b
  | .enum c m, .enum c' m' => c == c' && m == m'
  | .list l, .list m => PyList.eq l m
  | .dict d, .dict e => d.length == e.length && PyDict.sub d e
  | .obj c d, .obj c' e => c == c' && (d.length == e.length && PyDict.sub d e)
  | .opaque i, .opaque j => i == j
  | _, _ => false
/-- Comparison of lists, element by element. For the comparison in util_standard.py:12-14. -/
def PyList.eq : PyList → PyList → Bool
  | .nil, .nil => true
  | .cons a l, .cons b m => PyVal.eq a b && PyList.eq l m
  | _, _ => false
/-- Each item of the first dictionary has an equal one in the second. For the comparison in util_standard.py:12-14. -/
def PyDict.sub : PyDict → PyDict → Bool
  | .nil, _ => true
  | .cons k v d, e =>
      match e.get? k with
      | .none => false
      | some w => PyVal.eq v w && PyDict.sub d e
end

mutual
/-- A value that exists in Python: the keys of each dictionary are distinct. For the comparison in util_standard.py:12-14. -/
def PyVal.wf : PyVal → Prop
  | .list l => PyList.wf l
  | .dict d => PyDict.wf d
  | .obj _ d => PyDict.wf d
  | _ => True
/-- All elements are well-formed. For the comparison in util_standard.py:12-14. -/
def PyList.wf : PyList → Prop
  | .nil => True
  | .cons v l => PyVal.wf v ∧ PyList.wf l
/-- All items are well-formed and the keys distinct. For the comparison in util_standard.py:12-14. -/
def PyDict.wf : PyDict → Prop
  | .nil => True
  | .cons k v d => k ∉ d.keys ∧ PyVal.wf v ∧ PyDict.wf d
end

/-! The data types as Python values. -/

/-- A Python list. For the comparison in util_standard.py:12-14. -/
def PyList.of : List PyVal → PyList
  | [] => .nil
  | v :: l => .cons v (PyList.of l)

/-- The attributes of an instance (`vars`, util_standard.py:14). -/
def attrs : List (String × PyVal) → PyDict
  | [] => .nil
  | (k, v) :: l => .cons (.str k) v (attrs l)

/-- `None` or a value. For the comparison in util_standard.py:12-14. -/
def PyVal.opt {α : Type} (enc : α → PyVal) : Option α → PyVal
  | Option.none => .none
  | some a => enc a

/-- A list of represented values. For the comparison in util_standard.py:12-14. -/
def PyVal.listOf {α : Type} (enc : α → PyVal) (l : List α) : PyVal := .list (PyList.of (l.map enc))

/-- A boolean. For the comparison in util_standard.py:12-14. -/
def PyVal.bool (b : Bool) : PyVal := .int (if b then 1 else 0)

/-- `AccessKind` (AccessKind.py:15-24). -/
def AccessKind.py (a : AccessKind) : PyVal :=
  .obj "AccessKind" (attrs [("kind", .enum "AccessKindEnum" (match a with
    | .configInput => "CONFIG_INPUT"
    | .streamInput => "STREAM_INPUT"
    | .containerForInput => "CONTAINER_FOR_INPUT"
    | .excludesFromInput => "EXCLUDES_FROM_INPUT"
    | .otherInput => "OTHER_INPUT"
    | .streamOutput => "STREAM_OUTPUT"
    | .otherOutput => "OTHER_OUTPUT"))])

/-- `Flag` and `Option` (BasicDatatypes.py:69-88). -/
def FlagOption.py : FlagOption → PyVal
  | .flag n => .obj "Flag" (attrs [("flag_name", .str n)])
  | .option n a => .obj "Option" (attrs [("option_name", .str n), ("option_arg", .str a)])

/-- `Operand` (BasicDatatypes.py:101-104). -/
def operandPy (s : String) : PyVal := .obj "Operand" (attrs [("name", .str s)])

/-- `CommandInvocationInitial` (CommandInvocationInitial.py:8-17). -/
def CommandInvocationInitial.py (c : CommandInvocationInitial) : PyVal :=
  .obj "CommandInvocationInitial" (attrs [("cmd_name", .str c.cmdName),
    ("flag_option_list", .listOf FlagOption.py c.flagOptionList), ("operand_list", .listOf operandPy c.operandList)])

/-- `StdDescriptorEnum` (BasicDatatypes.py:31-34). -/
def StdDescriptor.py (d : StdDescriptor) : PyVal :=
  .enum "StdDescriptorEnum" (match d with
    | .stdin => "STDIN"
    | .stdout => "STDOUT"
    | .stderr => "STDERR")

/-- `FileNameWithIOInfo` and `StdDescriptorWithIOInfo` (BasicDatatypesWithIO.py:23-42). -/
def FileWithIO.py : FileWithIO → PyVal
  | .file n a => .obj "FileNameWithIOInfo" (attrs [("name", .str n), ("access", a.py)])
  | .std d a => .obj "StdDescriptorWithIOInfo" (attrs [("name", d.py), ("access", a.py)])

/-- `ArgStringType` (BasicDatatypes.py:59-65). -/
def argStringPy (s : String) : PyVal := .obj "ArgStringType" (attrs [("name", .str s)])

/-- Typed operands and option arguments. For the comparison in util_standard.py:12-14. -/
def ArgWithIO.py : ArgWithIO → PyVal
  | .argString s => argStringPy s
  | .io f => f.py

/-- `Flag` or `OptionWithIO` (BasicDatatypesWithIO.py:80-93). -/
def FlagOptionWithIO.py : FlagOptionWithIO → PyVal
  | .flag n => .obj "Flag" (attrs [("flag_name", .str n)])
  | .option n a => .obj "OptionWithIO" (attrs [("option_name", .str n), ("option_arg", a.py)])

/-- `CommandInvocationWithIO` (CommandInvocationWithIO.py:10-28). -/
def CommandInvocationWithIO.py (c : CommandInvocationWithIO) : PyVal :=
  .obj "CommandInvocationWithIO" (attrs [("cmd_name", .str c.cmdName),
    ("flag_option_list", .listOf FlagOptionWithIO.py c.flagOptionList),
    ("operand_list", .listOf ArgWithIO.py c.operandList),
    ("implicit_use_of_streaming_input", .opt FileWithIO.py c.implicitInput),
    ("implicit_use_of_streaming_output", .opt FileWithIO.py c.implicitOutput)])

/-- Operands and option arguments with variables. For the comparison in util_standard.py:12-14. -/
def VArg.py : VArg → PyVal
  | .var v => .int v
  | .str s => argStringPy s
  | .io f => f.py

/-- `Flag`, `OptionWithIOVar` (BasicDatatypesWithIOVar.py:6-19, no `__eq__`) or `OptionWithIO`. -/
def FlagOptionWithIOVar.py : FlagOptionWithIOVar → PyVal
  | .flag n => .obj "Flag" (attrs [("flag_name", .str n)])
  | .optionVar oid _ _ => .opaque oid
  | .optionIO n a => .obj "OptionWithIO" (attrs [("option_name", .str n), ("option_arg", a.py)])

/-- The access map as a dictionary. For the comparison in util_standard.py:12-14. -/
def accessMapPy : AccessMap → PyDict
  | [] => .nil
  | (k, a) :: m => .cons (.int k) a.py (accessMapPy m)

/-- The attributes of a `CommandInvocationWithIOVars` (CommandInvocationWithIOVars.py:17-30). -/
def CommandInvocationWithIOVars.attributes (c : CommandInvocationWithIOVars) : List (String × PyVal) :=
  [("cmd_name", .str c.cmdName), ("flag_option_list", .listOf FlagOptionWithIOVar.py c.flagOptionList),
   ("operand_list", .listOf VArg.py c.operandList), ("implicit_use_of_streaming_input", .opt .int c.implicitInput),
   ("implicit_use_of_streaming_output", .opt .int c.implicitOutput), ("access_map", .dict (accessMapPy c.accessMap))]

/-- `CommandInvocationWithIOVars` (CommandInvocationWithIOVars.py:17-36). -/
def CommandInvocationWithIOVars.py (c : CommandInvocationWithIOVars) : PyVal :=
  .obj "CommandInvocationWithIOVars" (attrs c.attributes)

/-- A `Mapper` (Mapper.py:14-31). -/
def mapperPy (c : CommandInvocationWithIOVars) : PyVal := .obj "Mapper" (attrs c.attributes)

/-- `AggregatorKindEnum` (AggregatorKind.py:3-14). -/
def AggregatorKind.py (k : AggregatorKind) : PyVal :=
  .enum "AggregatorKindEnum" (match k with
    | .concatenate => "CONCATENATE"
    | .adjLinesMerge => "ADJ_LINES_MERGE"
    | .adjLinesSeq => "ADJ_LINES_SEQ"
    | .adjLinesFunc => "ADJ_LINES_FUNC"
    | .custom2Ary => "CUSTOM_2_ARY"
    | .customNAry => "CUSTOM_N_ARY")

/-- `Aggregator` (Aggregator.py:15-29). -/
def Aggregator.py (a : Aggregator) : PyVal := .obj "Aggregator" (attrs (("kind", a.kind.py) :: a.cmd.attributes))

/-- `Splitter` (Splitter.py:11-17). Its `__eq__` compares the kinds only; splitters are only compared with splitters
in the code, where this is `standard_eq`. -/
def Splitter.py (s : Splitter) : PyVal :=
  .obj "Splitter" (attrs [("kind", .enum "SplitterKindEnum" (match s with
    | .indivFiles => "INDIV_FILES"
    | .roundRobinPlain => "ROUND_ROBIN_PLAIN"
    | .roundRobinUnwrapFlag => "ROUND_ROBIN_UNWRAP_FLAG"
    | .consecChunks => "CONSEC_CHUNKS"))])

mutual
/-- The transformers (TransformerFlagOptionList.py:21-24, 56-119, 143-151). -/
def Transformer.py : Transformer → PyVal
  | .seq => .obj "TransformerFlagOptionListSeq" (attrs [])
  | .add l => .obj "TransformerFlagOptionListAdd" (attrs [("list_to_add", .listOf FlagOptionWithIOVar.py l)])
  | .remove l => .obj "TransformerFlagOptionListRemove" (attrs [("list_to_remove", .listOf .str l)])
  | .filter l => .obj "TransformerFlagOptionListFilter" (attrs [("list_filter", .listOf .str l)])
  | .empty => .obj "TransformerFlagOptionListEmpty" (attrs [])
  | .custom l => .obj "TransformerFlagOptionListCustom" (attrs [("list_custom", .listOf FlagOptionWithIOVar.py l)])
  | .chain ts => .obj "ChainTransformerFlagOptionList" (attrs [("list_transformers", .list (Transformer.pyAll ts))])
/-- The transformers of a chain. For the comparison in util_standard.py:12-14. -/
def Transformer.pyAll : List Transformer → PyList
  | [] => .nil
  | t :: ts => .cons (Transformer.py t) (Transformer.pyAll ts)
end

/-- `MapperSpecKindEnum` (MapperSpec.py:19-21). -/
def MapperSpecKind.py (k : MapperSpecKind) : PyVal :=
  .enum "MapperSpecKindEnum" (match k with
    | .sameAsSeq => "SAME_AS_SEQ"
    | .custom => "CUSTOM")

/-- `MapperSpec` (MapperSpec.py:26-50). -/
def MapperSpec.py (m : MapperSpec) : PyVal :=
  .obj "MapperSpec" (attrs [("kind", m.kind.py), ("spec_mapper_cmd_name", .opt .str m.specMapperCmdName),
    ("flag_option_list_transformer", m.transformer.py), ("is_implemented", .bool m.isImplemented)])

/-- The aggregator specifications (AggregatorSpec.py:36-50, 162-167, 203-213, 251-259). -/
def AggregatorSpec.py : AggregatorSpec → PyVal
  | .nonFunc k b => .obj "AggregatorSpecNonFunc" (attrs [("kind", k.py), ("is_implemented", .bool b)])
  | .funcTransformer k t b => .obj "AggregatorSpecFuncTransformer" (attrs [("kind", k.py), ("is_implemented", .bool b),
      ("flag_option_list_transformer", t.py)])
  | .funcString k s b => .obj "AggregatorSpecFuncStringRepresentation" (attrs [("kind", k.py),
      ("is_implemented", .bool b), ("cmd_inv_as_str", .str s)])

/-- `AdditionalInfoSplitterToMapper` (Parallelizer.py:22-26). -/
def AdditionalInfoSplitterToMapper.py (i : AdditionalInfoSplitterToMapper) : PyVal :=
  .enum "AdditionalInfoSplitterToMapper" (match i with
    | .noAddInput => "NO_ADD_INPUT"
    | .lineNumOffset => "LINE_NUM_OFFSET"
    | .byteOffset => "BYTE_OFFSET"
    | .lineNumAndByteOffset => "LINE_NUM_AND_BYTE_OFFSET")

/-- `Parallelizer` (Parallelizer.py:31-53). -/
def Parallelizer.py (p : Parallelizer) : PyVal :=
  .obj "Parallelizer" (attrs [("splitter", p.splitter.py), ("core_mapper_spec", p.coreMapperSpec.py),
    ("core_aggregator_spec", p.coreAggregatorSpec.py), ("info_splitter_mapper", p.infoSplitterMapper.py),
    ("info_mapper_aggregator", .int p.infoMapperAggregator)])

end PashAnn
