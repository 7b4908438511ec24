import Verif.Model.PyObj
import Verif.Model.PlanText

/-!
`str` of the objects of the library, read off their classes and attributes: the loop of `standard_repr`
(/repo/pash_annotations/util_standard.py:1-9) over `__dict__`, on the values of `Model/PyObj.lean`. `Model/Text.lean` and
`Model/PlanText.lean` write the same texts down class by class.
-/

namespace PashAnn

/-- The modules of the classes (the files in which they are defined). Printed by util_standard.py:2. -/
def classModules : List (String × String) :=
  let plan := "annotation_generation.datatypes.parallelizability."
  [("AccessKind", "datatypes.AccessKind"),
   ("Flag", "datatypes.BasicDatatypes"), ("Option", "datatypes.BasicDatatypes"),
   ("ArgStringType", "datatypes.BasicDatatypes"), ("FileName", "datatypes.BasicDatatypes"),
   ("StdDescriptor", "datatypes.BasicDatatypes"),
   ("FileNameWithIOInfo", "datatypes.BasicDatatypesWithIO"), ("StdDescriptorWithIOInfo", "datatypes.BasicDatatypesWithIO"),
   ("OptionWithIO", "datatypes.BasicDatatypesWithIO"),
   ("CommandInvocationInitial", "datatypes.CommandInvocationInitial"),
   ("CommandInvocationPrefix", "datatypes.CommandInvocationPrefix"),
   ("CommandInvocationWithIO", "datatypes.CommandInvocationWithIO"),
   ("CommandInvocationWithIOVars", "datatypes.CommandInvocationWithIOVars"),
   ("Mapper", plan ++ "Mapper"), ("Aggregator", plan ++ "Aggregator"), ("MapperSpec", plan ++ "MapperSpec"),
   ("AggregatorSpecNonFunc", plan ++ "AggregatorSpec"), ("AggregatorSpecFuncTransformer", plan ++ "AggregatorSpec"),
   ("AggregatorSpecFuncStringRepresentation", plan ++ "AggregatorSpec"),
   ("TransformerFlagOptionListSeq", plan ++ "TransformerFlagOptionList"),
   ("TransformerFlagOptionListAdd", plan ++ "TransformerFlagOptionList"),
   ("TransformerFlagOptionListRemove", plan ++ "TransformerFlagOptionList"),
   ("TransformerFlagOptionListFilter", plan ++ "TransformerFlagOptionList"),
   ("TransformerFlagOptionListEmpty", plan ++ "TransformerFlagOptionList"),
   ("TransformerFlagOptionListCustom", plan ++ "TransformerFlagOptionList"),
   ("ChainTransformerFlagOptionList", plan ++ "TransformerFlagOptionList")]

/-- The module and the name of a class, as `f'{obj.__class__}'` shows them (util_standard.py:2), for an installed
package. -/
def classPath (c : String) : String := "pash_annotations." ++ (classModules.lookup c).getD "" ++ "." ++ c

/-- The text of a key of a dictionary. For util_standard.py:7-8. -/
def PyKey.text : PyKey → String
  | .int i => toString i
  | .str s => Text.strRepr s

/-- The name of an attribute. For util_standard.py:7-8. -/
def PyKey.name : PyKey → String
  | .int i => toString i
  | .str s => s

/-- `repr(v)`, given `str(v)`: they differ for strings. For util_standard.py:7-8. -/
def reprOr (v : PyVal) (t : String) : String :=
  match v with
  | .str s => Text.strRepr s
  | _ => t

/-- `str` of a truth value. For util_standard.py:7-8. -/
def PyVal.truthText (v : PyVal) : String :=
  match v with
  | .int 0 => "False"
  | _ => "True"

/-- An attribute among texts of attributes. For util_standard.py:7-8. -/
def shownAttribute (as : List (String × String)) (k : String) : String := (as.lookup k).getD ""

/-- `__repr__` of an instance of the class `c`, given the texts of its attributes: `standard_repr` (util_standard.py:1-9),
except for operands (BasicDatatypes.py:106-107), splitters (Splitter.py:19-20) and plans (Parallelizer.py:55-59). -/
def objectText (c : String) (as : List (String × String)) : String :=
  if c = "Operand" then shownAttribute as "name"
  else if c = "Splitter" then shownAttribute as "kind"
  else if c = "Parallelizer" then
    "Parallizer: \n" ++ "splitter: " ++ shownAttribute as "splitter" ++ " \n" ++
      "mapper attr: " ++ shownAttribute as "core_mapper_spec" ++ " \n" ++
      "aggregator attr: " ++ shownAttribute as "core_aggregator_spec" ++ " \n"
  else as.foldl Text.addAttribute ("<class '" ++ classPath c ++ "'>" ++ (if as.length ≠ 0 then ": \n" else "\n"))

mutual
/-- `f'{v}'`, which is `str(v)` (util_standard.py:8). `addr` is what Python shows for an instance of a class without
`__repr__`. Simplified: an enumeration inside a list would be shown in another way; there is none. -/
def PyVal.text (addr : Nat → String) : PyVal → String
  | .none => "None"
  | .int i => toString i
  | .str s => s
  | .enum c m => c ++ "." ++ m
  | .list l => Text.listRepr (PyList.texts addr l)
  | .dict d => "{" ++ Text.commas (PyDict.items addr d) ++ "}"
  | .obj c d => objectText c (PyDict.texts addr d)
  | .opaque i => addr i
/-- `repr` of the elements of a list; it differs from `str` for strings. For util_standard.py:7-8. -/
def PyList.texts (addr : Nat → String) : PyList → List String
  | .nil => []
  | .cons v l => reprOr v (PyVal.text addr v) :: PyList.texts addr l
/-- The items of a dictionary as `str` of the dictionary shows them. For util_standard.py:7-8. -/
def PyDict.items (addr : Nat → String) : PyDict → List String
  | .nil => []
  | .cons k v d =>
      (k.text ++ ": " ++ reprOr v (PyVal.text addr v)) :: PyDict.items addr d
/-- The attributes of an object with their texts (util_standard.py:7-8). Truth values are the integers 0 and 1 in `PyVal`; the
attribute `is_implemented` is the one that holds a truth value (MapperSpec.py:32, AggregatorSpec.py:42). -/
def PyDict.texts (addr : Nat → String) : PyDict → List (String × String)
  | .nil => []
  | .cons k v d =>
      (k.name,
        if k = .str "is_implemented" then v.truthText else PyVal.text addr v) ::
        PyDict.texts addr d
end

end PashAnn
