import Verif.Model.ParGenerators

/-!
Model of how the generators are found (/repo/pash_annotations/annotation_generation/AnnotationGeneration.py:10-98): the import
loop over the registered commands, for any table of commands and any files with modules, and the two functions that ask a
generator; and of the functions in /repo/pash_annotations/config/definitions.py:47-70.
-/

namespace PashAnn.Registry

/-- A class of generators: making an object for an invocation, calling `generate_info()` and `get_info()`
(AnnotationGeneration.py:74-78, 87-92). -/
abbrev Class (α : Type) := CommandInvocationInitial → Py α

/-- A file with a module, as the import statement meets it: there is none; executing it raises, possibly a
`ModuleNotFoundError` because something that it imports is missing; or it defines some names. For
AnnotationGeneration.py:58-65. -/
inductive ModuleFile (α : Type) where
  | absent
  | raises (moduleNotFound : Bool)
  | defines (names : List (String × Class α))

/-- The modules that can be found, by their full names. For AnnotationGeneration.py:58-65. -/
abbrev Modules (α : Type) := String → ModuleFile α

/-- The names bound in the module AnnotationGeneration, those bound later first. Only the names bound by the import loop are kept:
no other name there begins with one of the prefixes (AnnotationGeneration.py:1-56). -/
abbrev Namespace (α : Type) := List (String × Class α)

/-- `INPUTOUTPUT_INFO_FILENAME_MODULE_PREFIX` (AnnotationGeneration.py:46). -/
def ioPrefix : String := "InputOutputInfoGenerator"
/-- `PARALLELIZABILITY_INFO_FILENAME_MODULE_PREFIX` (AnnotationGeneration.py:52). -/
def parPrefix : String := "ParallelizabilityInfoGenerator"
/-- `ANNOTATION_GENERATORS` (AnnotationGeneration.py:11) with the point (47, 53). -/
def package : String := "pash_annotations.annotation_generation.annotation_generators."

/-- The pairs of a file and a class, in the order of the table (AnnotationGeneration.py:48-50, 54-56). -/
def pairs (pre : String) (table : List (String × String)) : List (String × String) :=
  table.map fun e => (package ++ pre ++ e.2, pre ++ e.2)

/-- One import (AnnotationGeneration.py:61-65). A name that the module does not define raises an `ImportError`, which is not
caught; a `ModuleNotFoundError` is. The error is whatever leaves the loop. Simplified: the statement is made of text; the names
in the table are taken to be identifiers. -/
def importOne {α : Type} (modules : Modules α) (ns : Namespace α) (p : String × String) : Except Unit (Namespace α) :=
  match modules p.1 with
  | .absent => .ok ns
  | .raises true => .ok ns
  | .raises false => .error ()
  | .defines names =>
      match names.lookup p.2 with
      | some g => .ok ((p.2, g) :: ns)
      | none => .error ()

/-- The import loop (AnnotationGeneration.py:58-65). The table is a dictionary: each command is listed once. -/
def load {α : Type} (modules : Modules α) (table : List (String × String)) : Except Unit (Namespace α) :=
  (pairs ioPrefix table ++ pairs parPrefix table).foldlM (importOne modules) []

/-- `get_input_output_info_from_cmd_invocation` with the prefix of AnnotationGeneration.py:46 and
`get_parallelizability_info_from_cmd_invocation` with the one of line 52 (69-80, 82-94): `str(None)` is `"None"`; every exception
becomes `None`. -/
def ask {α : Type} (pre : String) (ns : Namespace α) (table : List (String × String)) (c : CommandInvocationInitial) : Option α :=
  match ns.lookup (pre ++ (table.lookup c.cmdName).getD "None") with
  | none => none
  | some g =>
      match g c with
      | .ok i => some i
      | .error _ => none

/-- A class of generators for inputs and outputs: the constructor (InputOutputInfoGenerator_Interface.py) and `generate_info`. -/
def ioClass (g : IOGenerator) : Class (InputOutputInfo ⊕ ParallelizabilityInfo) := fun c =>
  match initialInfo c with
  | .error x => .error x
  | .ok i => (g c i).map Sum.inl

/-- A class of generators for parallelizability (ParallelizabilityInfoGenerator_Interface.py). -/
def parClass (g : ParGenerator) : Class (InputOutputInfo ⊕ ParallelizabilityInfo) := fun c => (g c).map Sum.inr

/-- The files below annotation_generators/ with the classes that they define. Imported in AnnotationGeneration.py:58-65. -/
def shippedFiles : List (String × String × Class (InputOutputInfo ⊕ ParallelizabilityInfo)) :=
  (ioGeneratorClasses.map fun e => (package ++ ioPrefix ++ e.1, ioPrefix ++ e.1, ioClass e.2)) ++
  parGeneratorClasses.map fun e => (package ++ parPrefix ++ e.1, parPrefix ++ e.1, parClass e.2)

/-- The modules that are shipped. Simplified: only the classes of generators are kept. Imported in
AnnotationGeneration.py:58-65. -/
def shipped : Modules (InputOutputInfo ⊕ ParallelizabilityInfo) := fun file =>
  match shippedFiles.lookup file with
  | none => .absent
  | some d => .defines [d]

/-- `DICT_CMD_NAME_TO_REPRESENTATION_IN_MODULE_NAMES` of config/definitions.py:15-44. -/
def definitionsTable : List (String × String) :=
  [("grep", "Grep"), ("mv", "Mv"), ("tr", "Tr"), ("cat", "Cat"), ("head", "Head"), ("tail", "Tail"), ("cut", "Cut"),
   ("uniq", "Uniq"), ("comm", "Comm"), ("sort", "Sort"), ("sed", "Sed"), ("col", "Col"), ("xargs", "Xargs"), ("seq", "Seq"),
   ("test_one", "TestOne"), ("test_two", "TestTwo"), ("alt_bigrams_aux", "AltBigramsAux"),
   ("alt_bigram_aux_reduce", "AltBigramAuxReduce"), ("mkfifo", "Mkfifo"), ("diff", "Diff"), ("rm", "Rm"), ("tee", "Tee"),
   ("custom_sort", "CustomSort"), ("custom_tr", "CustomTr"), ("set_diff", "SetDiff"), ("bigrams_aux", "BigramsAux"),
   ("bigram_aux_map", "BigramAuxMap"), ("bigram_aux_reduce", "BigramAuxReduce")]

/-- The names in the module config/definitions.py. -/
def definitionsNames : List String :=
  ["os", "sys", "INDICATORS_FOR_FILENAMES", "ROOT_DIR", "ANNOTATION_GENERATORS", "PARALLELIZABILITY_INFO_GENERATOR_PREFIX",
   "DICT_CMD_NAME_TO_REPRESENTATION_IN_MODULE_NAMES", "str_to_class", "INPUTOUTPUT_INFO_FILENAME_MODULE_PREFIX",
   "inputoutput_info_generator_prefix_abs", "get_inputoutput_info_generator_file_module_names",
   "get_dict_cmd_name_inputoutput_info_generator_module", "PARALLELIZABILITY_INFO_FILENAME_MODULE_PREFIX",
   "parallelizability_info_generator_prefix_abs", "get_parallelizability_info_generator_file_and_module_names",
   "get_dict_cmd_name_parallelizability_info_generator_module", "__name__", "__doc__", "__package__", "__loader__", "__spec__",
   "__file__", "__cached__", "__builtins__"]

/-- `str_to_class` (config/definitions.py:47-48): the name, standing for what it is bound to. -/
def strToClass (n : String) : Py String := if n ∈ definitionsNames then .ok n else .error .attributeError

/-- `get_inputoutput_info_generator_file_module_names` (config/definitions.py:53-55) and
`get_parallelizability_info_generator_file_and_module_names` (64-66), for the two prefixes. -/
def fileAndModuleNames (pre : String) (table : List (String × String)) : List (String × String) :=
  table.map fun e => ("annotation_generation.annotation_generators" ++ "." ++ pre ++ e.2, pre ++ e.2)

/-- `get_dict_cmd_name_inputoutput_info_generator_module` (config/definitions.py:57-59) and
`get_dict_cmd_name_parallelizability_info_generator_module` (68-70), for the two prefixes. -/
def generatorModules (pre : String) (table : List (String × String)) : Py (List (String × String)) :=
  table.mapM fun e => do
    let c ← strToClass (pre ++ e.2)
    .ok (e.1, c)

end PashAnn.Registry
