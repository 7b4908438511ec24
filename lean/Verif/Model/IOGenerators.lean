import Verif.Model.IOInfo

/-!
Model of all `InputOutputInfoGenerator*.py` files in
/repo/pash_annotations/annotation_generation/annotation_generators/ and of
annotation_generation/AnnotationGeneration.py:69-80. Each generator takes the command invocation and the
info object created by the constructor and returns the info object after `generate_info()`.
-/

namespace PashAnn

/-- A generator's `generate_info` (InputOutputInfoGenerator_Interface.py:37-39). -/
abbrev IOGenerator := CommandInvocationInitial → InputOutputInfo → Py InputOutputInfo

namespace IOGen
open InputOutputInfo

/-- InputOutputInfoGeneratorAltBigramAuxReduce.py:6-8 -/
def altBigramAuxReduce : IOGenerator := fun _ i =>
  .ok i.allOperandsAreStreamingInputs.setImplicitUseOfStdout

/-- InputOutputInfoGeneratorAltBigramsAux.py:6-8 -/
def altBigramsAux : IOGenerator := fun _ i => .ok i.setImplicitUseOfStdin.setImplicitUseOfStdout

/-- InputOutputInfoGeneratorAwk.py:6-20 -/
def awk : IOGenerator := fun c i =>
  let i := i.setImplicitUseOfStdout
  if containsAtLeastOneOf c ["-f"] then
    if operandListLength c = 0 then .ok i.setImplicitUseOfStdin
    else .ok i.allOperandsAreStreamingInputs
  else do
    let i ← i.setFirstOperandAsConfigArgTypeString
    if operandListLength c = 1 then .ok i.setImplicitUseOfStdin
    else .ok i.allButFirstOperandIsStreamingInput

/-- InputOutputInfoGeneratorBigramsAux.py:5-7 -/
def bigramsAux : IOGenerator := fun _ i => .ok i.setImplicitUseOfStdin.setImplicitUseOfStdout

/-- InputOutputInfoGeneratorCat.py:12-16 -/
def cat : IOGenerator := fun c i =>
  .ok (ifNoOperandsGivenStdinImplicitlyUsed c i.setImplicitUseOfStdout).allOperandsAreStreamingInputs

/-- InputOutputInfoGeneratorCol.py:6-8 -/
def col : IOGenerator := fun _ i => .ok i.setImplicitUseOfStdin.setImplicitUseOfStdout

/-- InputOutputInfoGeneratorComm.py:13-16 -/
def comm : IOGenerator := fun c i => do
  let i := i.setImplicitUseOfStdout
  pyAssert (decide (operandListLength c = 2))
  .ok i.allOperandsAreStreamingInputs

/-- InputOutputInfoGeneratorCustomSort.py:6-13 -/
def customSort : IOGenerator := fun c i =>
  let i := if !containsAtLeastOneOf c ["-o"] then i.setImplicitUseOfStdout else i
  if decide (operandListLength c = 0) && !containsAtLeastOneOf c ["--files0-from"] then
    .ok i.setImplicitUseOfStdin
  else .ok i.allOperandsAreStreamingInputs

/-- InputOutputInfoGeneratorCustomTr.py:7-10 -/
def customTr : IOGenerator := fun _ i =>
  .ok i.setImplicitUseOfStdin.setImplicitUseOfStdout.setAllOperandsAsConfigArgTypeString

/-- InputOutputInfoGeneratorCut.py:12-15 -/
def cut : IOGenerator := fun c i =>
  .ok (ifNoOperandsGivenStdinImplicitlyUsed c i.setImplicitUseOfStdout).allOperandsAreStreamingInputs

/-- InputOutputInfoGeneratorDiff.py:6-8 -/
def diff : IOGenerator := fun _ i => .ok i.setImplicitUseOfStdout.allOperandsAreStreamingInputs

/-- InputOutputInfoGeneratorGrep.py:19-34 -/
def grep : IOGenerator := fun c i =>
  let i := if !containsAtLeastOneOf c ["-q"] then i.setImplicitUseOfStdout else i
  if containsAtLeastOneOf c ["-e", "-f"] then
    if operandListLength c = 0 then .ok i.setImplicitUseOfStdin
    else .ok i.allOperandsAreStreamingInputs
  else do
    let i ← i.setFirstOperandAsConfigArgTypeString
    if operandListLength c = 1 then .ok i.setImplicitUseOfStdin
    else .ok i.allButFirstOperandIsStreamingInput

/-- InputOutputInfoGeneratorHead.py:12-15 -/
def head : IOGenerator := fun c i =>
  .ok (ifNoOperandsGivenStdinImplicitlyUsed c i.setImplicitUseOfStdout).allOperandsAreStreamingInputs

/-- InputOutputInfoGeneratorMkfifo.py:6-7 -/
def mkfifo : IOGenerator := fun _ i => .ok i.allOperandsAreOtherOutputs

/-- InputOutputInfoGeneratorMv.py:33-44 -/
def mv : IOGenerator := fun c i =>
  let listOptionsT := getFlagOptionListFilteredWith c ["-t"]
  if listOptionsT.length = 0 then do
    let i ← i.allButLastOperandIsOtherInput
    i.onlyLastOperandIsOtherOutput
  else if listOptionsT.length = 1 then .ok i.allOperandsAreOtherInputs
  else .error (.exception "multiple -t options defined for mv")

/-- InputOutputInfoGeneratorRm.py:6-7 -/
def rm : IOGenerator := fun _ i => .ok i.allOperandsAreOtherOutputs

/-- InputOutputInfoGeneratorSed.py:6-13 -/
def sed : IOGenerator := fun c i =>
  let i := i.setImplicitUseOfStdin.setImplicitUseOfStdout
  if !containsAtLeastOneOf c ["-e", "-f"] then do
    let i ← i.setFirstOperandAsConfigArgTypeString
    .ok i.allButFirstOperandIsStreamingInput
  else .ok i.allOperandsAreStreamingInputs

/-- InputOutputInfoGeneratorSeq.py:6-8 -/
def seq : IOGenerator := fun _ i => .ok i.setImplicitUseOfStdout.setAllOperandsAsConfigArgTypeString

/-- InputOutputInfoGeneratorSetDiff.py:6-10 -/
def setDiff : IOGenerator := fun c i => do
  let i := i.setImplicitUseOfStdin.setImplicitUseOfStdout
  pyAssert (decide (operandListLength c = 1))
  i.setFirstOperandAsConfigArgTypeFilenameOrStdDescriptor

/-- InputOutputInfoGeneratorSort.py:8-15 -/
def sort : IOGenerator := fun c i =>
  let i := if !containsAtLeastOneOf c ["-o"] then i.setImplicitUseOfStdout else i
  if decide (operandListLength c = 0) && !containsAtLeastOneOf c ["--files0-from"] then
    .ok i.setImplicitUseOfStdin
  else .ok i.allOperandsAreStreamingInputs

/-- InputOutputInfoGeneratorTail.py:13-16 -/
def tail : IOGenerator := fun c i =>
  .ok (ifNoOperandsGivenStdinImplicitlyUsed c i.setImplicitUseOfStdout).allOperandsAreStreamingInputs

/-- InputOutputInfoGeneratorTee.py:6-10 -/
def tee : IOGenerator := fun _ i =>
  .ok i.setImplicitUseOfStdin.setImplicitUseOfStdout.allOperandsAreStreamingOutputs

/-- InputOutputInfoGeneratorTestOne.py:6-8 -/
def testOne : IOGenerator := fun _ i => .ok i.setImplicitUseOfStdin.setImplicitUseOfStdout

/-- InputOutputInfoGeneratorTestTwo.py:6-8 -/
def testTwo : IOGenerator := fun _ i => .ok i.setImplicitUseOfStdin.setImplicitUseOfStdout

/-- InputOutputInfoGeneratorTr.py:13-16 -/
def tr : IOGenerator := fun _ i =>
  .ok i.setImplicitUseOfStdin.setImplicitUseOfStdout.setAllOperandsAsConfigArgTypeString

/-- InputOutputInfoGeneratorUniq.py:12-25 -/
def uniq : IOGenerator := fun c i =>
  if operandListLength c = 0 then .ok i.setImplicitUseOfStdin.setImplicitUseOfStdout
  else if operandListLength c = 1 then .ok i.allOperandsAreStreamingInputs.setImplicitUseOfStdout
  else if operandListLength c = 2 then i.allButLastOperandIsStreamingInput.onlyLastOperandIsStreamOutput
  else .error (.exception "extra operand for uniq, the 3rd one")

/-- InputOutputInfoGeneratorWc.py:6-15 -/
def wc : IOGenerator := fun c i =>
  if containsAtLeastOneOf c ["--files0-from"] then
    .error (.exception "wc with --files0-from is considered side-effectful for now")
  else if operandListLength c = 0 then .ok i.setImplicitUseOfStdin.setImplicitUseOfStdout
  else .ok i.allOperandsAreStreamingInputs.setImplicitUseOfStdout

/-- InputOutputInfoGeneratorXargs.py:6-10 -/
def xargs : IOGenerator := fun _ i =>
  .ok i.setAllOperandsAsConfigArgTypeString.setImplicitUseOfStdin.setImplicitUseOfStdout

end IOGen

/-- `DICT_CMD_NAME_TO_REPRESENTATION_IN_MODULE_NAMES` (AnnotationGeneration.py:13-44). -/
def commandDict : List (String × String) :=
  [("alt_bigrams_aux", "AltBigramsAux"), ("alt_bigram_aux_reduce", "AltBigramAuxReduce"), ("awk", "Awk"),
   ("bigrams_aux", "BigramsAux"), ("bigram_aux_map", "BigramAuxMap"), ("bigram_aux_reduce", "BigramAuxReduce"),
   ("cat", "Cat"), ("col", "Col"), ("comm", "Comm"), ("custom_sort", "CustomSort"), ("custom_tr", "CustomTr"),
   ("cut", "Cut"), ("diff", "Diff"), ("grep", "Grep"), ("head", "Head"), ("mkfifo", "Mkfifo"), ("mv", "Mv"),
   ("rm", "Rm"), ("sed", "Sed"), ("set_diff", "SetDiff"), ("seq", "Seq"), ("sort", "Sort"), ("tail", "Tail"),
   ("tee", "Tee"), ("test_one", "TestOne"), ("test_two", "TestTwo"), ("tr", "Tr"), ("uniq", "Uniq"),
   ("wc", "Wc"), ("xargs", "Xargs")]

/-- The classes `InputOutputInfoGenerator<name>` that the import loop (AnnotationGeneration.py:58-65) binds
in the module: those whose file exists. -/
def ioGeneratorClasses : List (String × IOGenerator) :=
  [("AltBigramsAux", IOGen.altBigramsAux), ("AltBigramAuxReduce", IOGen.altBigramAuxReduce), ("Awk", IOGen.awk),
   ("BigramsAux", IOGen.bigramsAux), ("Cat", IOGen.cat), ("Col", IOGen.col), ("Comm", IOGen.comm),
   ("CustomSort", IOGen.customSort), ("CustomTr", IOGen.customTr), ("Cut", IOGen.cut), ("Diff", IOGen.diff),
   ("Grep", IOGen.grep), ("Head", IOGen.head), ("Mkfifo", IOGen.mkfifo), ("Mv", IOGen.mv), ("Rm", IOGen.rm),
   ("Sed", IOGen.sed), ("SetDiff", IOGen.setDiff), ("Seq", IOGen.seq), ("Sort", IOGen.sort),
   ("Tail", IOGen.tail), ("Tee", IOGen.tee), ("TestOne", IOGen.testOne), ("TestTwo", IOGen.testTwo),
   ("Tr", IOGen.tr), ("Uniq", IOGen.uniq), ("Wc", IOGen.wc), ("Xargs", IOGen.xargs)]

/-- `str(DICT….get(cmd_name))`: `str(None)` is `"None"` (AnnotationGeneration.py:71-73, 84). -/
def commandRepr (cmdName : String) : String :=
  match dictGet? commandDict cmdName with
  | some r => r
  | none => "None"

/-- The body of the `try` block (AnnotationGeneration.py:73-78). -/
def tryInputOutputInfo (c : CommandInvocationInitial) : Py InputOutputInfo :=
  match ioGeneratorClasses.lookup (commandRepr c.cmdName) with
  | none => .error .attributeError
  | some generateInfo => do
      let i ← initialInfo c
      generateInfo c i

/-- `get_input_output_info_from_cmd_invocation` (AnnotationGeneration.py:69-80): any exception becomes
`None`. -/
def getInputOutputInfo (c : CommandInvocationInitial) : Option InputOutputInfo :=
  match tryInputOutputInfo c with
  | .ok i => some i
  | .error _ => none

end PashAnn
