import Verif.Model.ParGenerators

/-!
Generated by tools/gen_tests.py: the assertions in the test files of the repository, about the model. They are not proofs of any
property; they compare the translation to Lean with what the authors of the code say that it does. Every assertion of every test is
here. The tests also make option arguments with `FileName` and `ArgStringType`; the model has strings there.
-/

namespace PashAnn

/-- `io_info.apply_input_output_info_to_command_invocation(cmd_inv)`, as in the tests (annotation_generation/tests). -/
def typedTest (inv : CommandInvocationInitial) : Option CommandInvocationWithIO :=
  match getInputOutputInfo inv with
  | none => none
  | some i => (i.apply inv).toOption

/-- `para_info.parallelizer_list[n]`, as in the tests (annotation_generation/tests). -/
def planTest (inv : CommandInvocationInitial) (n : Nat) : Option Parallelizer :=
  (getParallelizabilityInfo inv).bind fun i => i.parallelizerList[n]?

/-! parser/tests/test_parser_cat.py:7 `test_cat_1` -/
example : parse "cat -b -e in1.txt in2.txt" = .ok ⟨"cat", [(.flag "-b"), (.flag "-e")], ["in1.txt", "in2.txt"]⟩ := by decide +kernel

/-! parser/tests/test_parser_cat.py:19 `test_cat_2` -/
example : parse "cat -be  in1.txt in2.txt" = .ok ⟨"cat", [(.flag "-b"), (.flag "-e")], ["in1.txt", "in2.txt"]⟩ := by decide +kernel

/-! parser/tests/test_parser_empty_str.py:8 `test_empty_str_1` -/
example : parse "echo \"\"" = .ok ⟨"echo", [], [""]⟩ := by decide +kernel

/-! parser/tests/test_parser_empty_str.py:17 `test_empty_str_2` -/
example : parse "cat \"\"" = .ok ⟨"cat", [], [""]⟩ := by decide +kernel

/-! parser/tests/test_parser_grep.py:7 `test_grep_1` -/
example : parse "grep -e '^\\s*def' -m 3 -n test.py" = .ok ⟨"grep", [(.option "-e" "^\\s*def"), (.option "-m" "3"), (.flag "-n")], ["test.py"]⟩ := by decide +kernel

/-! parser/tests/test_parser_sort.py:7 `test_sort_1` -/
example : parse "sort in1.txt in2.txt" = .ok ⟨"sort", [], ["in1.txt", "in2.txt"]⟩ := by decide +kernel

/-! parser/tests/test_parser_sort.py:18 `test_sort_2` -/
example : parse "sort -b -o result.txt in1.txt in2.txt" = .ok ⟨"sort", [(.flag "-b"), (.option "-o" "result.txt")], ["in1.txt", "in2.txt"]⟩ := by decide +kernel

/-! parser/tests/test_parser_sort.py:28 `test_sort_3` -/
example : parse "sort -b --output result.txt in1.txt in2.txt" = .ok ⟨"sort", [(.flag "-b"), (.option "-o" "result.txt")], ["in1.txt", "in2.txt"]⟩ := by decide +kernel

/-! annotation_generation/tests/test_ann_gen_cat.py:15 `test_cat_1` -/
example : (getInputOutputInfo ⟨"cat", [(.flag "-b"), (.flag "-e")], ["in1.txt", "in2.txt"]⟩).isSome = true := by decide +kernel
example : (typedTest ⟨"cat", [(.flag "-b"), (.flag "-e")], ["in1.txt", "in2.txt"]⟩).map (·.getOperandsWithConfigInput.length) = some 0 := by decide +kernel
example : (typedTest ⟨"cat", [(.flag "-b"), (.flag "-e")], ["in1.txt", "in2.txt"]⟩).map (·.getOperandsWithStreamInput.length) = some 2 := by decide +kernel
example : (typedTest ⟨"cat", [(.flag "-b"), (.flag "-e")], ["in1.txt", "in2.txt"]⟩).map (·.getOperandsWithStreamOutput.length) = some 0 := by decide +kernel
example : (typedTest ⟨"cat", [(.flag "-b"), (.flag "-e")], ["in1.txt", "in2.txt"]⟩).map (·.implicitInput) = some (none) := by decide +kernel
example : (typedTest ⟨"cat", [(.flag "-b"), (.flag "-e")], ["in1.txt", "in2.txt"]⟩).map (·.implicitOutput) = some (some (.std .stdout .streamOutput)) := by decide +kernel
example : (getParallelizabilityInfo ⟨"cat", [(.flag "-b"), (.flag "-e")], ["in1.txt", "in2.txt"]⟩).isNone = true := by decide +kernel

/-! annotation_generation/tests/test_ann_gen_cat.py:35 `test_cat_2` -/
example : (getInputOutputInfo ⟨"cat", [], ["in1.txt", "-", "in2.txt"]⟩).isSome = true := by decide +kernel
example : (typedTest ⟨"cat", [], ["in1.txt", "-", "in2.txt"]⟩).map (·.getOperandsWithConfigInput.length) = some 0 := by decide +kernel
example : (typedTest ⟨"cat", [], ["in1.txt", "-", "in2.txt"]⟩).map (·.getOperandsWithStreamInput.length) = some 3 := by decide +kernel
example : (typedTest ⟨"cat", [], ["in1.txt", "-", "in2.txt"]⟩).map (·.getOperandsWithStreamOutput.length) = some 0 := by decide +kernel
example : (typedTest ⟨"cat", [], ["in1.txt", "-", "in2.txt"]⟩).map (·.implicitInput) = some (none) := by decide +kernel
example : (typedTest ⟨"cat", [], ["in1.txt", "-", "in2.txt"]⟩).map (·.implicitOutput) = some (some (.std .stdout .streamOutput)) := by decide +kernel
example : (getParallelizabilityInfo ⟨"cat", [], ["in1.txt", "-", "in2.txt"]⟩).isNone = true := by decide +kernel

/-! annotation_generation/tests/test_ann_gen_cat.py:58 `test_cat_3` -/
example : (getInputOutputInfo ⟨"cat", [(.flag "-n")], ["in1.txt", "in2.txt"]⟩).isSome = true := by decide +kernel
example : (typedTest ⟨"cat", [(.flag "-n")], ["in1.txt", "in2.txt"]⟩).map (·.getOperandsWithConfigInput.length) = some 0 := by decide +kernel
example : (typedTest ⟨"cat", [(.flag "-n")], ["in1.txt", "in2.txt"]⟩).map (·.getOperandsWithStreamInput.length) = some 2 := by decide +kernel
example : (typedTest ⟨"cat", [(.flag "-n")], ["in1.txt", "in2.txt"]⟩).map (·.getOperandsWithStreamOutput.length) = some 0 := by decide +kernel
example : (typedTest ⟨"cat", [(.flag "-n")], ["in1.txt", "in2.txt"]⟩).map (·.implicitInput) = some (none) := by decide +kernel
example : (typedTest ⟨"cat", [(.flag "-n")], ["in1.txt", "in2.txt"]⟩).map (·.implicitOutput) = some (some (.std .stdout .streamOutput)) := by decide +kernel
example : (getParallelizabilityInfo ⟨"cat", [(.flag "-n")], ["in1.txt", "in2.txt"]⟩).isNone = true := by decide +kernel

/-! annotation_generation/tests/test_ann_gen_cat.py:80 `test_cat_4` -/
example : (getInputOutputInfo ⟨"cat", [(.flag "-n"), (.flag "-s")], ["in1.txt", "in2.txt"]⟩).isSome = true := by decide +kernel
example : (typedTest ⟨"cat", [(.flag "-n"), (.flag "-s")], ["in1.txt", "in2.txt"]⟩).map (·.getOperandsWithConfigInput.length) = some 0 := by decide +kernel
example : (typedTest ⟨"cat", [(.flag "-n"), (.flag "-s")], ["in1.txt", "in2.txt"]⟩).map (·.getOperandsWithStreamInput.length) = some 2 := by decide +kernel
example : (typedTest ⟨"cat", [(.flag "-n"), (.flag "-s")], ["in1.txt", "in2.txt"]⟩).map (·.getOperandsWithStreamOutput.length) = some 0 := by decide +kernel
example : (typedTest ⟨"cat", [(.flag "-n"), (.flag "-s")], ["in1.txt", "in2.txt"]⟩).map (·.implicitInput) = some (none) := by decide +kernel
example : (typedTest ⟨"cat", [(.flag "-n"), (.flag "-s")], ["in1.txt", "in2.txt"]⟩).map (·.implicitOutput) = some (some (.std .stdout .streamOutput)) := by decide +kernel
example : (getParallelizabilityInfo ⟨"cat", [(.flag "-n"), (.flag "-s")], ["in1.txt", "in2.txt"]⟩).isNone = true := by decide +kernel

/-! annotation_generation/tests/test_ann_gen_cat.py:102 `test_cat_5` -/
example : (getInputOutputInfo ⟨"cat", [(.flag "-s")], ["in1.txt", "in2.txt"]⟩).isSome = true := by decide +kernel
example : (typedTest ⟨"cat", [(.flag "-s")], ["in1.txt", "in2.txt"]⟩).map (·.getOperandsWithConfigInput.length) = some 0 := by decide +kernel
example : (typedTest ⟨"cat", [(.flag "-s")], ["in1.txt", "in2.txt"]⟩).map (·.getOperandsWithStreamInput.length) = some 2 := by decide +kernel
example : (typedTest ⟨"cat", [(.flag "-s")], ["in1.txt", "in2.txt"]⟩).map (·.getOperandsWithStreamOutput.length) = some 0 := by decide +kernel
example : (typedTest ⟨"cat", [(.flag "-s")], ["in1.txt", "in2.txt"]⟩).map (·.implicitInput) = some (none) := by decide +kernel
example : (typedTest ⟨"cat", [(.flag "-s")], ["in1.txt", "in2.txt"]⟩).map (·.implicitOutput) = some (some (.std .stdout .streamOutput)) := by decide +kernel
example : (getParallelizabilityInfo ⟨"cat", [(.flag "-s")], ["in1.txt", "in2.txt"]⟩).isNone = true := by decide +kernel

/-! annotation_generation/tests/test_ann_gen_comm.py:16 `test_comm_1` -/
example : (getInputOutputInfo ⟨"comm", [(.flag "-1"), (.flag "-2")], ["tocomm1.txt", "tocomm2.txt"]⟩).isSome = true := by decide +kernel
example : (typedTest ⟨"comm", [(.flag "-1"), (.flag "-2")], ["tocomm1.txt", "tocomm2.txt"]⟩).map (·.getOperandsWithConfigInput.length) = some 0 := by decide +kernel
example : (typedTest ⟨"comm", [(.flag "-1"), (.flag "-2")], ["tocomm1.txt", "tocomm2.txt"]⟩).map (·.getOperandsWithStreamInput.length) = some 2 := by decide +kernel
example : (typedTest ⟨"comm", [(.flag "-1"), (.flag "-2")], ["tocomm1.txt", "tocomm2.txt"]⟩).map (·.getOperandsWithStreamOutput.length) = some 0 := by decide +kernel
example : (typedTest ⟨"comm", [(.flag "-1"), (.flag "-2")], ["tocomm1.txt", "tocomm2.txt"]⟩).map (·.implicitInput) = some (none) := by decide +kernel
example : (typedTest ⟨"comm", [(.flag "-1"), (.flag "-2")], ["tocomm1.txt", "tocomm2.txt"]⟩).map (·.implicitOutput) = some (some (.std .stdout .streamOutput)) := by decide +kernel
example : (getParallelizabilityInfo ⟨"comm", [(.flag "-1"), (.flag "-2")], ["tocomm1.txt", "tocomm2.txt"]⟩).isNone = true := by decide +kernel

/-! annotation_generation/tests/test_ann_gen_comm.py:38 `test_comm_2` -/
example : (getInputOutputInfo ⟨"comm", [], ["tocomm1.txt", "tocomm2.txt", "tocomm3.txt"]⟩).isNone = true := by decide +kernel

/-! annotation_generation/tests/test_ann_gen_cut.py:26 `test_cut_1` -/
example : (getInputOutputInfo ⟨"cut", [], ["in1.txt", "in2.txt"]⟩).isSome = true := by decide +kernel
example : (typedTest ⟨"cut", [], ["in1.txt", "in2.txt"]⟩).map (·.getOperandsWithConfigInput.length) = some 0 := by decide +kernel
example : (typedTest ⟨"cut", [], ["in1.txt", "in2.txt"]⟩).map (·.getOperandsWithStreamInput.length) = some 2 := by decide +kernel
example : (typedTest ⟨"cut", [], ["in1.txt", "in2.txt"]⟩).map (·.getOperandsWithStreamOutput.length) = some 0 := by decide +kernel
example : (typedTest ⟨"cut", [], ["in1.txt", "in2.txt"]⟩).map (·.implicitInput) = some (none) := by decide +kernel
example : (typedTest ⟨"cut", [], ["in1.txt", "in2.txt"]⟩).map (·.implicitOutput) = some (some (.std .stdout .streamOutput)) := by decide +kernel
example : (getParallelizabilityInfo ⟨"cut", [], ["in1.txt", "in2.txt"]⟩).map (·.parallelizerList.length) = some 2 := by decide +kernel
example : (planTest ⟨"cut", [], ["in1.txt", "in2.txt"]⟩ 0).map (·.splitter) = some .consecChunks := by decide +kernel
example : (planTest ⟨"cut", [], ["in1.txt", "in2.txt"]⟩ 0).map (·.coreMapperSpec) = some (MapperSpec.makeSeq) := rfl
example : (planTest ⟨"cut", [], ["in1.txt", "in2.txt"]⟩ 0).map (·.coreAggregatorSpec) = some (AggregatorSpec.makeConcatenate) := rfl
example : (planTest ⟨"cut", [], ["in1.txt", "in2.txt"]⟩ 1).map (·.splitter) = some .roundRobinPlain := by decide +kernel
example : (planTest ⟨"cut", [], ["in1.txt", "in2.txt"]⟩ 1).map (·.coreMapperSpec) = some (MapperSpec.makeSeq) := rfl
example : (planTest ⟨"cut", [], ["in1.txt", "in2.txt"]⟩ 1).map (·.coreAggregatorSpec) = some (AggregatorSpec.makeConcatenate) := rfl

/-! annotation_generation/tests/test_ann_gen_cut.py:59 `test_cut_2` -/
example : (getInputOutputInfo ⟨"cut", [(.flag "-z")], []⟩).isSome = true := by decide +kernel
example : (typedTest ⟨"cut", [(.flag "-z")], []⟩).map (·.getOperandsWithConfigInput.length) = some 0 := by decide +kernel
example : (typedTest ⟨"cut", [(.flag "-z")], []⟩).map (·.getOperandsWithStreamInput.length) = some 0 := by decide +kernel
example : (typedTest ⟨"cut", [(.flag "-z")], []⟩).map (·.getOperandsWithStreamOutput.length) = some 0 := by decide +kernel
example : (typedTest ⟨"cut", [(.flag "-z")], []⟩).map (·.implicitInput) = some (some (.std .stdin .streamInput)) := by decide +kernel
example : (typedTest ⟨"cut", [(.flag "-z")], []⟩).map (·.implicitOutput) = some (some (.std .stdout .streamOutput)) := by decide +kernel
example : (getParallelizabilityInfo ⟨"cut", [(.flag "-z")], []⟩).map (·.parallelizerList.length) = some 2 := by decide +kernel
example : (planTest ⟨"cut", [(.flag "-z")], []⟩ 0).map (·.splitter) = some .consecChunks := by decide +kernel
example : (planTest ⟨"cut", [(.flag "-z")], []⟩ 0).map (·.coreMapperSpec) = some (MapperSpec.makeSeq) := rfl
example : (planTest ⟨"cut", [(.flag "-z")], []⟩ 0).map (·.coreAggregatorSpec) = some (AggregatorSpec.makeConcatenate) := rfl
example : (planTest ⟨"cut", [(.flag "-z")], []⟩ 1).map (·.splitter) = some .roundRobinPlain := by decide +kernel
example : (planTest ⟨"cut", [(.flag "-z")], []⟩ 1).map (·.coreMapperSpec) = some (MapperSpec.makeSeq) := rfl
example : (planTest ⟨"cut", [(.flag "-z")], []⟩ 1).map (·.coreAggregatorSpec) = some (AggregatorSpec.makeConcatenate) := rfl

/-! annotation_generation/tests/test_ann_gen_grep.py:24 `test_grep_1` -/
example : (getInputOutputInfo ⟨"grep", [(.flag "-L"), (.option "-f" "dict.txt")], ["in1.txt", "in2.txt"]⟩).isSome = true := by decide +kernel
example : (typedTest ⟨"grep", [(.flag "-L"), (.option "-f" "dict.txt")], ["in1.txt", "in2.txt"]⟩).map (·.getOperandsWithConfigInput.length) = some 0 := by decide +kernel
example : (typedTest ⟨"grep", [(.flag "-L"), (.option "-f" "dict.txt")], ["in1.txt", "in2.txt"]⟩).map (·.getOperandsWithStreamInput.length) = some 2 := by decide +kernel
example : (typedTest ⟨"grep", [(.flag "-L"), (.option "-f" "dict.txt")], ["in1.txt", "in2.txt"]⟩).map (·.getOperandsWithStreamOutput.length) = some 0 := by decide +kernel
example : (typedTest ⟨"grep", [(.flag "-L"), (.option "-f" "dict.txt")], ["in1.txt", "in2.txt"]⟩).map (·.implicitInput) = some (none) := by decide +kernel
example : (typedTest ⟨"grep", [(.flag "-L"), (.option "-f" "dict.txt")], ["in1.txt", "in2.txt"]⟩).map (·.implicitOutput) = some (some (.std .stdout .streamOutput)) := by decide +kernel
example : (getParallelizabilityInfo ⟨"grep", [(.flag "-L"), (.option "-f" "dict.txt")], ["in1.txt", "in2.txt"]⟩).map (·.parallelizerList.length) = some 0 := by decide +kernel

/-! annotation_generation/tests/test_ann_gen_grep.py:60 `test_grep_2` -/
example : (getInputOutputInfo ⟨"grep", [(.option "-f" "dict.txt"), (.option "-e" "*"), (.flag "-b")], ["in1.txt", "in2.txt"]⟩).isSome = true := by decide +kernel
example : (typedTest ⟨"grep", [(.option "-f" "dict.txt"), (.option "-e" "*"), (.flag "-b")], ["in1.txt", "in2.txt"]⟩).map (·.getOperandsWithConfigInput.length) = some 0 := by decide +kernel
example : (typedTest ⟨"grep", [(.option "-f" "dict.txt"), (.option "-e" "*"), (.flag "-b")], ["in1.txt", "in2.txt"]⟩).map (·.getOperandsWithStreamInput.length) = some 2 := by decide +kernel
example : (typedTest ⟨"grep", [(.option "-f" "dict.txt"), (.option "-e" "*"), (.flag "-b")], ["in1.txt", "in2.txt"]⟩).map (·.getOperandsWithStreamOutput.length) = some 0 := by decide +kernel
example : (typedTest ⟨"grep", [(.option "-f" "dict.txt"), (.option "-e" "*"), (.flag "-b")], ["in1.txt", "in2.txt"]⟩).map (·.implicitInput) = some (none) := by decide +kernel
example : (typedTest ⟨"grep", [(.option "-f" "dict.txt"), (.option "-e" "*"), (.flag "-b")], ["in1.txt", "in2.txt"]⟩).map (·.implicitOutput) = some (some (.std .stdout .streamOutput)) := by decide +kernel
example : (getParallelizabilityInfo ⟨"grep", [(.option "-f" "dict.txt"), (.option "-e" "*"), (.flag "-b")], ["in1.txt", "in2.txt"]⟩).map (·.parallelizerList.length) = some 0 := by decide +kernel

/-! annotation_generation/tests/test_ann_gen_grep.py:98 `test_grep_3` -/
example : (getInputOutputInfo ⟨"grep", [(.option "-f" "dict.txt"), (.option "-e" "*"), (.option "-f" "dict2.txt")], ["in1.txt", "-"]⟩).isSome = true := by decide +kernel
example : (typedTest ⟨"grep", [(.option "-f" "dict.txt"), (.option "-e" "*"), (.option "-f" "dict2.txt")], ["in1.txt", "-"]⟩).map (·.getOperandsWithConfigInput.length) = some 0 := by decide +kernel
example : (typedTest ⟨"grep", [(.option "-f" "dict.txt"), (.option "-e" "*"), (.option "-f" "dict2.txt")], ["in1.txt", "-"]⟩).map (·.getOperandsWithStreamInput.length) = some 2 := by decide +kernel
example : (typedTest ⟨"grep", [(.option "-f" "dict.txt"), (.option "-e" "*"), (.option "-f" "dict2.txt")], ["in1.txt", "-"]⟩).map (·.getOperandsWithStreamOutput.length) = some 0 := by decide +kernel
example : (typedTest ⟨"grep", [(.option "-f" "dict.txt"), (.option "-e" "*"), (.option "-f" "dict2.txt")], ["in1.txt", "-"]⟩).map (·.implicitInput) = some (none) := by decide +kernel
example : (typedTest ⟨"grep", [(.option "-f" "dict.txt"), (.option "-e" "*"), (.option "-f" "dict2.txt")], ["in1.txt", "-"]⟩).map (·.implicitOutput) = some (some (.std .stdout .streamOutput)) := by decide +kernel
example : (getParallelizabilityInfo ⟨"grep", [(.option "-f" "dict.txt"), (.option "-e" "*"), (.option "-f" "dict2.txt")], ["in1.txt", "-"]⟩).map (·.parallelizerList.length) = some 2 := by decide +kernel
example : (planTest ⟨"grep", [(.option "-f" "dict.txt"), (.option "-e" "*"), (.option "-f" "dict2.txt")], ["in1.txt", "-"]⟩ 0).map (·.splitter) = some .consecChunks := by decide +kernel
example : (planTest ⟨"grep", [(.option "-f" "dict.txt"), (.option "-e" "*"), (.option "-f" "dict2.txt")], ["in1.txt", "-"]⟩ 0).map (·.coreMapperSpec) = some (MapperSpec.makeSeq) := rfl
example : (planTest ⟨"grep", [(.option "-f" "dict.txt"), (.option "-e" "*"), (.option "-f" "dict2.txt")], ["in1.txt", "-"]⟩ 0).map (·.coreAggregatorSpec) = some (AggregatorSpec.makeConcatenate) := rfl
example : (planTest ⟨"grep", [(.option "-f" "dict.txt"), (.option "-e" "*"), (.option "-f" "dict2.txt")], ["in1.txt", "-"]⟩ 1).map (·.splitter) = some .roundRobinPlain := by decide +kernel
example : (planTest ⟨"grep", [(.option "-f" "dict.txt"), (.option "-e" "*"), (.option "-f" "dict2.txt")], ["in1.txt", "-"]⟩ 1).map (·.coreMapperSpec) = some (MapperSpec.makeSeq) := rfl
example : (planTest ⟨"grep", [(.option "-f" "dict.txt"), (.option "-e" "*"), (.option "-f" "dict2.txt")], ["in1.txt", "-"]⟩ 1).map (·.coreAggregatorSpec) = some (AggregatorSpec.makeConcatenate) := rfl

/-! annotation_generation/tests/test_ann_gen_grep.py:131 `test_grep_4` -/
example : (getInputOutputInfo ⟨"grep", [(.option "-f" "dict.txt"), (.option "-e" "*"), (.option "-f" "dict2.txt"), (.flag "-n"), (.flag "-b")], ["in1.txt", "in2.txt", "in3.txt"]⟩).isSome = true := by decide +kernel
example : (typedTest ⟨"grep", [(.option "-f" "dict.txt"), (.option "-e" "*"), (.option "-f" "dict2.txt"), (.flag "-n"), (.flag "-b")], ["in1.txt", "in2.txt", "in3.txt"]⟩).map (·.getOperandsWithConfigInput.length) = some 0 := by decide +kernel
example : (typedTest ⟨"grep", [(.option "-f" "dict.txt"), (.option "-e" "*"), (.option "-f" "dict2.txt"), (.flag "-n"), (.flag "-b")], ["in1.txt", "in2.txt", "in3.txt"]⟩).map (·.getOperandsWithStreamInput.length) = some 3 := by decide +kernel
example : (typedTest ⟨"grep", [(.option "-f" "dict.txt"), (.option "-e" "*"), (.option "-f" "dict2.txt"), (.flag "-n"), (.flag "-b")], ["in1.txt", "in2.txt", "in3.txt"]⟩).map (·.getOperandsWithStreamOutput.length) = some 0 := by decide +kernel
example : (typedTest ⟨"grep", [(.option "-f" "dict.txt"), (.option "-e" "*"), (.option "-f" "dict2.txt"), (.flag "-n"), (.flag "-b")], ["in1.txt", "in2.txt", "in3.txt"]⟩).map (·.implicitInput) = some (none) := by decide +kernel
example : (typedTest ⟨"grep", [(.option "-f" "dict.txt"), (.option "-e" "*"), (.option "-f" "dict2.txt"), (.flag "-n"), (.flag "-b")], ["in1.txt", "in2.txt", "in3.txt"]⟩).map (·.implicitOutput) = some (some (.std .stdout .streamOutput)) := by decide +kernel
example : (getParallelizabilityInfo ⟨"grep", [(.option "-f" "dict.txt"), (.option "-e" "*"), (.option "-f" "dict2.txt"), (.flag "-n"), (.flag "-b")], ["in1.txt", "in2.txt", "in3.txt"]⟩).map (·.parallelizerList.length) = some 0 := by decide +kernel

/-! annotation_generation/tests/test_ann_gen_grep.py:171 `test_grep_5` -/
example : (getInputOutputInfo ⟨"grep", [(.flag "-q"), (.flag "-s")], ["*", "in1.txt", "in2.txt"]⟩).isSome = true := by decide +kernel
example : (typedTest ⟨"grep", [(.flag "-q"), (.flag "-s")], ["*", "in1.txt", "in2.txt"]⟩).map (·.getOperandsWithConfigInput.length) = some 1 := by decide +kernel
example : (typedTest ⟨"grep", [(.flag "-q"), (.flag "-s")], ["*", "in1.txt", "in2.txt"]⟩).map (·.getOperandsWithStreamInput.length) = some 2 := by decide +kernel
example : (typedTest ⟨"grep", [(.flag "-q"), (.flag "-s")], ["*", "in1.txt", "in2.txt"]⟩).map (·.getOperandsWithStreamOutput.length) = some 0 := by decide +kernel
example : (typedTest ⟨"grep", [(.flag "-q"), (.flag "-s")], ["*", "in1.txt", "in2.txt"]⟩).map (·.implicitInput) = some (none) := by decide +kernel
example : (typedTest ⟨"grep", [(.flag "-q"), (.flag "-s")], ["*", "in1.txt", "in2.txt"]⟩).map (·.implicitOutput) = some (none) := by decide +kernel
example : (getParallelizabilityInfo ⟨"grep", [(.flag "-q"), (.flag "-s")], ["*", "in1.txt", "in2.txt"]⟩).map (·.parallelizerList.length) = some 0 := by decide +kernel

/-! annotation_generation/tests/test_ann_gen_head.py:17 `test_head_1` -/
example : (getInputOutputInfo ⟨"head", [(.flag "-q")], ["in1.txt", "in2.txt"]⟩).isSome = true := by decide +kernel
example : (typedTest ⟨"head", [(.flag "-q")], ["in1.txt", "in2.txt"]⟩).map (·.getOperandsWithConfigInput.length) = some 0 := by decide +kernel
example : (typedTest ⟨"head", [(.flag "-q")], ["in1.txt", "in2.txt"]⟩).map (·.getOperandsWithStreamInput.length) = some 2 := by decide +kernel
example : (typedTest ⟨"head", [(.flag "-q")], ["in1.txt", "in2.txt"]⟩).map (·.getOperandsWithStreamOutput.length) = some 0 := by decide +kernel
example : (typedTest ⟨"head", [(.flag "-q")], ["in1.txt", "in2.txt"]⟩).map (·.implicitInput) = some (none) := by decide +kernel
example : (typedTest ⟨"head", [(.flag "-q")], ["in1.txt", "in2.txt"]⟩).map (·.implicitOutput) = some (some (.std .stdout .streamOutput)) := by decide +kernel
example : (getParallelizabilityInfo ⟨"head", [(.flag "-q")], ["in1.txt", "in2.txt"]⟩).isNone = true := by decide +kernel

/-! annotation_generation/tests/test_ann_gen_head.py:39 `test_head_2` -/
example : (getInputOutputInfo ⟨"head", [(.flag "--version")], ["in1.txt", "-", "in2.txt"]⟩).isSome = true := by decide +kernel
example : (typedTest ⟨"head", [(.flag "--version")], ["in1.txt", "-", "in2.txt"]⟩).map (·.getOperandsWithConfigInput.length) = some 0 := by decide +kernel
example : (typedTest ⟨"head", [(.flag "--version")], ["in1.txt", "-", "in2.txt"]⟩).map (·.getOperandsWithStreamInput.length) = some 3 := by decide +kernel
example : (typedTest ⟨"head", [(.flag "--version")], ["in1.txt", "-", "in2.txt"]⟩).map (·.getOperandsWithStreamOutput.length) = some 0 := by decide +kernel
example : (typedTest ⟨"head", [(.flag "--version")], ["in1.txt", "-", "in2.txt"]⟩).map (·.implicitInput) = some (none) := by decide +kernel
example : (typedTest ⟨"head", [(.flag "--version")], ["in1.txt", "-", "in2.txt"]⟩).map (·.implicitOutput) = some (some (.std .stdout .streamOutput)) := by decide +kernel
example : (getParallelizabilityInfo ⟨"head", [(.flag "--version")], ["in1.txt", "-", "in2.txt"]⟩).isNone = true := by decide +kernel

/-! annotation_generation/tests/test_ann_gen_mv.py:22 `test_mv_1` -/
example : (getInputOutputInfo ⟨"mv", [(.option "-t" "dest")], ["tomove1.txt", "tomove2.txt"]⟩).isSome = true := by decide +kernel
example : (typedTest ⟨"mv", [(.option "-t" "dest")], ["tomove1.txt", "tomove2.txt"]⟩).map (·.getOperandsWithConfigInput.length) = some 0 := by decide +kernel
example : (typedTest ⟨"mv", [(.option "-t" "dest")], ["tomove1.txt", "tomove2.txt"]⟩).map (·.getOperandsWithStreamInput.length) = some 0 := by decide +kernel
example : (typedTest ⟨"mv", [(.option "-t" "dest")], ["tomove1.txt", "tomove2.txt"]⟩).map (·.getOperandsWithOtherInput.length) = some 2 := by decide +kernel
example : (typedTest ⟨"mv", [(.option "-t" "dest")], ["tomove1.txt", "tomove2.txt"]⟩).map (·.getOperandsWithStreamOutput.length) = some 0 := by decide +kernel
example : (typedTest ⟨"mv", [(.option "-t" "dest")], ["tomove1.txt", "tomove2.txt"]⟩).map (·.getOperandsWithOtherOutput.length) = some 0 := by decide +kernel
example : (typedTest ⟨"mv", [(.option "-t" "dest")], ["tomove1.txt", "tomove2.txt"]⟩).map (·.getOptionsWithOtherOutput.length) = some 1 := by decide +kernel
example : (typedTest ⟨"mv", [(.option "-t" "dest")], ["tomove1.txt", "tomove2.txt"]⟩).map (·.implicitInput) = some (none) := by decide +kernel
example : (typedTest ⟨"mv", [(.option "-t" "dest")], ["tomove1.txt", "tomove2.txt"]⟩).map (·.implicitOutput) = some (none) := by decide +kernel
example : (getParallelizabilityInfo ⟨"mv", [(.option "-t" "dest")], ["tomove1.txt", "tomove2.txt"]⟩).isNone = true := by decide +kernel

/-! annotation_generation/tests/test_ann_gen_mv.py:47 `test_mv_2` -/
example : (getInputOutputInfo ⟨"mv", [(.flag "-v")], ["tomove1.txt", "tomove2.txt", "dest.txt"]⟩).isSome = true := by decide +kernel
example : (typedTest ⟨"mv", [(.flag "-v")], ["tomove1.txt", "tomove2.txt", "dest.txt"]⟩).map (·.getOperandsWithConfigInput.length) = some 0 := by decide +kernel
example : (typedTest ⟨"mv", [(.flag "-v")], ["tomove1.txt", "tomove2.txt", "dest.txt"]⟩).map (·.getOperandsWithStreamInput.length) = some 0 := by decide +kernel
example : (typedTest ⟨"mv", [(.flag "-v")], ["tomove1.txt", "tomove2.txt", "dest.txt"]⟩).map (·.getOperandsWithOtherInput.length) = some 2 := by decide +kernel
example : (typedTest ⟨"mv", [(.flag "-v")], ["tomove1.txt", "tomove2.txt", "dest.txt"]⟩).map (·.getOperandsWithStreamOutput.length) = some 0 := by decide +kernel
example : (typedTest ⟨"mv", [(.flag "-v")], ["tomove1.txt", "tomove2.txt", "dest.txt"]⟩).map (·.getOperandsWithOtherOutput.length) = some 1 := by decide +kernel
example : (typedTest ⟨"mv", [(.flag "-v")], ["tomove1.txt", "tomove2.txt", "dest.txt"]⟩).map (·.implicitInput) = some (none) := by decide +kernel
example : (typedTest ⟨"mv", [(.flag "-v")], ["tomove1.txt", "tomove2.txt", "dest.txt"]⟩).map (·.implicitOutput) = some (none) := by decide +kernel
example : (getParallelizabilityInfo ⟨"mv", [(.flag "-v")], ["tomove1.txt", "tomove2.txt", "dest.txt"]⟩).isNone = true := by decide +kernel

/-! annotation_generation/tests/test_ann_gen_mv.py:72 `test_mv_3` -/
example : (getInputOutputInfo ⟨"mv", [(.option "-t" "dest1.txt"), (.option "-t" "dest2.txt")], ["tomove1.txt", "tomove2.txt", "dest.txt"]⟩).isNone = true := by decide +kernel

/-! annotation_generation/tests/test_ann_gen_sort.py:27 `test_sort_1` -/
example : (getInputOutputInfo ⟨"sort", [], ["in1.txt", "in2.txt"]⟩).isSome = true := by decide +kernel
example : (typedTest ⟨"sort", [], ["in1.txt", "in2.txt"]⟩).map (·.getOperandsWithConfigInput.length) = some 0 := by decide +kernel
example : (typedTest ⟨"sort", [], ["in1.txt", "in2.txt"]⟩).map (·.getOperandsWithStreamInput.length) = some 2 := by decide +kernel
example : (typedTest ⟨"sort", [], ["in1.txt", "in2.txt"]⟩).map (·.getOperandsWithStreamOutput.length) = some 0 := by decide +kernel
example : (typedTest ⟨"sort", [], ["in1.txt", "in2.txt"]⟩).map (·.implicitInput) = some (none) := by decide +kernel
example : (typedTest ⟨"sort", [], ["in1.txt", "in2.txt"]⟩).map (·.implicitOutput) = some (some (.std .stdout .streamOutput)) := by decide +kernel
example : (getParallelizabilityInfo ⟨"sort", [], ["in1.txt", "in2.txt"]⟩).map (·.parallelizerList.length) = some 1 := by decide +kernel
example : (planTest ⟨"sort", [], ["in1.txt", "in2.txt"]⟩ 0).map (·.splitter) = some .consecChunks := by decide +kernel
example : (planTest ⟨"sort", [], ["in1.txt", "in2.txt"]⟩ 0).map (·.coreMapperSpec) = some (MapperSpec.makeSeq) := rfl
example : (planTest ⟨"sort", [], ["in1.txt", "in2.txt"]⟩ 0).map (·.coreAggregatorSpec) = some (AggregatorSpec.makeCustom2AryFromTransformers (some (.chain [(.filter ["-b", "-d", "-f", "-g", "-i", "-M", "-h", "-n", "-r", "--sort", "-V", "-k", "-t"]), (.add [(.flag "-m")])])) true) := rfl

/-! annotation_generation/tests/test_ann_gen_sort.py:65 `test_sort_2` -/
example : (getInputOutputInfo ⟨"sort", [(.flag "-b"), (.flag "-f")], []⟩).isSome = true := by decide +kernel
example : (typedTest ⟨"sort", [(.flag "-b"), (.flag "-f")], []⟩).map (·.getOperandsWithConfigInput.length) = some 0 := by decide +kernel
example : (typedTest ⟨"sort", [(.flag "-b"), (.flag "-f")], []⟩).map (·.getOperandsWithStreamInput.length) = some 0 := by decide +kernel
example : (typedTest ⟨"sort", [(.flag "-b"), (.flag "-f")], []⟩).map (·.getOperandsWithStreamOutput.length) = some 0 := by decide +kernel
example : (typedTest ⟨"sort", [(.flag "-b"), (.flag "-f")], []⟩).map (·.implicitInput) = some (some (.std .stdin .streamInput)) := by decide +kernel
example : (typedTest ⟨"sort", [(.flag "-b"), (.flag "-f")], []⟩).map (·.implicitOutput) = some (some (.std .stdout .streamOutput)) := by decide +kernel
example : (getParallelizabilityInfo ⟨"sort", [(.flag "-b"), (.flag "-f")], []⟩).map (·.parallelizerList.length) = some 1 := by decide +kernel
example : (planTest ⟨"sort", [(.flag "-b"), (.flag "-f")], []⟩ 0).map (·.splitter) = some .consecChunks := by decide +kernel

/-! annotation_generation/tests/test_ann_gen_sort.py:90 `test_sort_3` -/
example : (getInputOutputInfo ⟨"sort", [(.flag "-s"), (.option "-o" "output.txt")], []⟩).isSome = true := by decide +kernel
example : (typedTest ⟨"sort", [(.flag "-s"), (.option "-o" "output.txt")], []⟩).map (·.getOperandsWithConfigInput.length) = some 0 := by decide +kernel
example : (typedTest ⟨"sort", [(.flag "-s"), (.option "-o" "output.txt")], []⟩).map (·.getOperandsWithStreamInput.length) = some 0 := by decide +kernel
example : (typedTest ⟨"sort", [(.flag "-s"), (.option "-o" "output.txt")], []⟩).map (·.getOperandsWithStreamOutput.length) = some 0 := by decide +kernel
example : (typedTest ⟨"sort", [(.flag "-s"), (.option "-o" "output.txt")], []⟩).map (·.implicitInput) = some (some (.std .stdin .streamInput)) := by decide +kernel
example : (typedTest ⟨"sort", [(.flag "-s"), (.option "-o" "output.txt")], []⟩).map (·.implicitOutput) = some (none) := by decide +kernel
example : (getParallelizabilityInfo ⟨"sort", [(.flag "-s"), (.option "-o" "output.txt")], []⟩).map (·.parallelizerList.length) = some 0 := by decide +kernel

/-! annotation_generation/tests/test_ann_gen_sort.py:110 `test_sort_5` -/
example : (getInputOutputInfo ⟨"sort", [(.flag "-m")], []⟩).isSome = true := by decide +kernel
example : (typedTest ⟨"sort", [(.flag "-m")], []⟩).map (·.getOperandsWithConfigInput.length) = some 0 := by decide +kernel
example : (typedTest ⟨"sort", [(.flag "-m")], []⟩).map (·.getOperandsWithStreamInput.length) = some 0 := by decide +kernel
example : (typedTest ⟨"sort", [(.flag "-m")], []⟩).map (·.getOperandsWithStreamOutput.length) = some 0 := by decide +kernel
example : (typedTest ⟨"sort", [(.flag "-m")], []⟩).map (·.implicitInput) = some (some (.std .stdin .streamInput)) := by decide +kernel
example : (typedTest ⟨"sort", [(.flag "-m")], []⟩).map (·.implicitOutput) = some (some (.std .stdout .streamOutput)) := by decide +kernel
example : (getParallelizabilityInfo ⟨"sort", [(.flag "-m")], []⟩).map (·.parallelizerList.length) = some 0 := by decide +kernel

/-! annotation_generation/tests/test_ann_gen_sort.py:130 `test_sort_6` -/
example : (getInputOutputInfo ⟨"sort", [(.option "--files0-from" "input.txt")], []⟩).isSome = true := by decide +kernel
example : (typedTest ⟨"sort", [(.option "--files0-from" "input.txt")], []⟩).map (·.getOperandsWithConfigInput.length) = some 0 := by decide +kernel
example : (typedTest ⟨"sort", [(.option "--files0-from" "input.txt")], []⟩).map (·.getOperandsWithStreamInput.length) = some 0 := by decide +kernel
example : (typedTest ⟨"sort", [(.option "--files0-from" "input.txt")], []⟩).map (·.getOperandsWithStreamOutput.length) = some 0 := by decide +kernel
example : (typedTest ⟨"sort", [(.option "--files0-from" "input.txt")], []⟩).map (·.implicitInput) = some (none) := by decide +kernel
example : (typedTest ⟨"sort", [(.option "--files0-from" "input.txt")], []⟩).map (·.implicitOutput) = some (some (.std .stdout .streamOutput)) := by decide +kernel
example : (getParallelizabilityInfo ⟨"sort", [(.option "--files0-from" "input.txt")], []⟩).map (·.parallelizerList.length) = some 0 := by decide +kernel

/-! annotation_generation/tests/test_ann_gen_tail.py:16 `test_tail_1` -/
example : (getInputOutputInfo ⟨"tail", [(.flag "-q")], ["in1.txt", "in2.txt"]⟩).isSome = true := by decide +kernel
example : (typedTest ⟨"tail", [(.flag "-q")], ["in1.txt", "in2.txt"]⟩).map (·.getOperandsWithConfigInput.length) = some 0 := by decide +kernel
example : (typedTest ⟨"tail", [(.flag "-q")], ["in1.txt", "in2.txt"]⟩).map (·.getOperandsWithStreamInput.length) = some 2 := by decide +kernel
example : (typedTest ⟨"tail", [(.flag "-q")], ["in1.txt", "in2.txt"]⟩).map (·.getOperandsWithStreamOutput.length) = some 0 := by decide +kernel
example : (typedTest ⟨"tail", [(.flag "-q")], ["in1.txt", "in2.txt"]⟩).map (·.implicitInput) = some (none) := by decide +kernel
example : (typedTest ⟨"tail", [(.flag "-q")], ["in1.txt", "in2.txt"]⟩).map (·.implicitOutput) = some (some (.std .stdout .streamOutput)) := by decide +kernel
example : (getParallelizabilityInfo ⟨"tail", [(.flag "-q")], ["in1.txt", "in2.txt"]⟩).isNone = true := by decide +kernel

/-! annotation_generation/tests/test_ann_gen_tail.py:39 `test_tail_2` -/
example : (getInputOutputInfo ⟨"tail", [(.flag "--version")], ["in1.txt", "-", "in2.txt"]⟩).isSome = true := by decide +kernel
example : (typedTest ⟨"tail", [(.flag "--version")], ["in1.txt", "-", "in2.txt"]⟩).map (·.getOperandsWithConfigInput.length) = some 0 := by decide +kernel
example : (typedTest ⟨"tail", [(.flag "--version")], ["in1.txt", "-", "in2.txt"]⟩).map (·.getOperandsWithStreamInput.length) = some 3 := by decide +kernel
example : (typedTest ⟨"tail", [(.flag "--version")], ["in1.txt", "-", "in2.txt"]⟩).map (·.getOperandsWithStreamOutput.length) = some 0 := by decide +kernel
example : (typedTest ⟨"tail", [(.flag "--version")], ["in1.txt", "-", "in2.txt"]⟩).map (·.implicitInput) = some (none) := by decide +kernel
example : (typedTest ⟨"tail", [(.flag "--version")], ["in1.txt", "-", "in2.txt"]⟩).map (·.implicitOutput) = some (some (.std .stdout .streamOutput)) := by decide +kernel
example : (getParallelizabilityInfo ⟨"tail", [(.flag "--version")], ["in1.txt", "-", "in2.txt"]⟩).isNone = true := by decide +kernel

/-! annotation_generation/tests/test_ann_gen_tr.py:26 `test_tr_1` -/
example : (getInputOutputInfo ⟨"tr", [(.flag "-c"), (.flag "-s")], ["A-Za-z", "'\\n'"]⟩).isSome = true := by decide +kernel
example : (typedTest ⟨"tr", [(.flag "-c"), (.flag "-s")], ["A-Za-z", "'\\n'"]⟩).map (·.getOperandsWithConfigInput.length) = some 2 := by decide +kernel
example : (typedTest ⟨"tr", [(.flag "-c"), (.flag "-s")], ["A-Za-z", "'\\n'"]⟩).map (·.getOperandsWithStreamInput.length) = some 0 := by decide +kernel
example : (typedTest ⟨"tr", [(.flag "-c"), (.flag "-s")], ["A-Za-z", "'\\n'"]⟩).map (·.getOperandsWithStreamOutput.length) = some 0 := by decide +kernel
example : (typedTest ⟨"tr", [(.flag "-c"), (.flag "-s")], ["A-Za-z", "'\\n'"]⟩).map (·.implicitInput) = some (some (.std .stdin .streamInput)) := by decide +kernel
example : (typedTest ⟨"tr", [(.flag "-c"), (.flag "-s")], ["A-Za-z", "'\\n'"]⟩).map (·.implicitOutput) = some (some (.std .stdout .streamOutput)) := by decide +kernel
example : (getParallelizabilityInfo ⟨"tr", [(.flag "-c"), (.flag "-s")], ["A-Za-z", "'\\n'"]⟩).map (·.parallelizerList.length) = some 2 := by decide +kernel
example : (planTest ⟨"tr", [(.flag "-c"), (.flag "-s")], ["A-Za-z", "'\\n'"]⟩ 0).map (·.splitter) = some .consecChunks := by decide +kernel
example : (planTest ⟨"tr", [(.flag "-c"), (.flag "-s")], ["A-Za-z", "'\\n'"]⟩ 0).map (·.coreMapperSpec) = some (MapperSpec.makeSeq) := rfl
example : (planTest ⟨"tr", [(.flag "-c"), (.flag "-s")], ["A-Za-z", "'\\n'"]⟩ 0).map (·.coreAggregatorSpec) = some (AggregatorSpec.makeAdjLinesFuncFromString "PLACEHOLDER: remove first line if empty" false) := rfl
example : (planTest ⟨"tr", [(.flag "-c"), (.flag "-s")], ["A-Za-z", "'\\n'"]⟩ 1).map (·.splitter) = some .roundRobinPlain := by decide +kernel
example : (planTest ⟨"tr", [(.flag "-c"), (.flag "-s")], ["A-Za-z", "'\\n'"]⟩ 1).map (·.coreMapperSpec) = some (MapperSpec.makeSeq) := rfl
example : (planTest ⟨"tr", [(.flag "-c"), (.flag "-s")], ["A-Za-z", "'\\n'"]⟩ 1).map (·.coreAggregatorSpec) = some (AggregatorSpec.makeAdjLinesFuncFromString "PLACEHOLDER: remove first line if empty" false) := rfl

/-! annotation_generation/tests/test_ann_gen_tr.py:55 `test_tr_2` -/
example : (getInputOutputInfo ⟨"tr", [], ["A-Z", "a-z"]⟩).isSome = true := by decide +kernel
example : (typedTest ⟨"tr", [], ["A-Z", "a-z"]⟩).map (·.getOperandsWithConfigInput.length) = some 2 := by decide +kernel
example : (typedTest ⟨"tr", [], ["A-Z", "a-z"]⟩).map (·.getOperandsWithStreamInput.length) = some 0 := by decide +kernel
example : (typedTest ⟨"tr", [], ["A-Z", "a-z"]⟩).map (·.getOperandsWithStreamOutput.length) = some 0 := by decide +kernel
example : (typedTest ⟨"tr", [], ["A-Z", "a-z"]⟩).map (·.implicitInput) = some (some (.std .stdin .streamInput)) := by decide +kernel
example : (typedTest ⟨"tr", [], ["A-Z", "a-z"]⟩).map (·.implicitOutput) = some (some (.std .stdout .streamOutput)) := by decide +kernel
example : (getParallelizabilityInfo ⟨"tr", [], ["A-Z", "a-z"]⟩).map (·.parallelizerList.length) = some 2 := by decide +kernel
example : (planTest ⟨"tr", [], ["A-Z", "a-z"]⟩ 0).map (·.splitter) = some .consecChunks := by decide +kernel
example : (planTest ⟨"tr", [], ["A-Z", "a-z"]⟩ 0).map (·.coreMapperSpec) = some (MapperSpec.makeSeq) := rfl
example : (planTest ⟨"tr", [], ["A-Z", "a-z"]⟩ 0).map (·.coreAggregatorSpec) = some (AggregatorSpec.makeConcatenate) := rfl
example : (planTest ⟨"tr", [], ["A-Z", "a-z"]⟩ 1).map (·.splitter) = some .roundRobinPlain := by decide +kernel
example : (planTest ⟨"tr", [], ["A-Z", "a-z"]⟩ 1).map (·.coreMapperSpec) = some (MapperSpec.makeSeq) := rfl
example : (planTest ⟨"tr", [], ["A-Z", "a-z"]⟩ 1).map (·.coreAggregatorSpec) = some (AggregatorSpec.makeConcatenate) := rfl

/-! annotation_generation/tests/test_ann_gen_tr.py:85 `test_tr_3` -/
example : (getInputOutputInfo ⟨"tr", [(.flag "-d")], ["'[:punct:]'"]⟩).isSome = true := by decide +kernel
example : (typedTest ⟨"tr", [(.flag "-d")], ["'[:punct:]'"]⟩).map (·.getOperandsWithConfigInput.length) = some 1 := by decide +kernel
example : (typedTest ⟨"tr", [(.flag "-d")], ["'[:punct:]'"]⟩).map (·.getOperandsWithStreamInput.length) = some 0 := by decide +kernel
example : (typedTest ⟨"tr", [(.flag "-d")], ["'[:punct:]'"]⟩).map (·.getOperandsWithStreamOutput.length) = some 0 := by decide +kernel
example : (typedTest ⟨"tr", [(.flag "-d")], ["'[:punct:]'"]⟩).map (·.implicitInput) = some (some (.std .stdin .streamInput)) := by decide +kernel
example : (typedTest ⟨"tr", [(.flag "-d")], ["'[:punct:]'"]⟩).map (·.implicitOutput) = some (some (.std .stdout .streamOutput)) := by decide +kernel
example : (getParallelizabilityInfo ⟨"tr", [(.flag "-d")], ["'[:punct:]'"]⟩).map (·.parallelizerList.length) = some 2 := by decide +kernel
example : (planTest ⟨"tr", [(.flag "-d")], ["'[:punct:]'"]⟩ 0).map (·.splitter) = some .consecChunks := by decide +kernel
example : (planTest ⟨"tr", [(.flag "-d")], ["'[:punct:]'"]⟩ 0).map (·.coreMapperSpec) = some (MapperSpec.makeSeq) := rfl
example : (planTest ⟨"tr", [(.flag "-d")], ["'[:punct:]'"]⟩ 0).map (·.coreAggregatorSpec) = some (AggregatorSpec.makeConcatenate) := rfl
example : (planTest ⟨"tr", [(.flag "-d")], ["'[:punct:]'"]⟩ 1).map (·.splitter) = some .roundRobinPlain := by decide +kernel
example : (planTest ⟨"tr", [(.flag "-d")], ["'[:punct:]'"]⟩ 1).map (·.coreMapperSpec) = some (MapperSpec.makeSeq) := rfl
example : (planTest ⟨"tr", [(.flag "-d")], ["'[:punct:]'"]⟩ 1).map (·.coreAggregatorSpec) = some (AggregatorSpec.makeConcatenate) := rfl

/-! annotation_generation/tests/test_ann_gen_tr.py:115 `test_tr_4` -/
example : (getInputOutputInfo ⟨"tr", [(.flag "-d")], ["'\\n'"]⟩).isSome = true := by decide +kernel
example : (typedTest ⟨"tr", [(.flag "-d")], ["'\\n'"]⟩).map (·.getOperandsWithConfigInput.length) = some 1 := by decide +kernel
example : (typedTest ⟨"tr", [(.flag "-d")], ["'\\n'"]⟩).map (·.getOperandsWithStreamInput.length) = some 0 := by decide +kernel
example : (typedTest ⟨"tr", [(.flag "-d")], ["'\\n'"]⟩).map (·.getOperandsWithStreamOutput.length) = some 0 := by decide +kernel
example : (typedTest ⟨"tr", [(.flag "-d")], ["'\\n'"]⟩).map (·.implicitInput) = some (some (.std .stdin .streamInput)) := by decide +kernel
example : (typedTest ⟨"tr", [(.flag "-d")], ["'\\n'"]⟩).map (·.implicitOutput) = some (some (.std .stdout .streamOutput)) := by decide +kernel
example : (getParallelizabilityInfo ⟨"tr", [(.flag "-d")], ["'\\n'"]⟩).map (·.parallelizerList.length) = some 2 := by decide +kernel
example : (planTest ⟨"tr", [(.flag "-d")], ["'\\n'"]⟩ 0).map (·.splitter) = some .consecChunks := by decide +kernel
example : (planTest ⟨"tr", [(.flag "-d")], ["'\\n'"]⟩ 0).map (·.coreMapperSpec) = some (MapperSpec.makeSeq) := rfl
example : (planTest ⟨"tr", [(.flag "-d")], ["'\\n'"]⟩ 0).map (·.coreAggregatorSpec) = some (AggregatorSpec.makeAdjLinesMerge) := rfl
example : (planTest ⟨"tr", [(.flag "-d")], ["'\\n'"]⟩ 1).map (·.splitter) = some .roundRobinPlain := by decide +kernel
example : (planTest ⟨"tr", [(.flag "-d")], ["'\\n'"]⟩ 1).map (·.coreMapperSpec) = some (MapperSpec.makeSeq) := rfl
example : (planTest ⟨"tr", [(.flag "-d")], ["'\\n'"]⟩ 1).map (·.coreAggregatorSpec) = some (AggregatorSpec.makeAdjLinesMerge) := rfl

/-! annotation_generation/tests/test_ann_gen_tr.py:145 `test_tr_5` -/
example : (getInputOutputInfo ⟨"tr", [(.flag "-c"), (.flag "-d")], ["'\\n'"]⟩).isSome = true := by decide +kernel
example : (typedTest ⟨"tr", [(.flag "-c"), (.flag "-d")], ["'\\n'"]⟩).map (·.getOperandsWithConfigInput.length) = some 1 := by decide +kernel
example : (typedTest ⟨"tr", [(.flag "-c"), (.flag "-d")], ["'\\n'"]⟩).map (·.getOperandsWithStreamInput.length) = some 0 := by decide +kernel
example : (typedTest ⟨"tr", [(.flag "-c"), (.flag "-d")], ["'\\n'"]⟩).map (·.getOperandsWithStreamOutput.length) = some 0 := by decide +kernel
example : (typedTest ⟨"tr", [(.flag "-c"), (.flag "-d")], ["'\\n'"]⟩).map (·.implicitInput) = some (some (.std .stdin .streamInput)) := by decide +kernel
example : (typedTest ⟨"tr", [(.flag "-c"), (.flag "-d")], ["'\\n'"]⟩).map (·.implicitOutput) = some (some (.std .stdout .streamOutput)) := by decide +kernel
example : (getParallelizabilityInfo ⟨"tr", [(.flag "-c"), (.flag "-d")], ["'\\n'"]⟩).map (·.parallelizerList.length) = some 2 := by decide +kernel
example : (planTest ⟨"tr", [(.flag "-c"), (.flag "-d")], ["'\\n'"]⟩ 0).map (·.splitter) = some .consecChunks := by decide +kernel
example : (planTest ⟨"tr", [(.flag "-c"), (.flag "-d")], ["'\\n'"]⟩ 0).map (·.coreMapperSpec) = some (MapperSpec.makeSeq) := rfl
example : (planTest ⟨"tr", [(.flag "-c"), (.flag "-d")], ["'\\n'"]⟩ 0).map (·.coreAggregatorSpec) = some (AggregatorSpec.makeConcatenate) := rfl
example : (planTest ⟨"tr", [(.flag "-c"), (.flag "-d")], ["'\\n'"]⟩ 1).map (·.splitter) = some .roundRobinPlain := by decide +kernel
example : (planTest ⟨"tr", [(.flag "-c"), (.flag "-d")], ["'\\n'"]⟩ 1).map (·.coreMapperSpec) = some (MapperSpec.makeSeq) := rfl
example : (planTest ⟨"tr", [(.flag "-c"), (.flag "-d")], ["'\\n'"]⟩ 1).map (·.coreAggregatorSpec) = some (AggregatorSpec.makeConcatenate) := rfl

/-! annotation_generation/tests/test_ann_gen_tr.py:175 `test_tr_6` -/
example : (getInputOutputInfo ⟨"tr", [(.flag "-c"), (.flag "-d")], ["A-Z"]⟩).isSome = true := by decide +kernel
example : (typedTest ⟨"tr", [(.flag "-c"), (.flag "-d")], ["A-Z"]⟩).map (·.getOperandsWithConfigInput.length) = some 1 := by decide +kernel
example : (typedTest ⟨"tr", [(.flag "-c"), (.flag "-d")], ["A-Z"]⟩).map (·.getOperandsWithStreamInput.length) = some 0 := by decide +kernel
example : (typedTest ⟨"tr", [(.flag "-c"), (.flag "-d")], ["A-Z"]⟩).map (·.getOperandsWithStreamOutput.length) = some 0 := by decide +kernel
example : (typedTest ⟨"tr", [(.flag "-c"), (.flag "-d")], ["A-Z"]⟩).map (·.implicitInput) = some (some (.std .stdin .streamInput)) := by decide +kernel
example : (typedTest ⟨"tr", [(.flag "-c"), (.flag "-d")], ["A-Z"]⟩).map (·.implicitOutput) = some (some (.std .stdout .streamOutput)) := by decide +kernel
example : (getParallelizabilityInfo ⟨"tr", [(.flag "-c"), (.flag "-d")], ["A-Z"]⟩).map (·.parallelizerList.length) = some 2 := by decide +kernel
example : (planTest ⟨"tr", [(.flag "-c"), (.flag "-d")], ["A-Z"]⟩ 0).map (·.splitter) = some .consecChunks := by decide +kernel
example : (planTest ⟨"tr", [(.flag "-c"), (.flag "-d")], ["A-Z"]⟩ 0).map (·.coreMapperSpec) = some (MapperSpec.makeSeq) := rfl
example : (planTest ⟨"tr", [(.flag "-c"), (.flag "-d")], ["A-Z"]⟩ 0).map (·.coreAggregatorSpec) = some (AggregatorSpec.makeAdjLinesMerge) := rfl
example : (planTest ⟨"tr", [(.flag "-c"), (.flag "-d")], ["A-Z"]⟩ 1).map (·.splitter) = some .roundRobinPlain := by decide +kernel
example : (planTest ⟨"tr", [(.flag "-c"), (.flag "-d")], ["A-Z"]⟩ 1).map (·.coreMapperSpec) = some (MapperSpec.makeSeq) := rfl
example : (planTest ⟨"tr", [(.flag "-c"), (.flag "-d")], ["A-Z"]⟩ 1).map (·.coreAggregatorSpec) = some (AggregatorSpec.makeAdjLinesMerge) := rfl

/-! annotation_generation/tests/test_ann_gen_uniq.py:24 `test_uniq_1` -/
example : (getInputOutputInfo ⟨"uniq", [(.flag "-D")], ["in.txt", "out.txt"]⟩).isSome = true := by decide +kernel
example : (typedTest ⟨"uniq", [(.flag "-D")], ["in.txt", "out.txt"]⟩).map (·.getOperandsWithConfigInput.length) = some 0 := by decide +kernel
example : (typedTest ⟨"uniq", [(.flag "-D")], ["in.txt", "out.txt"]⟩).map (·.getOperandsWithStreamInput.length) = some 1 := by decide +kernel
example : (typedTest ⟨"uniq", [(.flag "-D")], ["in.txt", "out.txt"]⟩).map (·.getOperandsWithStreamOutput.length) = some 1 := by decide +kernel
example : (typedTest ⟨"uniq", [(.flag "-D")], ["in.txt", "out.txt"]⟩).map (·.implicitInput) = some (none) := by decide +kernel
example : (typedTest ⟨"uniq", [(.flag "-D")], ["in.txt", "out.txt"]⟩).map (·.implicitOutput) = some (none) := by decide +kernel
example : (getParallelizabilityInfo ⟨"uniq", [(.flag "-D")], ["in.txt", "out.txt"]⟩).map (·.parallelizerList.length) = some 0 := by decide +kernel

/-! annotation_generation/tests/test_ann_gen_uniq.py:47 `test_uniq_2` -/
example : (getInputOutputInfo ⟨"uniq", [(.flag "-c")], []⟩).isSome = true := by decide +kernel
example : (typedTest ⟨"uniq", [(.flag "-c")], []⟩).map (·.getOperandsWithConfigInput.length) = some 0 := by decide +kernel
example : (typedTest ⟨"uniq", [(.flag "-c")], []⟩).map (·.getOperandsWithStreamInput.length) = some 0 := by decide +kernel
example : (typedTest ⟨"uniq", [(.flag "-c")], []⟩).map (·.getOperandsWithStreamOutput.length) = some 0 := by decide +kernel
example : (typedTest ⟨"uniq", [(.flag "-c")], []⟩).map (·.implicitInput) = some (some (.std .stdin .streamInput)) := by decide +kernel
example : (typedTest ⟨"uniq", [(.flag "-c")], []⟩).map (·.implicitOutput) = some (some (.std .stdout .streamOutput)) := by decide +kernel
example : (getParallelizabilityInfo ⟨"uniq", [(.flag "-c")], []⟩).map (·.parallelizerList.length) = some 2 := by decide +kernel
example : (planTest ⟨"uniq", [(.flag "-c")], []⟩ 0).map (·.splitter) = some .consecChunks := by decide +kernel
example : (planTest ⟨"uniq", [(.flag "-c")], []⟩ 0).map (·.coreMapperSpec) = some (MapperSpec.makeSeq) := rfl
example : (planTest ⟨"uniq", [(.flag "-c")], []⟩ 0).map (·.coreAggregatorSpec) = some (AggregatorSpec.makeAdjLinesFuncFromString "PLACEHOLDER:uniq_merge_count_uniq" false) := rfl
example : (planTest ⟨"uniq", [(.flag "-c")], []⟩ 1).map (·.splitter) = some .roundRobinPlain := by decide +kernel
example : (planTest ⟨"uniq", [(.flag "-c")], []⟩ 1).map (·.coreMapperSpec) = some (MapperSpec.makeSeq) := rfl
example : (planTest ⟨"uniq", [(.flag "-c")], []⟩ 1).map (·.coreAggregatorSpec) = some (AggregatorSpec.makeAdjLinesFuncFromString "PLACEHOLDER:uniq_merge_count_uniq" false) := rfl

/-! annotation_generation/tests/test_ann_gen_uniq.py:77 `test_uniq_3` -/
example : (getInputOutputInfo ⟨"uniq", [], ["in.txt", "out.txt"]⟩).isSome = true := by decide +kernel
example : (typedTest ⟨"uniq", [], ["in.txt", "out.txt"]⟩).map (·.getOperandsWithConfigInput.length) = some 0 := by decide +kernel
example : (typedTest ⟨"uniq", [], ["in.txt", "out.txt"]⟩).map (·.getOperandsWithStreamInput.length) = some 1 := by decide +kernel
example : (typedTest ⟨"uniq", [], ["in.txt", "out.txt"]⟩).map (·.getOperandsWithStreamOutput.length) = some 1 := by decide +kernel
example : (typedTest ⟨"uniq", [], ["in.txt", "out.txt"]⟩).map (·.implicitInput) = some (none) := by decide +kernel
example : (typedTest ⟨"uniq", [], ["in.txt", "out.txt"]⟩).map (·.implicitOutput) = some (none) := by decide +kernel
example : (getParallelizabilityInfo ⟨"uniq", [], ["in.txt", "out.txt"]⟩).map (·.parallelizerList.length) = some 2 := by decide +kernel
example : (planTest ⟨"uniq", [], ["in.txt", "out.txt"]⟩ 0).map (·.splitter) = some .consecChunks := by decide +kernel
example : (planTest ⟨"uniq", [], ["in.txt", "out.txt"]⟩ 0).map (·.coreMapperSpec) = some (MapperSpec.makeSeq) := rfl
example : (planTest ⟨"uniq", [], ["in.txt", "out.txt"]⟩ 0).map (·.coreAggregatorSpec) = some (AggregatorSpec.makeAdjLinesSeq) := rfl
example : (planTest ⟨"uniq", [], ["in.txt", "out.txt"]⟩ 1).map (·.splitter) = some .roundRobinPlain := by decide +kernel
example : (planTest ⟨"uniq", [], ["in.txt", "out.txt"]⟩ 1).map (·.coreMapperSpec) = some (MapperSpec.makeSeq) := rfl
example : (planTest ⟨"uniq", [], ["in.txt", "out.txt"]⟩ 1).map (·.coreAggregatorSpec) = some (AggregatorSpec.makeAdjLinesSeq) := rfl

end PashAnn
