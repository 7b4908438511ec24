import Verif.Spec.Effects
import Verif.Spec.Programs
import Verif.Spec.ParTable

/-!
From a command line to its parallel execution, for C90: a plainly written command line is parsed and typed, its files
and streams are replaced by variables, and a parallelizer that is offered for it is executed. Replacing files by
variables is done by the system that uses the library; what it has to do is written down here.
-/

namespace PashAnn.Spec

/-- Related one by one, in the same order. -/
inductive Pointwise {α β : Type} (r : α → β → Prop) : List α → List β → Prop
  | nil : Pointwise r [] []
  | cons {a b l m} : r a b → Pointwise r l m → Pointwise r (a :: l) (b :: m)

/-- An argument with a variable in the place of a file; `what` tells what the variables stand for. -/
inductive ArgStands (what : IOVar → FileWithIO) : ArgWithIO → VArg → Prop
  | text (s : String) : ArgStands what (.argString s) (.str s)
  | file (v : IOVar) : ArgStands what (.io (what v)) (.var v)

/-- A flag or option with a variable in the place of a file. -/
inductive OptionStands (what : IOVar → FileWithIO) : FlagOptionWithIO → FlagOptionWithIOVar → Prop
  | flag (n : String) : OptionStands what (.flag n) (.flag n)
  | option (oid : Nat) (n : String) {a b} : ArgStands what a b → OptionStands what (.option n a) (.optionVar oid n b)

/-- The invocation `v` is `c` with a variable of its own in the place of every file and stream, and its access map tells
how they are accessed. -/
structure StandsFor (what : IOVar → FileWithIO) (c : CommandInvocationWithIO) (v : CommandInvocationWithIOVars) : Prop where
  name : v.cmdName = c.cmdName
  options : Pointwise (OptionStands what) c.flagOptionList v.flagOptionList
  operands : Pointwise (ArgStands what) c.operandList v.operandList
  input : v.implicitInput.map what = c.implicitInput
  output : v.implicitOutput.map what = c.implicitOutput
  distinct : (occurrences v ++ hiddenVars v).Nodup
  access : ∀ u ∈ occurrences v ++ hiddenVars v, accessOf v u = some (match what u with | .file _ a => a | .std _ a => a)

/-- The operands that are no files: the pattern of `grep`, the script of `sed`, and all operands of `tr` and `xargs`. -/
def textOperands (name : String) (fs : List FlagOption) (ops : List String) : List String :=
  if name ∈ ["tr", "xargs"] then ops
  else if name ∈ ["grep", "sed"] ∧ ¬ (∃ p ∈ programOptions, p.1 = name ∧ OneOf fs p.2) then ops.take 1
  else []

/-- A plainly written command line that reads one stream and writes standard output, with options that the specification
of the program is about in some spelling; what the library makes of it; and a parallelizer offered for it. (`sed` is
always taken to read standard input, even if files are given (C79), so it has to read standard input here.) -/
structure ParallelLine (name : String) (ws : List String) (fs : List FlagOption) (ops : List String)
    (inv : CommandInvocationInitial) (c : CommandInvocationWithIO) (what : IOVar → FileWithIO)
    (v : CommandInvocationWithIOVars) (p : Parallelizer) : Prop where
  line : PlainLine name ws fs ops
  covered : ∀ f ∈ fs, ∃ page w, (name, page) ∈ manuals ∧ ManualSynonyms page f.getName w ∧ InList coveredNames name w
  oneInput : (readOperands name fs ops).length ≤ (if name = "sed" then 0 else 1)
  noOutput : writtenOperands name fs ops = []
  parsed : parse (Shlex.join (name :: ws)) = .ok inv
  typed : Typed inv c
  stands : StandsFor what c v
  offered : Offered inv p

/-- What programs do when they are run from a command line: the name, the options as they are written, the operands that
are no files, and the input give the output. -/
abbrev LineProgramsOn (α : Type) := String → List FlagOption → List String → List α → List α

/-- A flag or option of an invocation is the one that is written in some way: up to the spellings of the manual, and with
a variable that stands for a file in the place of the name of the file. -/
inductive WrittenAs (page : List ManualEntry) (what : IOVar → FileWithIO) : FlagOption → FlagOptionWithIOVar → Prop
  | flag {w n} : ManualSynonyms page w n → WrittenAs page what (.flag w) (.flag n)
  | text {w n oid arg} : ManualSynonyms page w n → WrittenAs page what (.option w arg) (.optionVar oid n (.str arg))
  | file {w n oid arg v a} : ManualSynonyms page w n → what v = fileOf a arg →
      WrittenAs page what (.option w arg) (.optionVar oid n (.var v))

/-- The programs do the same for an invocation as for a command line that is written in some way for it, for the options
that the specifications are about. -/
def SamePrograms {α : Type} (what : IOVar → FileWithIO) (line : LineProgramsOn α) (prog : ProgramsOn α) : Prop :=
  ∀ name page fs fl strs x, (name, page) ∈ manuals → Pointwise (WrittenAs page what) fs fl → Covered name fl →
    prog name fl strs [x] = line name fs strs x

end PashAnn.Spec
