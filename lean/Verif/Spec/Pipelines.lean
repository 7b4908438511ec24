import Verif.Spec.Streams
import Verif.Spec.Programs
import Verif.Spec.Lines

/-! Specification vocabulary for C94: pipelines whose stages are run on the parts without recombining in between. -/

namespace PashAnn.Spec

variable {α : Type}

/-- A stage of a pipeline: the parsed command, the parallelizer chosen for it and the invocation with variables. -/
structure Stage where
  inv : CommandInvocationInitial
  plan : Parallelizer
  cmd : CommandInvocationWithIOVars

/-- The pipeline run in sequence: each stage reads what the stage before it writes. -/
def piped (prog : ProgramsOn α) : List Stage → List α → List α
  | [], x => x
  | s :: l, x => piped prog l (sequential prog s.cmd x)

/-- One part goes through the mappers of the stages, one after the other. -/
inductive Through (prog : ProgramsOn α) : List Stage → List α → List α → Prop
  | done (x : List α) : Through prog [] x x
  | stage {s : Stage} {l : List Stage} {x y z : List α} (h : MapperRun prog s.plan s.cmd x y) (hl : Through prog l y z) :
      Through prog (s :: l) x z

/-- The pipeline run in parts: the input is split once, for the last stage, each part goes through the mappers of the
stages before it, and only the last stage recombines. -/
def PipelineRun (prog : ProgramsOn α) (l : List Stage) (last : Stage) (x y : List α) : Prop :=
  ∃ runs : List (List α × List α), Split last.plan.splitter x (runs.map Prod.fst) ∧
    (∀ r ∈ runs, Through prog l r.1 r.2) ∧ Executes prog last.plan last.cmd (runs.map Prod.snd) y

/-- Executing the parallelizer of the stage alone is right, for all inputs and splits. -/
def StageRight (prog : ProgramsOn α) (s : Stage) : Prop :=
  ∀ x parts y, Split s.plan.splitter x parts → Executes prog s.plan s.cmd parts y → y = sequential prog s.cmd x

/-- The stage is a command with one stream and the parallelizer is offered for it. -/
def ProperStage (s : Stage) : Prop := Offered s.inv s.plan ∧ Belongs s.inv s.cmd ∧ OneStream s.cmd

/-- The stage's outputs are concatenated. -/
def Concatenates (s : Stage) : Prop := s.plan.coreAggregatorSpec.kind = .concatenate

/-- What some programs do, after their manuals. -/
structure Manuals (prog : Programs) where
  grep : GrepParameters
  grepProgram : GrepProgram prog grep
  select : List FlagOptionWithIOVar → String → List String
  listed : List FlagOptionWithIOVar → Nat → Bool
  cutProgram : CutProgram prog select listed
  plainScript : String → Prop
  act : List FlagOptionWithIOVar → String → Nat → Bool → String → List String
  sedProgram : SedProgram prog plainScript act
  le : List FlagOptionWithIOVar → String → String → Prop
  sortProgram : SortProgram prog le
  same : List FlagOptionWithIOVar → String → String → Bool
  uniqProgram : UniqProgram prog same

/-- Stages that treat each line by itself: `grep` without context, limit and null-terminated lines, `cut` without
null-terminated lines and without the newline as delimiter of fields, and `sed` with a script that does the same to every
line. -/
inductive LineStage {prog : Programs} (man : Manuals prog) (s : Stage) : Prop
  | grep (hn : s.inv.cmdName = "grep") (hcov : Covered "grep" s.cmd.flagOptionList)
      (hx : ¬ ∃ n ∈ ["-A", "--after-context", "-B", "--before-context", "-C", "--context", "-m", "--max-count", "-z"],
        Has s.inv n)
  | cut (hn : s.inv.cmdName = "cut") (hcov : Covered "cut" s.cmd.flagOptionList) (hs : strOperands s.cmd = [])
      (hz : ¬ Has s.inv "-z") (hf : ¬ (Has s.inv "-f" ∧ argOf s.cmd.flagOptionList "-d" = some "\n"))
  | sed (hn : s.inv.cmdName = "sed") (hcov : Covered "sed" s.cmd.flagOptionList) {script : String}
      (hs : strOperands s.cmd = [script]) (hp : man.plainScript script) (hz : ¬ Has s.inv "-z")
      (ha : ∀ k last k' last' l, man.act s.cmd.flagOptionList script k last l = man.act s.cmd.flagOptionList script k' last' l)

/-- Last stages: one that treats each line by itself, `sort` with options that determine an order, or `uniq` that shows
each group of lines once. -/
inductive LastStage {prog : Programs} (man : Manuals prog) (s : Stage) : Prop
  | line (h : LineStage man s)
  | sort (hn : s.inv.cmdName = "sort") (hcov : Covered "sort" s.cmd.flagOptionList) (hs : strOperands s.cmd = [])
      (hle : LineOrder (man.le s.cmd.flagOptionList))
  | uniq (hn : s.inv.cmdName = "uniq") (hcov : Covered "uniq" s.cmd.flagOptionList) (hs : strOperands s.cmd = [])
      (hx : ¬ ∃ n ∈ ["-u", "-z", "-c"], Has s.inv n)
      (hg : ∀ a, argOf s.cmd.flagOptionList "--group" = some a → a = "separate")

/-- A stage that is written as a command line: name, words, what the words mean, the typed invocation and the files. -/
structure WrittenStage where
  name : String
  words : List String
  options : List FlagOption
  operands : List String
  typed : CommandInvocationWithIO
  what : IOVar → FileWithIO
  stage : Stage

/-- The command line is plain, it is parsed and typed, files are replaced by variables and a parallelizer is offered. -/
def WrittenStage.Proper (w : WrittenStage) : Prop :=
  w.name ∈ ["cut", "grep", "sed", "sort", "tr", "uniq", "xargs"] ∧
  ParallelLine w.name w.words w.options w.operands w.stage.inv w.typed w.what w.stage.cmd w.stage.plan

/-- The command lines run one after the other. -/
def pipedLines (line : LineProgramsOn α) : List WrittenStage → List α → List α
  | [], x => x
  | w :: l, x => pipedLines line l (line w.name w.options (textOperands w.name w.options w.operands) x)

end PashAnn.Spec
