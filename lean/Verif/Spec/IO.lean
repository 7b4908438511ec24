import Verif.Spec.Grammar
import Verif.Model.IOGenerators

/-!
Independent specification of typed invocations: what a typed argument denotes, which text it came from,
and which invocations are refused. Uses only data types of the model.
-/

namespace PashAnn.Spec

/-- A flag or option of that name is present. -/
def Has (c : CommandInvocationInitial) (n : String) : Prop :=
  .flag n ∈ c.flagOptionList ∨ ∃ a, .option n a ∈ c.flagOptionList

/-- How many flags or options of that name are present. -/
def count (c : CommandInvocationInitial) (n : String) : Nat :=
  c.flagOptionList.countP fun
    | .flag m => m = n
    | .option m _ => m = n

/-- The text `s` used as a file with access `a`: `-` is the standard stream of that direction. -/
def fileOf (a : AccessKind) (s : String) : FileWithIO :=
  if s = "-" then
    match a with
    | .streamOutput | .otherOutput => .std .stdout a
    | _ => .std .stdin a
  else .file s a

/-- The text `s` read with a typer. (`plainString` is never applied to an argument.) -/
def typedArg : Typer → String → ArgWithIO
  | .fileStd a, s => .io (fileOf a s)
  | _, s => .argString s

/-- A flag or option read with a typer. -/
def typedFlagOption : FlagOption → Typer → FlagOptionWithIO
  | .flag n, _ => .flag n
  | .option n a, t => .option n (typedArg t a)

/-- The text from which a typed argument was made. -/
def textOf : ArgWithIO → String
  | .argString s => s
  | .io (.file n _) => n
  | .io (.std _ _) => "-"

/-- The flag or option from which a typed one was made. -/
def untyped : FlagOptionWithIO → FlagOption
  | .flag n => .flag n
  | .option n a => .option n (textOf a)

/-- The declared class of an option argument: a file with the declared access if the database says FILE,
DIR or DIRECTORY, else a string. -/
inductive ArgClass : ArgInfo → Typer → Prop
  | file {k acc a} : k ∈ ["FILE", "DIR", "DIRECTORY"] → (acc, a) ∈
      [("CONFIG_INPUT", AccessKind.configInput), ("STREAM_INPUT", .streamInput),
       ("CONTAINER_FOR_INPUT", .containerForInput), ("EXCLUDES_FROM_INPUT", .excludesFromInput),
       ("OTHER_INPUT", .otherInput), ("STREAM_OUTPUT", .streamOutput), ("OTHER_OUTPUT", .otherOutput)] →
      ArgClass (.withAccess k acc) (.fileStd a)
  | text {k acc} : k ∉ ["FILE", "DIR", "DIRECTORY"] → ArgClass (.withAccess k acc) .argString
  | word {k} : ArgClass (.word k) .argString

/-- `OptionEntryOf d n e`: `e` is the entry of the database whose canonical name is `n`. -/
def OptionEntryOf (d : JsonData) (n : String) (e : OptionEntry) : Prop := e ∈ d.option ∧ e.names.head? = some n

/-- All options of the invocation are declared, by canonical name, in the database of the command. -/
def OptionsKnown (c : CommandInvocationInitial) : Prop :=
  ∀ d n a, DatabaseFor c.cmdName d → .option n a ∈ c.flagOptionList → ∃ e, OptionEntryOf d n e

/-- The type of a flag or option. -/
inductive FlagOptionClass (d : JsonData) : FlagOption → Typer → Prop
  | flag {n} : FlagOptionClass d (.flag n) .plainString
  | option {n a e t} : OptionEntryOf d n e → ArgClass e.arg t → FlagOptionClass d (.option n a) t

/-- Usages for which no input-output information is given although the command has a generator. -/
def RefusedUsage (c : CommandInvocationInitial) : Prop :=
  (c.cmdName = "awk" ∧ ¬ Has c "-f" ∧ c.operandList = []) ∨
  (c.cmdName = "grep" ∧ ¬ Has c "-e" ∧ ¬ Has c "-f" ∧ c.operandList = []) ∨
  (c.cmdName = "sed" ∧ ¬ Has c "-e" ∧ ¬ Has c "-f" ∧ c.operandList = []) ∨
  (c.cmdName = "comm" ∧ c.operandList.length ≠ 2) ∨
  (c.cmdName = "set_diff" ∧ c.operandList.length ≠ 1) ∨
  (c.cmdName = "uniq" ∧ c.operandList.length > 2) ∨
  (c.cmdName = "mv" ∧ ((count c "-t" = 0 ∧ c.operandList = []) ∨ count c "-t" ≥ 2)) ∨
  (c.cmdName = "wc" ∧ Has c "--files0-from")

/-- The commands that have an input-output generator. -/
def ioCommands : List String :=
  ["alt_bigrams_aux", "alt_bigram_aux_reduce", "awk", "bigrams_aux", "cat", "col", "comm", "custom_sort",
   "custom_tr", "cut", "diff", "grep", "head", "mkfifo", "mv", "rm", "sed", "set_diff", "seq", "sort", "tail",
   "tee", "test_one", "test_two", "tr", "uniq", "wc", "xargs"]

/-- A typed argument is a file of that access. -/
def HasAccess (a : AccessKind) : ArgWithIO → Prop
  | .io f => (match f with | .file _ b => b | .std _ b => b) = a
  | .argString _ => False

/-- A typed invocation writes somewhere other than its output streams: an option argument or an operand has
other-output access. -/
def WritesElsewhere (c : CommandInvocationWithIO) : Prop :=
  (∃ n arg, .option n arg ∈ c.flagOptionList ∧ HasAccess .otherOutput arg) ∨
  (∃ arg ∈ c.operandList, HasAccess .otherOutput arg)

/-- Standard input read implicitly. -/
def stdinStream : FileWithIO := .std .stdin .streamInput
/-- Standard output written implicitly. -/
def stdoutStream : FileWithIO := .std .stdout .streamOutput

/-- The annotation pipeline of the library: the input-output information for the invocation, applied to it,
gives `c`. -/
def Typed (inv : CommandInvocationInitial) (c : CommandInvocationWithIO) : Prop :=
  ∃ i, getInputOutputInfo inv = some i ∧ i.apply inv = .ok c

end PashAnn.Spec
