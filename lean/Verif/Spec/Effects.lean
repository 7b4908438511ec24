import Verif.Spec.Manual
import Verif.Spec.IOTable

/-!
Which files a plainly written command line reads, creates, changes or removes, and when it reads standard input, as the
manuals say; and which files a typed invocation announces. What depends on a script (commands in a `sed` or `awk`
program, the command run by `xargs`) or on the contents of directories and of lists of files is not covered.
Command lines are given as in `ReadByManual`: options as they are spelled, and operands.
-/

namespace PashAnn.Spec

/-- A plainly written command line of a program with a manual, without the spellings that are known to be misread: those
listed in `Spec/Manual.lean` as exceptions, the spelling `--regexp` of `grep`, and for `uniq` the operands that C10
excludes. -/
structure PlainLine (name : String) (ws : List String) (fs : List FlagOption) (ops : List String) : Prop where
  read : ∃ page, (name, page) ∈ manuals ∧ ReadByManual page ws fs ops
  known : ∀ f ∈ fs, ¬ Exceptional name f.getName ∧ ¬ (name = "grep" ∧ f.getName = "--regexp")
  uniq : name = "uniq" → ∀ w ∈ ops.head?, w ∉ ["-", "f", "s", "w"]

/-- One of these spellings occurs. -/
def OneOf (fs : List FlagOption) (l : List String) : Prop := ∃ f ∈ fs, f.getName ∈ l

instance (fs : List FlagOption) (l : List String) : Decidable (OneOf fs l) := by unfold OneOf; infer_instance

/-- Options whose argument is a file that is read. -/
def readOptions : List (String × List String) :=
  [("awk", ["-f", "--file", "-E", "--exec", "-i", "--include"]),
   ("diff", ["-X", "--exclude-from", "--from-file", "--to-file"]),
   ("grep", ["-f", "--file", "--exclude-from"]), ("sed", ["-f", "--file"]),
   ("sort", ["--files0-from", "--random-source"]), ("wc", ["--files0-from"]), ("xargs", ["-a", "--arg-file"])]

/-- Options whose argument is a file that is written, or a directory in which files are written. -/
def writeOptions : List (String × List String) :=
  [("mv", ["-t", "--target-directory"]), ("sort", ["-o", "--output", "-T", "--temporary-directory"])]

/-- Spellings of the options that hold the program, so that no operand does. -/
def programOptions : List (String × List String) :=
  [("awk", ["-f", "--file", "-e", "--source", "-E", "--exec"]), ("grep", ["-e", "--regexp", "-f", "--file"]),
   ("sed", ["-e", "--expression", "-f", "--file"])]

/-- The operands of a command with a program that are not the program. -/
def afterProgram (name : String) (fs : List FlagOption) (ops : List String) : List String :=
  if ∃ p ∈ programOptions, p.1 = name ∧ OneOf fs p.2 then ops else ops.drop 1

/-- The operands that name files that are read. An operand of `awk` with an equals sign is an assignment. -/
def readOperands (name : String) (fs : List FlagOption) (ops : List String) : List String :=
  if name ∈ ["cat", "comm", "cut", "diff", "head", "sort", "tail", "wc"] then ops
  else if name ∈ ["grep", "sed"] then afterProgram name fs ops
  else if name = "awk" then (afterProgram name fs ops).filter fun o => '=' ∉ o.toList
  else if name = "uniq" then ops.take 1
  else if name = "mv" then if OneOf fs ["-t", "--target-directory"] then ops else ops.dropLast
  else []

/-- The operands that name files that are created, changed or removed. `mv` removes its sources. -/
def writtenOperands (name : String) (fs : List FlagOption) (ops : List String) : List String :=
  if name ∈ ["tee", "rm", "mkfifo", "mv"] then ops
  else if name = "uniq" then ops.drop 1
  else if name = "sed" then if OneOf fs ["-i", "--in-place"] then afterProgram name fs ops else []
  else []

/-- The command reads the file. -/
def ManualReads (name : String) (fs : List FlagOption) (ops : List String) (f : String) : Prop :=
  (∃ w, .option w f ∈ fs ∧ InList readOptions name w) ∨ f ∈ readOperands name fs ops

/-- The command creates, changes or removes the file. The last two are the files that `awk` writes when asked for the
values of its variables and for a pretty-printed program or a profile. -/
def ManualWrites (name : String) (fs : List FlagOption) (ops : List String) (f : String) : Prop :=
  (∃ w, .option w f ∈ fs ∧ InList writeOptions name w) ∨ f ∈ writtenOperands name fs ops ∨
  name = "awk" ∧ f = "awkvars.out" ∧ OneOf fs ["-d", "--dump-variables"] ∨
  name = "awk" ∧ f = "awkprof.out" ∧ OneOf fs ["-o", "--pretty-print", "-p", "--profile"]

/-- The command reads standard input, because nothing else is named, because a dash is, or always. -/
def ManualReadsStdin (name : String) (fs : List FlagOption) (ops : List String) : Prop :=
  (name ∈ ["cat", "cut", "head", "tail", "uniq"] ∧ ops = []) ∨
  (name ∈ ["sort", "wc"] ∧ ops = [] ∧ ¬ OneOf fs ["--files0-from"]) ∨
  (name ∈ ["grep", "sed", "awk"] ∧ readOperands name fs ops = [] ∧
    ¬ (name = "grep" ∧ OneOf fs ["-r", "--recursive", "-R", "--dereference-recursive"])) ∨
  name ∈ ["tr", "tee", "col"] ∨ (name = "xargs" ∧ ¬ OneOf fs ["-a", "--arg-file"]) ∨
  "-" ∈ readOperands name fs ops ∧ name ≠ "mv" ∨
  (∃ w, .option w "-" ∈ fs ∧ InList readOptions name w)

/-- The command writes to standard output: its result, or what it says it does. -/
def ManualWritesStdout (name : String) (fs : List FlagOption) (ops : List String) : Prop :=
  name ∈ ["awk", "cat", "col", "comm", "cut", "diff", "head", "sed", "seq", "tail", "tee", "tr", "wc", "xargs"] ∨
  (name = "grep" ∧ ¬ OneOf fs ["-q", "--quiet", "--silent"]) ∨
  (name = "sort" ∧ ¬ OneOf fs ["-o", "--output"]) ∨
  (name = "uniq" ∧ ops.length < 2) ∨
  (name ∈ ["mv", "rm"] ∧ OneOf fs ["-v", "--verbose"]) ∨ OneOf fs ["--help", "--version"]

/-- The typed invocation mentions that file or stream. -/
def Mentions (c : CommandInvocationWithIO) (x : FileWithIO) : Prop :=
  .io x ∈ c.operandList ∨ (∃ n, .option n (.io x) ∈ c.flagOptionList) ∨ c.implicitInput = some x ∨
    c.implicitOutput = some x

/-- The file is announced as an input. -/
def AnnouncedInput (c : CommandInvocationWithIO) (f : String) : Prop :=
  ∃ a, Mentions c (.file f a) ∧ a ∉ [AccessKind.streamOutput, .otherOutput]

/-- The file is announced as an output. -/
def AnnouncedOutput (c : CommandInvocationWithIO) (f : String) : Prop :=
  ∃ a, Mentions c (.file f a) ∧ a ∈ [AccessKind.streamOutput, .otherOutput]

/-- Standard input is announced. -/
def AnnouncedStdin (c : CommandInvocationWithIO) : Prop := ∃ a, Mentions c (.std .stdin a)

/-- Standard output is announced. -/
def AnnouncedStdout (c : CommandInvocationWithIO) : Prop := ∃ a, Mentions c (.std .stdout a)

end PashAnn.Spec
