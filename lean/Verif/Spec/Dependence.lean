import Verif.Spec.Programs
import Verif.Spec.IOTable
import Verif.Spec.ParTable

/-!
What annotations depend on (C86), and requests for a help or version text (C85).
-/

namespace PashAnn.Spec

/-- The flags and options on which the plans for a command depend. -/
def consulted : List (String × List String) :=
  [("sort", sortStops), ("custom_sort", sortStops),
   ("grep", ["-q", "-A", "-B", "-C", "-m", "-L", "-l", "-c", "-n", "-b"]),
   ("tr", ["-d", "-s", "-c"]),
   ("uniq", ["-d", "-D", "--all-repeated", "-c"])]

/-- The two invocations have the same name and operands, and agree on which of the flags and options are present on
which the plans depend. -/
def SameForPlans (inv inv' : CommandInvocationInitial) : Prop :=
  inv'.cmdName = inv.cmdName ∧ inv'.operandList = inv.operandList ∧
    ∀ ns, (inv.cmdName, ns) ∈ consulted → ∀ n ∈ ns, Has inv n ↔ Has inv' n

/-- The requests for a help or version text, in the spellings that the parser leaves in an invocation. -/
def helpNames : List (String × List String) :=
  [("grep", ["--help", "-V"]), ("sort", ["--help", "--version"]), ("uniq", ["--help", "--version"]),
   ("cut", ["--help", "--version"]), ("sed", ["--help", "--version"]), ("xargs", ["--help", "--version"]),
   ("tr", ["--help", "--version"]), ("col", ["-H", "-V"])]

/-- The flags contain a request for a help or version text. -/
def AsksHelp (cmd : String) (names : List String) : Prop := ∃ q ∈ helpNames, q.1 = cmd ∧ ∃ n ∈ q.2, n ∈ names

instance (cmd : String) (names : List String) : Decidable (AsksHelp cmd names) := by unfold AsksHelp; infer_instance

/-- Asked for its help or version text, a program prints a text of at least two elements, whatever its input is. -/
def PrintsHelp {α : Type} (prog : ProgramsOn α) (text : String → List FlagOptionWithIOVar → List α) : Prop :=
  ∀ cmd fl strs ins, AsksHelp cmd (fl.map (·.getName)) → prog cmd fl strs ins = text cmd fl ∧ 2 ≤ (text cmd fl).length

/-- Merging keeps all lines. -/
def MergeKeepsLines (prog : Programs) : Prop :=
  ∀ fl ins, Given fl "-m" → ¬ (∃ n ∈ ["-c", "-C", "-u", "-z"], Given fl n) → Covered "sort" fl →
    (prog "sort" fl [] ins).length = ins.flatten.length

/-- The flags and options that the parser can leave in an invocation of these programs and that their specifications do
not cover (`coveredNames`). -/
def uncoveredNames : List (String × List String) :=
  [("grep", ["--help", "-V", "-H", "-Z", "-r", "-R", "--exclude", "--exclude-from", "--exclude-dir", "--include"]),
   ("sort", ["--help", "--version", "--debug", "--random-source", "--files0-from", "-o"]),
   ("uniq", ["--help", "--version", "-"]),
   ("cut", ["--help", "--version", "-M"]),
   ("sed", ["--help", "--version", "--debug", "-f", "--in-place"]),
   ("xargs", ["--help", "--version", "-p", "--process-slot-var", "-s", "--show-limits", "-P"]),
   ("tr", ["--help", "--version", "-C"])]

end PashAnn.Spec
