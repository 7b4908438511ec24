import Verif.Spec.Names
import Verif.Spec.LastLine

/-!
Commands that read several inputs, for C115. No mapper can be made from such an invocation (C108). A caller puts a `cat` before
the command, made by `make_cat_command_invocation_with_io_vars`, takes the inputs out of the invocation with
`remove_streaming_inputs`, and lets the command read the output of `cat`.
-/

namespace PashAnn.Spec

/-- A proper invocation with any number of streaming inputs and one streaming output, which is its standard output, and
without files in `OptionWithIO` objects. -/
structure ManyStreams (c : CommandInvocationWithIOVars) : Prop where
  described : Described c
  distinct : (occurrences c).Nodup
  out : ∃ o, withAccess c .streamOutput = [o] ∧ c.implicitOutput = some o
  options : ∀ n v, FlagOptionWithIOVar.optionIO n (.var v) ∉ c.flagOptionList
  implicit : ∀ i, c.implicitInput = some i → accessOf c i = some .streamInput

/-- What the caller makes of the invocation: its streaming inputs are removed, and it reads the new variable instead. -/
def readsInstead (c : CommandInvocationWithIOVars) (new : IOVar) : Py CommandInvocationWithIOVars := do
  let c' ← c.removeStreamingInputs
  .ok { c' with implicitInput := some new, accessMap := AccessMap.set c'.accessMap new .streamInput }

/-- The `cat` that the caller puts before it. -/
def catBefore (c : CommandInvocationWithIOVars) (new : IOVar) : CommandInvocationWithIOVars :=
  CommandInvocationWithIOVars.makeCat (withAccess c .streamInput) new

/-- The command does to its inputs what it does to one input that holds all of them, one after another. -/
def OneAfterAnother {α : Type} (prog : ProgramsOn α) (c : CommandInvocationWithIOVars) : Prop :=
  ∀ xs, xs.length = (withAccess c .streamInput).length →
    prog c.cmdName c.flagOptionList (strOperands c) xs = prog c.cmdName c.flagOptionList (strOperands c) [xs.flatten]

/-- `grep` puts names before lines: it is asked to, or it has several inputs and is not asked about names. -/
def NamesLines (fl : List FlagOptionWithIOVar) (inputs : Nat) : Prop :=
  ShowsNames fl ∨ 2 ≤ inputs ∧ ∀ f ∈ fl, f.getName ∉ ["-H", "-h"]

instance (fl : List FlagOptionWithIOVar) (n : Nat) : Decidable (NamesLines fl n) := by unfold NamesLines; infer_instance

/-- `grep` with any number of inputs prints something for every line, which may be nothing, input after input, with the name
of the input and a colon before everything that it prints if it is asked to, or has several inputs and is not asked. -/
def NamedGrepAll (prog : NamedPrograms) (shown : List FlagOptionWithIOVar → List String → String → List String) : Prop :=
  ∀ fl strs ins, (∀ f ∈ fl, f.getName ∈ lineGrepNames) → prog "grep" fl strs ins =
    ins.flatMap fun i => (i.2.flatMap (shown fl strs)).map fun l => if NamesLines fl ins.length then i.1 ++ ":" ++ l else l

/-- The operands of the invocation: first the pattern or script, if it is an operand, then the files that are read. -/
structure TextsThenFiles (inv : CommandInvocationInitial) (texts fs : List String) : Prop where
  operands : inv.operandList = texts ++ fs
  option : inv.cmdName ∉ ["grep", "sed"] ∨ Has inv "-e" ∨ Has inv "-f" → texts = []
  operand : inv.cmdName ∈ ["grep", "sed"] ∧ ¬ (Has inv "-e" ∨ Has inv "-f") → ∃ text, texts = [text]

end PashAnn.Spec
