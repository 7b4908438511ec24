import Verif.Spec.Runs

/-!
Programs whose output depends on the names of their inputs, for C109: `grep` can put the name of the input before every line
that it prints. When the program is run on a part of an input, it finds the part under another name, that of a pipe or a
temporary file.
-/

namespace PashAnn.Spec

/-- What programs do: the name, the flags and options, the operands that are no files, and the inputs in order, with the
names under which they are found, give the output. -/
abbrev NamedPrograms := String → List FlagOptionWithIOVar → List String → List (String × Stream) → Stream

/-- The output of an invocation when its variables hold the given streams, which are found under the given names. -/
def namedOutput (prog : NamedPrograms) (env : IOVar → String × Stream) (c : CommandInvocationWithIOVars) : Stream :=
  prog c.cmdName c.flagOptionList (strOperands c) ((withAccess c .streamInput).map env)

/-- A run of the actual mapper, with new variables, on a part that is found under a name. -/
def NamedMapperRun (prog : NamedPrograms) (p : Parallelizer) (c : CommandInvocationWithIOVars) (part : String × Stream)
    (out : Stream) : Prop :=
  ∃ i o m env, Unused c i ∧ Unused c o ∧ o ≠ i ∧ p.getActualMapper c i o [] = .ok (some m) ∧ env i = part ∧
    out = namedOutput prog env m

/-- Executing a parallelizer that concatenates: the mappers are run on the parts, and the actual aggregator on their
outputs, which are found under some names. -/
def NamedExecutes (prog : NamedPrograms) (p : Parallelizer) (c : CommandInvocationWithIOVars) (parts : List (String × Stream))
    (y : Stream) : Prop :=
  ∃ (runs : List ((String × Stream) × Stream)) (vars : List IOVar) (o : IOVar) (agg : Aggregator) (env : IOVar → String × Stream),
    parts = runs.map Prod.fst ∧ (∀ r ∈ runs, NamedMapperRun prog p c r.1 r.2) ∧ o ∉ vars ∧
    p.getActualAggregator c vars o = .ok (some agg) ∧ runs.map Prod.snd = vars.map (fun u => (env u).2) ∧
    y = namedOutput prog env agg.cmd

/-- `cat` concatenates its inputs, whatever their names are. -/
def NamedCat (prog : NamedPrograms) : Prop := ∀ ins, prog "cat" [] [] ins = (ins.map Prod.snd).flatten

/-- The options of `grep` with which it prints the matching lines or parts of them, each perhaps with a name. -/
def lineGrepNames : List String :=
  ["-E", "-F", "-G", "-P", "-i", "-y", "--no-ignore-case", "-v", "-w", "-x", "-o", "-s", "-h", "-H", "-a", "-U", "-e", "--color"]

/-- `grep` is asked to put the name of the input before every line: the last of `-H` and `-h` decides. -/
def ShowsNames (fl : List FlagOptionWithIOVar) : Prop :=
  ((fl.map FlagOptionWithIOVar.getName).filter fun n => decide (n ∈ ["-H", "-h"])).getLast? = some "-H"

instance (fl : List FlagOptionWithIOVar) : Decidable (ShowsNames fl) := by unfold ShowsNames; infer_instance

/-- `grep` with these options and one input prints something for every line, which may be nothing, with the name of the input
and a colon before everything that it prints if it is asked to. -/
def NamedGrep (prog : NamedPrograms) (shown : List FlagOptionWithIOVar → List String → String → List String) : Prop :=
  ∀ fl strs name x, (∀ f ∈ fl, f.getName ∈ lineGrepNames) → prog "grep" fl strs [(name, x)] =
    (x.flatMap (shown fl strs)).map fun l => if ShowsNames fl then name ++ ":" ++ l else l

end PashAnn.Spec
