import Verif.Spec.Names

/-!
Exit statuses, for C112: a program gives an output and a status, 0 for success. The status of a plan that is carried out is the status
of its aggregator, which is the last program of the pipeline; those of the mappers are lost.
-/

namespace PashAnn.Spec

/-- What programs do: the name, the flags and options, the operands that are no files, and the contents of the inputs in order
give the output and the exit status. -/
abbrev StatusPrograms := String → List FlagOptionWithIOVar → List String → List Stream → Stream × Nat

/-- The output and status of an invocation when its variables hold the given streams. -/
def statusOutput (prog : StatusPrograms) (env : IOVar → Stream) (c : CommandInvocationWithIOVars) : Stream × Nat :=
  prog c.cmdName c.flagOptionList (strOperands c) ((withAccess c .streamInput).map env)

/-- The same programs without their statuses. -/
def withoutStatus (prog : StatusPrograms) : Programs := fun n fl strs ins => (prog n fl strs ins).1

/-- Executing a parallelizer that concatenates: the mappers are run on the parts, and the actual aggregator on their outputs. The
output and the status are those of the aggregator. -/
def StatusExecutes (prog : StatusPrograms) (p : Parallelizer) (c : CommandInvocationWithIOVars) (parts : List Stream)
    (y : Stream × Nat) : Prop :=
  ∃ (runs : List (Stream × Stream)) (vars : List IOVar) (o : IOVar) (agg : Aggregator) (env : IOVar → Stream),
    parts = runs.map Prod.fst ∧ (∀ r ∈ runs, MapperRun (withoutStatus prog) p c r.1 r.2) ∧ o ∉ vars ∧
    p.getActualAggregator c vars o = .ok (some agg) ∧ runs.map Prod.snd = vars.map env ∧ y = statusOutput prog env agg.cmd

/-- A run of the actual mapper, with new variables, on a part: its output and status. -/
def StatusRun (prog : StatusPrograms) (p : Parallelizer) (c : CommandInvocationWithIOVars) (part : Stream) (out : Stream × Nat) : Prop :=
  ∃ i o m env, Unused c i ∧ Unused c o ∧ o ≠ i ∧ p.getActualMapper c i o [] = .ok (some m) ∧ env i = part ∧
    out = statusOutput prog env m

/-- Recombination by a binary tree of actual two-way aggregators: the status is the one of the last aggregator, or of the mapper if
there is only one part. -/
inductive StatusJoined (prog : StatusPrograms) (p : Parallelizer) (c : CommandInvocationWithIOVars) :
    List (Stream × Nat) → Stream × Nat → Prop
  | leaf (s : Stream × Nat) : StatusJoined prog p c [s] s
  | node {l r : List (Stream × Nat)} {a b : Stream × Nat} {x y o : IOVar} {agg : Aggregator} {env : IOVar → Stream}
      (hl : StatusJoined prog p c l a) (hr : StatusJoined prog p c r b) (hx : Unused c x) (hy : Unused c y) (ho : Unused c o)
      (hxy : x ≠ y ∧ o ≠ x ∧ o ≠ y) (h : p.getActualAggregator c [x, y] o = .ok (some agg))
      (ha : env x = a.1) (hb : env y = b.1) : StatusJoined prog p c (l ++ r) (statusOutput prog env agg.cmd)

/-- Executing a parallelizer that merges. -/
def StatusMerges (prog : StatusPrograms) (p : Parallelizer) (c : CommandInvocationWithIOVars) (parts : List Stream)
    (y : Stream × Nat) : Prop :=
  ∃ runs : List (Stream × (Stream × Nat)), parts = runs.map Prod.fst ∧ (∀ r ∈ runs, StatusRun prog p c r.1 r.2) ∧
    StatusJoined prog p c (runs.map Prod.snd) y

/-- `sort` succeeds, unless it is asked whether the input is sorted. -/
def StatusSort (prog : StatusPrograms) : Prop :=
  ∀ fl strs ins, (∀ f ∈ fl, f.getName ∉ ["-c", "-C"]) → (prog "sort" fl strs ins).2 = 0

/-- `cat` concatenates its inputs and succeeds. -/
def StatusCat (prog : StatusPrograms) : Prop := ∀ ins, prog "cat" [] [] ins = (ins.flatten, 0)

/-- `grep` with options that only choose what is printed for a line prints what there is to print for every line that matches, and
succeeds exactly if a line matches; otherwise its status is 1. -/
def StatusGrep (prog : StatusPrograms) (matching : List FlagOptionWithIOVar → List String → String → Bool)
    (shown : List FlagOptionWithIOVar → List String → String → List String) : Prop :=
  ∀ fl strs x, (∀ f ∈ fl, f.getName ∈ lineGrepNames) → prog "grep" fl strs [x] =
    ((x.filter (matching fl strs)).flatMap (shown fl strs), if x.any (matching fl strs) then 0 else 1)

end PashAnn.Spec
