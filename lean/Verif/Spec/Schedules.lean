import Verif.Spec.Pipelines

/-!
Specification vocabulary for C116: the commands that carry out the parallelizers of a pipeline, and running them at the same time.
Every variable is a pipe or file with one writer. A command can write whenever it likes what the inputs that it has seen already
determine, in pieces of any size; it can also stop when its whole output is determined. The inputs of the first commands arrive
in pieces. Which command does something next is not fixed. Not described: pipes that hold only so much, and commands that fail.
-/

namespace PashAnn.Spec

variable {α : Type}

/-- The mappers of the stages for one part, from the input `i` to the output `o`, with the variables that they write. -/
inductive ChainCommands : List Stage → IOVar → List CommandInvocationWithIOVars → List IOVar → IOVar → Prop
  | done (i : IOVar) : ChainCommands [] i [] [] i
  | stage {s : Stage} {l : List Stage} {i x o : IOVar} {m : CommandInvocationWithIOVars}
      {cmds : List CommandInvocationWithIOVars} {made : List IOVar} (h : s.plan.getActualMapper s.cmd i x [] = .ok (some m))
      (hl : ChainCommands l x cmds made o) : ChainCommands (s :: l) i (m :: cmds) (x :: made) o

/-- The mappers for all parts: inputs, commands, the variables that they write, and the outputs. -/
inductive WorkerCommands (l : List Stage) :
    List IOVar → List CommandInvocationWithIOVars → List IOVar → List IOVar → Prop
  | none : WorkerCommands l [] [] [] []
  | part {i x : IOVar} {ins made' made outs : List IOVar} {cmds' cmds : List CommandInvocationWithIOVars}
      (h : ChainCommands l i cmds' made' x) (hl : WorkerCommands l ins cmds made outs) :
      WorkerCommands l (i :: ins) (cmds' ++ cmds) (made' ++ made) (x :: outs)

/-- A tree of two-way aggregators over consecutive outputs. -/
inductive JoinCommands (p : Parallelizer) (c : CommandInvocationWithIOVars) :
    List IOVar → List CommandInvocationWithIOVars → List IOVar → IOVar → Prop
  | leaf (x : IOVar) : JoinCommands p c [x] [] [] x
  | node {l r made made' : List IOVar} {cmds cmds' : List CommandInvocationWithIOVars} {x y o : IOVar} {agg : Aggregator}
      (hl : JoinCommands p c l cmds made x) (hr : JoinCommands p c r cmds' made' y)
      (h : p.getActualAggregator c [x, y] o = .ok (some agg)) :
      JoinCommands p c (l ++ r) (cmds ++ cmds' ++ [agg.cmd]) (made ++ made' ++ [o]) o

/-- The commands that recombine the outputs: one concatenation or a tree. -/
inductive MergeCommands (p : Parallelizer) (c : CommandInvocationWithIOVars) :
    List IOVar → List CommandInvocationWithIOVars → List IOVar → IOVar → Prop
  | concatenate {outs : List IOVar} {o : IOVar} {agg : Aggregator} (hk : p.coreAggregatorSpec.kind = .concatenate)
      (h : p.getActualAggregator c outs o = .ok (some agg)) : MergeCommands p c outs [agg.cmd] [o] o
  | tree {outs made : List IOVar} {cmds : List CommandInvocationWithIOVars} {o : IOVar}
      (hk : p.coreAggregatorSpec.kind = .custom2Ary) (h : JoinCommands p c outs cmds made o) : MergeCommands p c outs cmds made o

/-- All commands that carry out a pipeline on the inputs `ins`: each part goes through the mappers of all stages, and the last
stage recombines the outputs into `o`. All variables are new and differ. -/
structure NetworkOf (l : List Stage) (last : Stage) (ins : List IOVar) (cmds : List CommandInvocationWithIOVars)
    (made : List IOVar) (o : IOVar) : Prop where
  commands : ∃ cw mw outs cm mm, WorkerCommands (l ++ [last]) ins cw mw outs ∧
    MergeCommands last.plan last.cmd outs cm mm o ∧ cmds = cw ++ cm ∧ made = mw ++ mm
  distinct : (ins ++ made).Nodup
  new : ∀ s ∈ l ++ [last], ∀ v ∈ ins ++ made, Unused s.cmd v

/-- What has been written to each variable so far, and whether its writer has stopped. -/
structure PipeState (α : Type) where
  written : IOVar → List α
  closed : IOVar → Bool

/-- More is written to a variable. -/
def PipeState.append (s : PipeState α) (v : IOVar) (w : List α) : PipeState α :=
  { s with written := fun u => if u = v then s.written u ++ w else s.written u }

/-- The writer of a variable stops. -/
def PipeState.close (s : PipeState α) (v : IOVar) : PipeState α :=
  { s with closed := fun u => if u = v then true else s.closed u }

/-- These can be the whole contents of the variables, as far as one can see. -/
def Possible (s : PipeState α) (vars : List IOVar) (env : IOVar → List α) : Prop :=
  ∀ v ∈ vars, s.written v <+: env v ∧ (s.closed v = true → env v = s.written v)

/-- One step: a piece of an input arrives, an input ends, a command writes a piece, or a command stops. -/
inductive PipeStep (prog : ProgramsOn α) (cmds : List CommandInvocationWithIOVars) (given : List (IOVar × List α))
    (s : PipeState α) : PipeState α → Prop
  | arrive {v : IOVar} {x w : List α} (h : (v, x) ∈ given) (ho : s.closed v = false) (hw : w ≠ [])
      (hx : s.written v ++ w <+: x) : PipeStep prog cmds given s (s.append v w)
  | last {v : IOVar} {x : List α} (h : (v, x) ∈ given) (ho : s.closed v = false) (hx : s.written v = x) :
      PipeStep prog cmds given s (s.close v)
  | write {c : CommandInvocationWithIOVars} {v : IOVar} {w : List α} (h : c ∈ cmds) (hv : withAccess c .streamOutput = [v])
      (ho : s.closed v = false) (hw : w ≠ [])
      (hx : ∀ env, Possible s (withAccess c .streamInput) env → s.written v ++ w <+: output prog env c) :
      PipeStep prog cmds given s (s.append v w)
  | stop {c : CommandInvocationWithIOVars} {v : IOVar} (h : c ∈ cmds) (hv : withAccess c .streamOutput = [v])
      (ho : s.closed v = false)
      (hx : ∀ env, Possible s (withAccess c .streamInput) env → s.written v = output prog env c) :
      PipeStep prog cmds given s (s.close v)

/-- Any number of steps, from the state in which nothing has been written. -/
inductive PipeRun (prog : ProgramsOn α) (cmds : List CommandInvocationWithIOVars) (given : List (IOVar × List α)) :
    Nat → PipeState α → Prop
  | start : PipeRun prog cmds given 0 ⟨fun _ => [], fun _ => false⟩
  | step {n : Nat} {s t : PipeState α} (hr : PipeRun prog cmds given n s) (h : PipeStep prog cmds given s t) :
      PipeRun prog cmds given (n + 1) t

/-- Nothing more can be done. -/
def NothingLeft (prog : ProgramsOn α) (cmds : List CommandInvocationWithIOVars) (given : List (IOVar × List α)) (s : PipeState α) : Prop :=
  ∀ t, ¬ PipeStep prog cmds given s t

end PashAnn.Spec
