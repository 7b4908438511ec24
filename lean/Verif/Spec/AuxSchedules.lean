import Verif.Spec.Schedules

/-!
Specification vocabulary for C118: the commands that carry out a parallelizer with auxiliary pipes, and running them at the same
time. A command reads and writes operands: those that its access map declares to be inputs and outputs. Each of its outputs is
written on its own, whenever the inputs that have been seen already determine what comes next. Not described: pipes that hold
only so much, and commands that fail.
-/

namespace PashAnn.Spec

/-- The operands that have this access. -/
def operandsWith (c : CommandInvocationWithIOVars) (a : AccessKind) : List IOVar :=
  c.operandList.filterMap fun
    | .var v => if accessOf c v = some a then some v else none
    | _ => none

/-- What writes a variable: it reads variables, and their contents determine what is written. -/
structure Writer where
  var : IOVar
  reads : List IOVar
  content : List Stream → Stream

/-- A command as writers, one for each of its outputs. -/
def writersOf (prog : FilePrograms) (c : CommandInvocationWithIOVars) : List Writer :=
  (operandsWith c .streamOutput).mapIdx fun k v =>
    ⟨v, operandsWith c .streamInput, fun xs => ((prog c.cmdName xs)[k]?).getD []⟩

/-- One step: a piece of an input arrives, an input ends, a piece of an output is written, or an output ends. -/
inductive WriterStep (ws : List Writer) (given : List (IOVar × Stream)) (s : PipeState String) : PipeState String → Prop
  | arrive {v : IOVar} {x w : Stream} (h : (v, x) ∈ given) (ho : s.closed v = false) (hw : w ≠ [])
      (hx : s.written v ++ w <+: x) : WriterStep ws given s (s.append v w)
  | last {v : IOVar} {x : Stream} (h : (v, x) ∈ given) (ho : s.closed v = false) (hx : s.written v = x) :
      WriterStep ws given s (s.close v)
  | write {u : Writer} {w : Stream} (h : u ∈ ws) (ho : s.closed u.var = false) (hw : w ≠ [])
      (hx : ∀ env, Possible s u.reads env → s.written u.var ++ w <+: u.content (u.reads.map env)) :
      WriterStep ws given s (s.append u.var w)
  | stop {u : Writer} (h : u ∈ ws) (ho : s.closed u.var = false)
      (hx : ∀ env, Possible s u.reads env → s.written u.var = u.content (u.reads.map env)) :
      WriterStep ws given s (s.close u.var)

/-- Any number of steps, from the state in which nothing has been written. -/
inductive WriterRun (ws : List Writer) (given : List (IOVar × Stream)) : Nat → PipeState String → Prop
  | start : WriterRun ws given 0 ⟨fun _ => [], fun _ => false⟩
  | step {n : Nat} {s t : PipeState String} (hr : WriterRun ws given n s) (h : WriterStep ws given s t) :
      WriterRun ws given (n + 1) t

/-- The mappers for all parts: inputs, commands, and what each writes: the output and the auxiliary outputs. -/
inductive AuxWorkers (p : Parallelizer) (c : CommandInvocationWithIOVars) :
    List IOVar → List CommandInvocationWithIOVars → List (List IOVar) → Prop
  | none : AuxWorkers p c [] [] []
  | part {i o : IOVar} {aux ins : List IOVar} {m : CommandInvocationWithIOVars} {cmds : List CommandInvocationWithIOVars}
      {groups : List (List IOVar)} (h : p.getActualMapper c i o aux = .ok (some m)) (hl : AuxWorkers p c ins cmds groups) :
      AuxWorkers p c (i :: ins) (m :: cmds) ((o :: aux) :: groups)

/-- A tree of two-way aggregators with auxiliary pipes: what is recombined, commands, what they write, and the result. -/
inductive AuxTree (p : Parallelizer) : List (List IOVar) → List CommandInvocationWithIOVars → List IOVar → List IOVar → Prop
  | leaf (g : List IOVar) : AuxTree p [g] [] [] g
  | node {l r : List (List IOVar)} {cmds cmds' : List CommandInvocationWithIOVars} {made made' aux₁ aux₂ auxo : List IOVar}
      {i₁ i₂ o : IOVar} {agg : Aggregator} (hl : AuxTree p l cmds made (i₁ :: aux₁)) (hr : AuxTree p r cmds' made' (i₂ :: aux₂))
      (h : p.getActual2AryAggregatorWithAux i₁ aux₁ i₂ aux₂ o auxo = .ok agg) :
      AuxTree p (l ++ r) (cmds ++ cmds' ++ [agg.cmd]) (made ++ made' ++ o :: auxo) (o :: auxo)

/-- All commands that carry out a parallelizer with auxiliary pipes on the inputs `ins`. All variables differ. -/
structure AuxNetwork (p : Parallelizer) (c : CommandInvocationWithIOVars) (ins : List IOVar)
    (cmds : List CommandInvocationWithIOVars) (made outs : List IOVar) : Prop where
  commands : ∃ cw groups ct mt, AuxWorkers p c ins cw groups ∧ AuxTree p groups ct mt outs ∧ cmds = cw ++ ct ∧
    made = groups.flatten ++ mt
  distinct : (ins ++ made).Nodup

/-- The program with this name writes `m` outputs when it is given `k` inputs. -/
def WritesMany (prog : FilePrograms) (name : String) (k m : Nat) : Prop :=
  ∀ xs, xs.length = k → (prog name xs).length = m

end PashAnn.Spec
