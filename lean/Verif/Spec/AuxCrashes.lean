import Verif.Spec.AuxSchedules

/-!
Specification vocabulary for C120: the commands of `Spec/AuxSchedules.lean` at work, but any of them can be killed at any moment,
and an input can break off. What a killed command has written stays, and the readers of all its outputs see an end of their input
there, as with pipes.
-/

namespace PashAnn.Spec

/-- The writer of several variables ends. -/
def closeAll (s : PipeState String) (vars : List IOVar) : PipeState String :=
  { s with closed := fun u => decide (u ∈ vars) || s.closed u }

/-- Any number of steps from the state in which nothing has been written: steps of the work, the death of a command that has not
finished, which ends all its outputs, or the early end of an input. The lists have the commands that were killed and the inputs
that broke off. -/
inductive AuxCrashRun (prog : FilePrograms) (cmds : List CommandInvocationWithIOVars) (given : List (IOVar × Stream)) :
    List CommandInvocationWithIOVars → List IOVar → PipeState String → Prop
  | start : AuxCrashRun prog cmds given [] [] ⟨fun _ => [], fun _ => false⟩
  | works {killed : List CommandInvocationWithIOVars} {broken : List IOVar} {s t : PipeState String}
      (hr : AuxCrashRun prog cmds given killed broken s) (h : WriterStep (cmds.flatMap (writersOf prog)) given s t) :
      AuxCrashRun prog cmds given killed broken t
  | dies {killed : List CommandInvocationWithIOVars} {broken : List IOVar} {s : PipeState String}
      {c : CommandInvocationWithIOVars} (hr : AuxCrashRun prog cmds given killed broken s) (h : c ∈ cmds)
      (ho : ∃ v ∈ operandsWith c .streamOutput, s.closed v = false) :
      AuxCrashRun prog cmds given (c :: killed) broken (closeAll s (operandsWith c .streamOutput))
  | breaks {killed : List CommandInvocationWithIOVars} {broken : List IOVar} {s : PipeState String} {v : IOVar} {x : Stream}
      (hr : AuxCrashRun prog cmds given killed broken s) (h : (v, x) ∈ given) (ho : s.closed v = false) :
      AuxCrashRun prog cmds given killed (v :: broken) (s.close v)

/-- What is left of what `bigram_aux_map` writes for a part: of the bigrams, the first line and the last line. -/
structure Remainder where
  out : Stream
  first : Stream
  last : Stream

/-- What can be left for a part: beginnings of what is written for a beginning of the part. -/
def Remains (part : Stream) (r : Remainder) : Prop :=
  ∃ b, b <+: part ∧ r.out <+: bigrams b ∧ r.first <+: b.take 1 ∧ r.last <+: b.getLast?.toList

/-- What can be left for each of the parts. -/
inductive RemainsAll : List Stream → List Remainder → Prop
  | nil : RemainsAll [] []
  | cons {part : Stream} {parts : List Stream} {r : Remainder} {rs : List Remainder} (h : Remains part r) (hl : RemainsAll parts rs) :
      RemainsAll (part :: parts) (r :: rs)

/-- What is left, with a line between neighbours from the last line of the one and the first line of the other. -/
def glued : List Remainder → Stream
  | [] => []
  | [r] => r.out
  | r :: r' :: rs => r.out ++ pasteLines r.last r'.first ++ glued (r' :: rs)

end PashAnn.Spec
