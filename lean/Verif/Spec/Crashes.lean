import Verif.Spec.Schedules

/-!
Specification vocabulary for C119: the commands of `Spec/Schedules.lean` at work, but any of them can be killed at any moment,
and an input can break off. What a killed command has written stays, and its readers see an end of their input there, as with
pipes. Not described: that the shell learns of the death by an exit status.
-/

namespace PashAnn.Spec

variable {α : Type}

/-- Any number of steps from the state in which nothing has been written: steps of the work, the death of a command that has not
stopped, or the early end of an input. The list has the variables whose writers were killed or that broke off. -/
inductive CrashRun (prog : ProgramsOn α) (cmds : List CommandInvocationWithIOVars) (given : List (IOVar × List α)) :
    List IOVar → PipeState α → Prop
  | start : CrashRun prog cmds given [] ⟨fun _ => [], fun _ => false⟩
  | works {dead : List IOVar} {s t : PipeState α} (hr : CrashRun prog cmds given dead s) (h : PipeStep prog cmds given s t) :
      CrashRun prog cmds given dead t
  | dies {dead : List IOVar} {s : PipeState α} {c : CommandInvocationWithIOVars} {v : IOVar} (hr : CrashRun prog cmds given dead s)
      (h : c ∈ cmds) (hv : withAccess c .streamOutput = [v]) (ho : s.closed v = false) :
      CrashRun prog cmds given (v :: dead) (s.close v)
  | breaks {dead : List IOVar} {s : PipeState α} {v : IOVar} {x : List α} (hr : CrashRun prog cmds given dead s)
      (h : (v, x) ∈ given) (ho : s.closed v = false) : CrashRun prog cmds given (v :: dead) (s.close v)

/-- Lists of which each is a beginning of the list at the same place. -/
inductive Beginnings : List (List α) → List (List α) → Prop
  | nil : Beginnings [] []
  | cons {w x : List α} {ws xs : List (List α)} (h : w <+: x) (hl : Beginnings ws xs) : Beginnings (w :: ws) (x :: xs)

end PashAnn.Spec
