import Verif.Model.CliSteps

/-! Specification vocabulary for C96: runs of the script that are stopped, or run at the same time. -/

namespace PashAnn.Spec
open Cli

/-- A run at its beginning. -/
def beginRun (a : Arguments) : Process := ⟨a, .start, []⟩

/-- A step: some run advances. A run that is stopped does not advance any more. -/
inductive RunStep (text : Report → String) : Files × List Process → Files × List Process → Prop
  | step {fs fs' : Files} {ps : List Process} {p p' : Process} (i : Nat) : ps[i]? = some p → Advance text (fs, p) (fs', p') →
      RunStep text (fs, ps) (fs', ps.set i p')

/-- Any number of steps. -/
inductive RunSteps (text : Report → String) : Files × List Process → Files × List Process → Prop
  | refl {s} : RunSteps text s s
  | step {s t u} : RunStep text s t → RunSteps text t u → RunSteps text s u

end PashAnn.Spec
