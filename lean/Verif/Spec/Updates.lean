import Verif.Spec.Files

/-!
An update of data files: they are exchanged one after the other.
-/

namespace PashAnn.Spec.Updates
open PashAnn.Files (Machine)
open PashAnn.Spec.Files (Opens)

/-- Opening the data file for a command has the same result on both machines. -/
def SameFile (m m' : Machine) (name : String) : Prop := ∀ r, Opens m name r ↔ Opens m' name r

/-- A moment of an update: the data file for the command and the default file are each the old one or the new one. -/
def DuringUpdate (old new m : Machine) (name : String) : Prop :=
  ∀ n ∈ [name, "_default_data_for_commands"], SameFile m old n ∨ SameFile m new n

/-- There is no data file for the command. -/
def Absent (m : Machine) (name : String) : Prop := Opens m name (.error .noEntry)

end PashAnn.Spec.Updates
