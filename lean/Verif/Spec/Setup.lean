import Verif.Model.Setup
import Verif.Spec.Files

/-! Specification for C106: which files an installation should have, and what an installed library is. -/

namespace PashAnn.Spec.Setup
open PashAnn.Files (Node Entries Machine)
open PashAnn.Spec.Files

/-- The directories whose modules belong to the library. -/
def packageDirs : List (List String) :=
  [["pash_annotations"], ["pash_annotations", "annotation_generation"],
   ["pash_annotations", "annotation_generation", "annotation_generators"],
   ["pash_annotations", "annotation_generation", "datatypes"],
   ["pash_annotations", "annotation_generation", "datatypes", "parallelizability"],
   ["pash_annotations", "config"], ["pash_annotations", "datatypes"], ["pash_annotations", "parser"]]

/-- The directory of the data files. -/
def dataFiles : List String := ["pash_annotations", "parser", "command_flag_option_info", "data"]

/-- The name has the ending and something before it that does not begin with a dot. -/
def Ending (ending p : String) : Prop := ∃ c base, p = String.ofList (c :: base) ++ ending ∧ c ≠ '.'

/-- The file is to be installed: it is a module in one of the directories, or a data file in theirs. -/
def ToInstall (src : Entries) (path : List String) (bytes : List UInt8) : Prop :=
  At src path (.file bytes) ∧ ∃ dir p, path = dir ++ [p] ∧
    ((dir ∈ packageDirs ∧ Ending ".py" p) ∨ (dir = dataFiles ∧ Ending ".json" p))

/-- The source tree can be installed: there is a README, the directories are there, the modules in them can be read, and no data
file is unreadable or a symbolic link. -/
def Installable (src : Entries) : Prop :=
  (∃ bytes, At src ["README.md"] (.file bytes)) ∧
  (∀ dir ∈ packageDirs, ∃ es, At src dir (.dir es)) ∧
  (∀ dir ∈ packageDirs, ∀ p node, Ending ".py" p → At src (dir ++ [p]) node → ∃ bytes, node = .file bytes) ∧
  ∀ p, Ending ".json" p → ¬ At src (dataFiles ++ [p]) .unreadable ∧ ∀ target, ¬ At src (dataFiles ++ [p]) (.link target)

/-- The data directory of the library on this machine is the one of a source tree. -/
def FromSource (m : Machine) (src : Entries) : Prop :=
  ∃ pos es, DataDirectory m pos es ∧ At src dataFiles (.dir es)

/-- The data directory of the library on this machine has exactly the files that were installed there. -/
def FromInstallation (m : Machine) (files : List (List String × List UInt8)) : Prop :=
  ∃ pos es, DataDirectory m pos es ∧
    ∀ p node, es.lookup p = some node ↔ ∃ bytes, node = .file bytes ∧ (dataFiles ++ [p], bytes) ∈ files

/-- A name of a command whose data file is not hidden and not in another directory. -/
def Plain (name : String) : Prop := '/' ∉ name.toList ∧ ∃ c base, name.toList = c :: base ∧ c ≠ '.'

/-- There is no directory in place of the data file of the command. -/
def NoDirectory (src : Entries) (name : String) : Prop :=
  ¬ At src (dataFiles ++ [name ++ ".json"]) .closed ∧ ∀ es, ¬ At src (dataFiles ++ [name ++ ".json"]) (.dir es)

/-- The paths to the data files of these commands are not too long. -/
def ShortPaths (m : Machine) (commands : List String) : Prop := ∀ x ∈ commands, ∀ path, DataPath m x path → Short m path

end PashAnn.Spec.Setup
