import Verif.Model.Files
import Verif.Spec.Encodings
import Verif.Spec.DataFiles

/-!
Where paths lead, told by positions in the tree of a machine instead of by the directories on the way (`Model/Files.lean`).
-/

namespace PashAnn.Spec.Files
open PashAnn.Files (Node Entries FileErr Machine)

/-- What is at a position: the names of the directories on the way from the root and the name of the thing itself. -/
inductive At : Entries → List String → Node → Prop
  | root {es} : At es [] (.dir es)
  | here {es p node} : es.lookup p = some node → At es [p] node
  | inside {es p es' ps node} : es.lookup p = some (.dir es') → At es' ps node → At es (p :: ps) node

/-- A part of a path that is the name of something, and not too long for one. -/
def Name (nameMax : Nat) (p : String) : Prop := p ∉ ["", ".", ".."] ∧ p.utf8ByteSize ≤ nameMax

instance (nameMax : Nat) (p : String) : Decidable (Name nameMax p) := by unfold Name; infer_instance

/-- The parts of a path between slashes. -/
inductive Parts : List Char → List String → Prop
  | last {s : String} : '/' ∉ s.toList → Parts s.toList [s]
  | more {s : String} {l ps} : '/' ∉ s.toList → Parts l ps → Parts (s.toList ++ '/' :: l) (s :: ps)

/-- `Leads root nameMax n pos path n' pos' path'`: following the path from the position `pos` leads to the position `pos'` with the
path `path'` to go, if `n` symbolic links may be followed, and then `n'` may still be followed. -/
inductive Leads (root : Entries) (nameMax : Nat) : Nat → List String → List String → Nat → List String → List String → Prop
  | here {n pos path} : Leads root nameMax n pos path n pos path
  | stay {n pos p ps n' pos' path'} : p ∈ ["", "."] → Leads root nameMax n pos ps n' pos' path' →
      Leads root nameMax n pos (p :: ps) n' pos' path'
  | up {n pos ps n' pos' path'} : Leads root nameMax n pos.dropLast ps n' pos' path' →
      Leads root nameMax n pos (".." :: ps) n' pos' path'
  | down {n pos p ps n' pos' path' es} : Name nameMax p → At root (pos ++ [p]) (.dir es) →
      Leads root nameMax n (pos ++ [p]) ps n' pos' path' → Leads root nameMax n pos (p :: ps) n' pos' path'
  | relative {n pos p ps n' pos' path' target qs} : Name nameMax p → At root (pos ++ [p]) (.link target) →
      target.head? ≠ some '/' → Parts target qs → Leads root nameMax n pos (qs ++ ps) n' pos' path' →
      Leads root nameMax (n + 1) pos (p :: ps) n' pos' path'
  | absolute {n pos p ps n' pos' path' target qs} : Name nameMax p → At root (pos ++ [p]) (.link target) →
      target.head? = some '/' → Parts target qs → Leads root nameMax n [] (qs ++ ps) n' pos' path' →
      Leads root nameMax (n + 1) pos (p :: ps) n' pos' path'

/-- How opening a file ends where one cannot go on. -/
inductive Ends (root : Entries) (nameMax : Nat) : Nat → List String → List String → Except FileErr (List UInt8) → Prop
  | directory {n pos} : Ends root nameMax n pos [] (.error .isDirectory)
  | long {n pos p ps} : nameMax < p.utf8ByteSize → p ∉ ["", ".", ".."] → Ends root nameMax n pos (p :: ps) (.error .nameTooLong)
  | missing {n pos p ps} : Name nameMax p → (∀ node, ¬ At root (pos ++ [p]) node) →
      Ends root nameMax n pos (p :: ps) (.error .noEntry)
  | file {n pos p bytes} : Name nameMax p → At root (pos ++ [p]) (.file bytes) → Ends root nameMax n pos [p] (.ok bytes)
  | through {n pos p ps bytes} : Name nameMax p → At root (pos ++ [p]) (.file bytes) → ps ≠ [] →
      Ends root nameMax n pos (p :: ps) (.error .notDirectory)
  | unreadable {n pos p} : Name nameMax p → At root (pos ++ [p]) .unreadable → Ends root nameMax n pos [p] (.error .denied)
  | throughUnreadable {n pos p ps} : Name nameMax p → At root (pos ++ [p]) .unreadable → ps ≠ [] →
      Ends root nameMax n pos (p :: ps) (.error .notDirectory)
  | closed {n pos p ps} : Name nameMax p → At root (pos ++ [p]) .closed → Ends root nameMax n pos (p :: ps) (.error .denied)
  | links {pos p ps target} : Name nameMax p → At root (pos ++ [p]) (.link target) →
      Ends root nameMax 0 pos (p :: ps) (.error .tooManyLinks)

/-- The parts of the path of the data file for a command. -/
def DataPath (m : Machine) (name : String) (path : List String) : Prop :=
  ∃ qs, Parts (name.toList ++ ".json".toList) qs ∧
    path = m.package ++ (["command_flag_option_info", "data"] ++ qs.filter (· ≠ ""))

/-- The path is not too long: each part has a slash before it. -/
def Short (m : Machine) (path : List String) : Prop := (path.map fun p => p.utf8ByteSize + 1).sum < m.pathMax

instance (m : Machine) (path : List String) : Decidable (Short m path) := by unfold Short; infer_instance

/-- Opening the data file for a command has this result. -/
def Opens (m : Machine) (name : String) (r : Except FileErr (List UInt8)) : Prop :=
  ∃ path, DataPath m name path ∧
    ((Short m path ∧ ∃ n pos ps, Leads m.root m.nameMax m.linkMax [] path n pos ps ∧ Ends m.root m.nameMax n pos ps r) ∨
      (¬ Short m path ∧ r = .error .nameTooLong))

/-- The data directory of the library is at `pos` and has these entries. -/
def DataDirectory (m : Machine) (pos : List String) (es : Entries) : Prop :=
  (∃ n, Leads m.root m.nameMax m.linkMax [] (m.package ++ ["command_flag_option_info", "data"]) n pos []) ∧
    At m.root pos (.dir es)

/-- There are no symbolic links in or below a directory. -/
def NoLinks (es : Entries) : Prop := ∀ pos target, ¬ At es pos (.link target)

/-- A path that never goes above the directory where it starts, if it starts so many directories below. -/
def StaysBelow : Nat → List String → Prop
  | _, [] => True
  | d, p :: ps => if p ∈ ["", "."] then StaysBelow d ps else if p = ".." then 0 < d ∧ StaysBelow (d - 1) ps else StaysBelow (d + 1) ps

/-- The files of the library, with these texts in UTF-8, and nothing else. -/
def filesOf (texts : List (String × List Char)) : Entries := texts.map fun e => (e.1 ++ ".json", .file (Encodings.Encoding.utf8.encode e.2))

/-- The exceptions of Python for errors of `open` other than a missing file. -/
inductive Raised : FileErr → PyErr → Prop
  | notDirectory : Raised .notDirectory .notADirectoryError
  | isDirectory : Raised .isDirectory (.osError "Is a directory")
  | nameTooLong : Raised .nameTooLong (.osError "File name too long")
  | tooManyLinks : Raised .tooManyLinks (.osError "Too many levels of symbolic links")
  | denied : Raised .denied (.osError "Permission denied")

end PashAnn.Spec.Files
