import Verif.Model.Files

/-!
Model of /repo/setup.py: which files of a source tree are installed. What setuptools does with the arguments of `setup` is modelled after
its documentation: the modules of the listed packages (`build_py`), the modules in `py_modules` if they are there, and the files that match the patterns in
`package_data`. /repo/MANIFEST.in names a directory that is not there, so `include_package_data` adds nothing. Simplified: files are
copied in one step, a directory that may not be searched counts as missing, that the README is text is not checked, and a source tree in which a
file to be copied is a symbolic link, or a directory has the name of a module, is left open.
-/

namespace PashAnn.Setup
open PashAnn.Files (Node Entries)

/-- The directories of `packages` (setup.py:16-23). -/
def packages : List (List String) :=
  [["pash_annotations"],
   ["pash_annotations", "annotation_generation"],
   ["pash_annotations", "annotation_generation", "annotation_generators"],
   ["pash_annotations", "annotation_generation", "datatypes"],
   ["pash_annotations", "annotation_generation", "datatypes", "parallelizability"],
   ["pash_annotations", "config"],
   ["pash_annotations", "datatypes"],
   ["pash_annotations", "parser"]]

/-- The files of `py_modules` (setup.py:12-15), all in the directory `pash_annotations`. -/
def pyModules : List String := ["util_flag_option.py", "util_new.py", "util_standard.py", "annotation_cli.py"]

/-- The directory of the pattern in `package_data` (setup.py:24). -/
def dataDir : List String := ["pash_annotations", "parser", "command_flag_option_info", "data"]

/-- `glob` with the pattern `*` and an ending: names with this ending that do not begin with a dot. For setup.py:10-30. -/
def globbed (ending : String) (p : String) : Bool :=
  !(p.toList.head? == some '.') && ending.toList.isSuffixOf p.toList

/-- The directory at a path. For setup.py:10-30. -/
def dirAt : Entries → List String → Option Entries
  | es, [] => some es
  | es, p :: ps =>
    match es.lookup p with
    | some (.dir es') => dirAt es' ps
    | _ => none

/-- Copying a module. For setup.py:10-30. -/
def copyModule (dir : List String) (es : Entries) (p : String) : Py (List (List String × List UInt8)) :=
  match es.lookup p with
  | some (.file bytes) => .ok [(dir ++ [p], bytes)]
  | some .unreadable => .error (.osError "Permission denied")
  | none => .ok []
  | some _ => .error .outsideModel

/-- Copying a data file; `os.path.isfile` is asked first. For setup.py:10-30. -/
def copyData (dir : List String) (es : Entries) (p : String) : Py (List (List String × List UInt8)) :=
  match es.lookup p with
  | some (.file bytes) => .ok [(dir ++ [p], bytes)]
  | some .unreadable => .error (.osError "Permission denied")
  | some (.link _) => .error .outsideModel
  | _ => .ok []

/-- The names in a directory that match. For setup.py:10-30. -/
def names (ending : String) (es : Entries) : List String := (es.map Prod.fst).filter (globbed ending)

/-- The modules of a package. For setup.py:10-30. -/
def packageModules (src : Entries) (dir : List String) : Py (List (List String × List UInt8)) :=
  match dirAt src dir with
  | none => .error (.exception "package directory does not exist")
  | some es => do .ok (← (names ".py" es).mapM (copyModule dir es)).flatten

/-- `(Path(__file__).parent / "README.md").read_text()` (setup.py:5). -/
def readme (src : Entries) : Py Unit :=
  match src.lookup "README.md" with
  | some (.file _) => .ok ()
  | none => .error (.osError "No such file or directory")
  | some (.dir _) => .error (.osError "Is a directory")
  | some (.link _) => .error .outsideModel
  | _ => .error (.osError "Permission denied")

/-- `setup(...)` (setup.py:5-30): the installed files, below the directory for packages, with their contents. -/
def installed (src : Entries) : Py (List (List String × List UInt8)) := do
  readme src
  let modules ← packages.mapM (packageModules src)
  let es := (dirAt src ["pash_annotations"]).getD []
  let single ← pyModules.mapM (copyModule ["pash_annotations"] es)
  let des := (dirAt src dataDir).getD []
  let data ← (names ".json" des).mapM (copyData dataDir des)
  .ok (modules.flatten ++ single.flatten ++ data.flatten)

end PashAnn.Setup
