import Verif.Model.JsonBytes

/-!
Finding data files on a machine: `get_json_data` with the directories, files and symbolic links of any machine on which the library
is installed anywhere, and with limits on the lengths of names and paths and on the number of links. What the operating system
does is modelled after path_resolution(7) and open(2) for Linux. Simplified: the root directory may be searched, a directory that may
not be searched may not be read either and conversely, and nothing changes while a file is looked for.
-/

namespace PashAnn.Files

/-- What a directory can contain: files, directories and symbolic links, and files and directories without permission to read and to
search them. Used by `pkgutil.get_data` (util_parser.py:9 and 12). -/
inductive Node where
  | unreadable
  | closed
  | file (bytes : List UInt8)
  | dir (entries : List (String × Node))
  | link (target : List Char)

/-- The entries of a directory by name, as `pkgutil.get_data` finds them (util_parser.py:9 and 12). -/
abbrev Entries := List (String × Node)

/-- Errors of `open` (ENOENT, ENOTDIR, EISDIR, ENAMETOOLONG, ELOOP, EACCES). Used by `pkgutil.get_data` (util_parser.py:9
and 12). -/
inductive FileErr where
  | noEntry | notDirectory | isDirectory | nameTooLong | tooManyLinks | denied
deriving DecidableEq, Repr

/-- A machine: the root directory, the parts of the path of the directory of util_parser.py (`os.path.dirname(mod.__file__)` in
`pkgutil.get_data`), and the limits of the operating system. -/
structure Machine where
  root : Entries
  package : List String
  nameMax : Nat
  pathMax : Nat
  linkMax : Nat

/-- One path after another link: `jump` goes on after a symbolic link, from the current directory or from the root. Used by
`pkgutil.get_data` (util_parser.py:9 and 12). -/
def openWith (nameMax : Nat) (jump : Bool → Entries → List Entries → List String → Except FileErr (List UInt8)) :
    Entries → List Entries → List String → Except FileErr (List UInt8)
  | _, _, [] => .error .isDirectory
  | cur, up, p :: ps =>
    if p = "" ∨ p = "." then openWith nameMax jump cur up ps
    else if p = ".." then openWith nameMax jump (up.headD cur) up.tail ps
    else if nameMax < p.utf8ByteSize then .error .nameTooLong
    else match cur.lookup p with
      | none => .error .noEntry
      | some .unreadable => if ps = [] then .error .denied else .error .notDirectory
      | some .closed => .error .denied
      | some (.file bytes) => if ps = [] then .ok bytes else .error .notDirectory
      | some (.dir entries) => openWith nameMax jump entries (cur :: up) ps
      | some (.link target) => jump (target.head? = some '/') cur up ((splitSlash target).map String.ofList ++ ps)

/-- Opening a file: `cur` is the current directory, `up` those above it, then the parts of a path; at most so many symbolic
links are followed. Used by `pkgutil.get_data` (util_parser.py:9 and 12). -/
def openFile (root : Entries) (nameMax : Nat) : Nat → Entries → List Entries → List String → Except FileErr (List UInt8)
  | 0 => openWith nameMax (fun _ _ _ _ => .error .tooManyLinks)
  | n + 1 => openWith nameMax (fun absolute cur up ps =>
      if absolute then openFile root nameMax n root [] ps else openFile root nameMax n cur up ps)

/-- `pkgutil.get_data(__name__, resource)` (util_parser.py:9 and 12): the parts of the resource after the directory of the package;
`os.path.join` drops empty ones. -/
def getData (m : Machine) (resource : List Char) : Except FileErr (List UInt8) :=
  let path := m.package ++ ((splitSlash resource).map String.ofList).filter (· ≠ "")
  if m.pathMax ≤ (path.map fun p => p.utf8ByteSize + 1).sum then .error .nameTooLong
  else openFile m.root m.nameMax m.linkMax m.root [] path

/-- The exceptions that `open` raises for these errors; a `FileNotFoundError` is always caught (util_parser.py:8-14). -/
def raised : FileErr → PyErr
  | .notDirectory => .notADirectoryError
  | .isDirectory => .osError "Is a directory"
  | .nameTooLong => .osError "File name too long"
  | .tooManyLinks => .osError "Too many levels of symbolic links"
  | .denied => .osError "Permission denied"
  | .noEntry => .osError "No such file or directory"

/-- `'command_flag_option_info/data/' + f'{cmd_name}.json'` (util_parser.py:6 and 9). -/
def resourceOf (name : List Char) : List Char := "command_flag_option_info/data/".toList ++ (name ++ ".json".toList)

/-- `get_json_data` (util_parser.py:5-16). -/
def getJson (m : Machine) (name : String) : Py Json :=
  if name.toList.contains (Char.ofNat 0) then .error (.valueError "embedded null byte")
  else match getData m (resourceOf name.toList) with
    | .ok bytes => Bytes.loads bytes
    | .error .noEntry =>
      match getData m (resourceOf "_default_data_for_commands".toList) with
      | .ok bytes => Bytes.loads bytes
      | .error .noEntry => .error (.exception "json-File for default values not found.")
      | .error e => .error (raised e)
    | .error e => .error (raised e)

/-- `parse` (parser.py:9-56). -/
def parse (m : Machine) (command : String) : Py DataFiles.AnyInvocation := do
  match ← Shlex.split command with
  | [] => .error .indexError
  | name :: ws => do
    let j ← getJson m name
    let r ← DataFiles.readWords j ws
    .ok ⟨name, r.1, r.2⟩

/-- The constructor of the generators (InputOutputInfoGenerator_Interface.py:26-35, 45-61). -/
def initialInfo (m : Machine) (c : CommandInvocationInitial) : Py InputOutputInfo := do
  let j ← getJson m c.cmdName
  let dict ← DataFiles.dictOptionToClassForArg j
  let typers ← c.flagOptionList.mapM (DataFiles.typerOf dict)
  .ok (InputOutputInfo.init typers c.operandList.length)

end PashAnn.Files
