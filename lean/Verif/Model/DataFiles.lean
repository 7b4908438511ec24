import Verif.Model.IOInfo
import Verif.Model.Shlex

/-!
Model of how the data files are read whatever they contain: /repo/pash_annotations/parser/util_parser.py:5-16,
/repo/pash_annotations/parser/parser.py:9-56, 70-102, 118-121 and
InputOutputInfoGenerator_Interface.py:45-86, on the values that `json.loads` returns and for any directory of data
files. `Model/Parser.lean` and `Model/IOInfo.lean` model the same functions for the files that are shipped.
-/

namespace PashAnn

/-- What `json.loads` returns. A number is only kept as a text: in the code it matters only that it is hashable and differs
from every string. An object is a dictionary: its items, each key once (util_parser.py:15). -/
inductive Json where
  | null
  | bool (b : Bool)
  | num (text : String)
  | str (s : String)
  | arr (l : List Json)
  | obj (l : List (String × Json))
deriving Repr

namespace Json

/-- `j[key]` for a string. Used in parser.py:74-102 and InputOutputInfoGenerator_Interface.py:68-73. -/
def item (j : Json) (key : String) : Py Json :=
  match j with
  | obj l => match l.lookup key with
    | some v => .ok v
    | none => .error .keyError
  | _ => .error .typeError

/-- `for x in j`: the elements of a list, the characters of a string, the keys of a dictionary. Used in parser.py:74-102 and
InputOutputInfoGenerator_Interface.py:68-73. -/
def iter : Json → Py (List Json)
  | arr l => .ok l
  | str s => .ok (s.toList.map fun c => str (String.ofList [c]))
  | obj l => .ok (l.map fun e => str e.1)
  | _ => .error .typeError

/-- `len(j)`. Used in parser.py:74-102 and InputOutputInfoGenerator_Interface.py:68-73. -/
def length : Json → Py Nat
  | arr l => .ok l.length
  | str s => .ok s.toList.length
  | obj l => .ok l.length
  | _ => .error .typeError

/-- `j[i]` for a number. The keys of a dictionary are strings. Used in parser.py:74-102 and
InputOutputInfoGenerator_Interface.py:68-73. -/
def index (j : Json) (i : Nat) : Py Json :=
  match j with
  | arr l => match l[i]? with
    | some v => .ok v
    | none => .error .indexError
  | str s => match s.toList[i]? with
    | some c => .ok (str (String.ofList [c]))
    | none => .error .indexError
  | obj _ => .error .keyError
  | _ => .error .typeError

/-- `j[-1]`. Used in parser.py:74-102 and InputOutputInfoGenerator_Interface.py:68-73. -/
def last (j : Json) : Py Json :=
  match j with
  | arr l => match l.getLast? with
    | some v => .ok v
    | none => .error .indexError
  | str s => match s.toList.getLast? with
    | some c => .ok (str (String.ofList [c]))
    | none => .error .indexError
  | obj _ => .error .keyError
  | _ => .error .typeError

/-- `for x in j[:-1]`. For a dictionary Python raises a `TypeError`, or from version 3.12 on a `KeyError` (parser.py:77). -/
def butLast : Json → Py (List Json)
  | arr l => .ok l.dropLast
  | str s => .ok (s.toList.dropLast.map fun c => str (String.ofList [c]))
  | _ => .error .typeError

/-- `hash(j)`: lists and dictionaries have none. Used by the sets and dictionaries of parser.py:74-102. -/
def hash : Json → Py Unit
  | arr _ => .error .typeError
  | obj _ => .error .typeError
  | _ => .ok ()

/-- `j == s` for a string (InputOutputInfoGenerator_Interface.py:71-84). -/
def isStr (j : Json) (s : String) : Bool :=
  match j with
  | str t => t == s
  | _ => false

end Json

namespace DataFiles
open Json

/-- `for x in l: s.add(x)` (parser.py:77-78, 85-86): nothing but the hashes can raise. -/
def addAll (l : List Json) : Py (List Json) := do
  l.forM hash
  .ok l

/-- `get_set_of_all_flags` (parser.py:70-71, 82-87). A set is represented by a list. -/
def setOfAllFlags (j : Json) : Py (List Json) := do
  let entries ← (← j.item "flag").iter
  let l ← entries.mapM fun e => do addAll (← e.iter)
  .ok l.flatten

/-- `get_set_of_all_options` (parser.py:74-79). -/
def setOfAllOptions (j : Json) : Py (List Json) := do
  let entries ← (← j.item "option").iter
  let l ← entries.mapM fun e => do addAll (← e.butLast)
  .ok l.flatten

/-- `d[e[i]] = e[0]` (parser.py:94, 101). -/
def assignment (e : Json) (i : Nat) : Py (Json × Json) := do
  let primary ← e.index 0
  let name ← e.index i
  name.hash
  .ok (name, primary)

/-- `get_dict_flag_to_primary_repr` (parser.py:90-95). -/
def dictFlagToPrimaryRepr (j : Json) : Py (List (Json × Json)) := do
  let entries ← (← j.item "flag").iter
  let l ← entries.mapM fun e => do
    let n ← e.length
    (List.range' 1 (n - 1)).mapM (assignment e)
  .ok l.flatten

/-- `get_dict_option_to_primary_repr` (parser.py:97-102). -/
def dictOptionToPrimaryRepr (j : Json) : Py (List (Json × Json)) := do
  let entries ← (← j.item "option").iter
  let l ← entries.mapM fun e => do
    let n ← e.length
    (List.range' 1 (n - 2)).mapM (assignment e)
  .ok l.flatten

/-- `w in s` for a set (parser.py:29 and 33). -/
def contains (s : List Json) (w : String) : Bool := s.any fun x => x.isStr w

/-- `d.get(w, w)` for the assignments to a dictionary, of which the last one counts (parser.py:32 and 36). -/
def primary (d : List (Json × Json)) (w : String) : Json :=
  match d.reverse.find? fun e => e.1.isStr w with
  | some e => e.2
  | none => .str w

/-- `Flag` and `Option` (BasicDatatypes.py:69-88) whose names may be any value. -/
inductive AnyFlagOption where
  | flag (name : Json)
  | option (name : Json) (arg : String)
deriving Repr

/-- `are_all_individually_flags` (parser.py:118-121) for a word that is not empty. -/
def areAllIndividuallyFlags (flags : List Json) (w : List Char) : Bool :=
  match w with
  | '-' :: c :: cs => (c :: cs).all fun x => contains flags (dashed x)
  | _ => false

/-- The loop of `parse` (parser.py:26-47) and the operands (54): `flags` and `options` are the sets, `pf` and `po` the
dictionaries of the primary names. -/
def loop (flags options : List Json) (pf po : List (Json × Json)) : List String → List AnyFlagOption × List String
  | [] => ([], [])
  | t :: rest =>
    if t = "" then ([], t :: rest)
    else if contains flags t then
      let r := loop flags options pf po rest
      (.flag (primary pf t) :: r.1, r.2)
    else
      let clusterOrOperand :=
        if areAllIndividuallyFlags flags t.toList then
          let r := loop flags options pf po rest
          ((t.toList.drop 1).map (fun x => AnyFlagOption.flag (.str (dashed x))) ++ r.1, r.2)
        else ([], t :: rest)
      match rest with
      | [] => clusterOrOperand
      | arg :: rest' =>
        if contains options t then
          let r := loop flags options pf po rest'
          (.option (primary po t) arg :: r.1, r.2)
        else clusterOrOperand

/-- `parse` after the data file has been read (parser.py:18-54), on the words after the name of the command. -/
def readWords (j : Json) (ws : List String) : Py (List AnyFlagOption × List String) := do
  let flags ← setOfAllFlags j
  let pf ← dictFlagToPrimaryRepr j
  let options ← setOfAllOptions j
  let po ← dictOptionToPrimaryRepr j
  .ok (loop flags options pf po ws)

/-- A directory of data files: their names without `.json` and what is in them, `none` if it is not JSON. Read in
util_parser.py:8-14. -/
abbrev Dir := List (String × Option Json)

/-- `json.loads` on what is in a file (util_parser.py:15). -/
def loads : Option Json → Py Json
  | some j => .ok j
  | none => .error (.valueError "JSONDecodeError")

/-- The default file (util_parser.py:11-14). -/
def defaultData (dir : Dir) : Py Json :=
  match dir.lookup "_default_data_for_commands" with
  | some f => loads f
  | none => .error (.exception "json-File for default values not found.")

/-- `get_json_data` (util_parser.py:5-16) for any directory of data files without subdirectories, see `getJsonData`. -/
def getJson (dir : Dir) (name : String) : Py Json :=
  if name.toList.contains (Char.ofNat 0) then .error (.valueError "embedded null byte")
  else if 250 < name.utf8ByteSize then .error .outsideModel
  else match dirParts name with
    | [] =>
      match dir.lookup (basePart name) with
      | some f => loads f
      | none => defaultData dir
    | d :: _ =>
      if d == ".." then .error .outsideModel
      else if dir.any (fun e => e.1 ++ ".json" == d) then .error .notADirectoryError
      else defaultData dir

/-- What `parse` returns: a `CommandInvocationInitial` (CommandInvocationInitial.py:8-11) with names of any kind. -/
structure AnyInvocation where
  cmdName : String
  flagOptionList : List AnyFlagOption
  operandList : List String

/-- `parse` (parser.py:9-56) with any directory of data files. -/
def parseIn (dir : Dir) (command : String) : Py AnyInvocation := do
  match ← Shlex.split command with
  | [] => .error .indexError
  | name :: ws => do
    let j ← getJson dir name
    let r ← readWords j ws
    .ok ⟨name, r.1, r.2⟩

/-- `get_access_from_string` (AccessKind.py:75-91) on any value: only strings are equal to the names. -/
def accessFrom : Json → Py AccessKind
  | .str s => AccessKind.ofString s
  | _ => .error (.exception "unknown option for access kind")

/-- `j in INDICATORS_FOR_FILENAMES` (config/definitions.py:5), a list of strings. -/
def isIndicator (j : Json) : Bool := indicatorsForFilenames.any fun s => j.isStr s

/-- The body of the loop in `get_dict_option_to_class_for_arg` (InputOutputInfoGenerator_Interface.py:69-85). -/
def classForArg (e : Json) : Py (Json × Typer) := do
  let name ← e.index 0
  let info ← e.last
  match info with
  | .arr l => do
      let kind ← (Json.arr l).index 0
      let access ← (Json.arr l).index 1
      let access ← accessFrom access
      name.hash
      if isIndicator kind then .ok (name, .fileStd access) else .ok (name, .argString)
  | kind => do
      pyAssert (!isIndicator kind)
      name.hash
      .ok (name, .argString)

/-- `get_dict_option_to_class_for_arg` (InputOutputInfoGenerator_Interface.py:63-86). -/
def dictOptionToClassForArg (j : Json) : Py (List (Json × Typer)) := do
  let entries ← (← j.item "option").iter
  entries.mapM classForArg

/-- One typer (InputOutputInfoGenerator_Interface.py:54-60) of an invocation whose names are strings. -/
def typerOf (dict : List (Json × Typer)) : FlagOption → Py Typer
  | .flag _ => .ok .plainString
  | .option name _ =>
      match dict.reverse.find? fun e => e.1.isStr name with
      | some e => .ok e.2
      | none => .error .keyError

/-- The constructor of the generators (InputOutputInfoGenerator_Interface.py:26-35, 45-61). -/
def initialInfoIn (dir : Dir) (c : CommandInvocationInitial) : Py InputOutputInfo := do
  let j ← getJson dir c.cmdName
  let dict ← dictOptionToClassForArg j
  let typers ← c.flagOptionList.mapM (typerOf dict)
  .ok (InputOutputInfo.init typers c.operandList.length)

end DataFiles
end PashAnn
