import Verif.Model.Shlex
import Verif.Model.Data
import Verif.Model.Basic

/-! Model of /repo/pash_annotations/parser/parser.py and parser/util_parser.py. -/

namespace PashAnn

/-- Iterating over an entry of the "flag" list (parser.py:85): a list yields its elements, a string
yields its characters as one-character strings. Also `list_of_equiv_flag_repr[i]` at parser.py:94. -/
def FlagEntry.items : FlagEntry → List String
  | .group l => l
  | .bare s => s.toList.map fun c => String.ofList [c]

/-- `get_set_of_all_flags` (parser.py:70-71, 82-87). A set is represented by a list; only membership is used. -/
def setOfAllFlags (d : JsonData) : List String := d.flag.flatMap FlagEntry.items

/-- `get_set_of_all_options` (parser.py:74-79): all elements of each entry but the last. -/
def setOfAllOptions (d : JsonData) : List String := d.option.flatMap OptionEntry.names

/-- The assignments `d[names[i]] = names[0]` for `i` in `range(1, len(names))` (parser.py:93-94, 100-101). -/
def synonymAssignments : List String → List (String × String)
  | [] => []
  | primary :: synonyms => synonyms.map fun s => (s, primary)

/-- `get_dict_flag_to_primary_repr` (parser.py:90-95). -/
def dictFlagToPrimaryRepr (d : JsonData) : List (String × String) :=
  d.flag.flatMap fun e => synonymAssignments e.items

/-- `get_dict_option_to_primary_repr` (parser.py:97-102). -/
def dictOptionToPrimaryRepr (d : JsonData) : List (String × String) :=
  d.option.flatMap fun e => synonymAssignments e.names

/-- `dict_flag_to_primary_repr.get(f, f)` (parser.py:32). -/
def primaryFlag (d : JsonData) (f : String) : String := dictGetD (dictFlagToPrimaryRepr d) f f

/-- `dict_option_to_primary_repr.get(o, o)` (parser.py:36). -/
def primaryOption (d : JsonData) (o : String) : String := dictGetD (dictOptionToPrimaryRepr d) o o

/-- `f'-{split_el}'` (parser.py:43, 121). -/
def dashed (c : Char) : String := String.ofList ['-', c]

/-- `are_all_individually_flags` (parser.py:118-121), on a non-empty word given as first character and
remaining characters (the caller has excluded the empty word at parser.py:29). The word equals `'-'`
exactly when the first character is `-` and nothing remains. -/
def areAllIndividuallyFlags (flags : List String) (c : Char) (cs : List Char) : Bool :=
  if c != '-' || (c == '-' && cs.isEmpty) then false
  else cs.all fun x => decide (dashed x ∈ flags)

/-- The loop of `parse` (parser.py:26-47) together with the operand list (parser.py:54), on
`parsed_elements_list[i:]`: the flags and options found and the remaining words. -/
def parseLoop (d : JsonData) : List String → List FlagOption × List String
  | [] => ([], [])
  | t :: rest =>
    match t.toList with
    | [] => ([], t :: rest)
    | c :: cs =>
      if t ∈ setOfAllFlags d then
        let r := parseLoop d rest
        (.flag (primaryFlag d t) :: r.1, r.2)
      else
        let clusterOrOperand :=
          if areAllIndividuallyFlags (setOfAllFlags d) c cs then
            let r := parseLoop d rest
            (cs.map (fun x => FlagOption.flag (dashed x)) ++ r.1, r.2)
          else ([], t :: rest)
        match rest with
        | [] => clusterOrOperand
        | arg :: rest' =>
          if t ∈ setOfAllOptions d then
            let r := parseLoop d rest'
            (.option (primaryOption d t) arg :: r.1, r.2)
          else clusterOrOperand

/-- `resource.split('/')` (`pkgutil.get_data`): the parts between slashes. For util_parser.py:6-9. -/
def splitSlash : List Char → List (List Char)
  | [] => [[]]
  | c :: cs =>
    if c = '/' then [] :: splitSlash cs
    else match splitSlash cs with
      | [] => [[c]]
      | w :: ws => (c :: w) :: ws

/-- The directories on the way to the file `name + '.json'`, seen from the data directory: empty parts are dropped by
`os.path.join`, parts `.` by the operating system. For util_parser.py:6-9. -/
def dirParts (name : String) : List String :=
  ((splitSlash name.toList).dropLast.map String.ofList).filter (fun p => p != "" && p != ".")

/-- The part after the last slash. For util_parser.py:6-9. -/
def basePart (name : String) : String := String.ofList ((splitSlash name.toList).getLastD [])

/-- `get_json_data` (util_parser.py:5-16): the file of that name, else `_default_data_for_commands.json`. The data
directory has no subdirectories; a directory that does not exist makes `open` raise a `FileNotFoundError`, which is
caught, a file in place of a directory a `NotADirectoryError`, which is not, and a NUL character a `ValueError`. Outside
the model are names that leave the data directory by `..`, and long names, for which the limits of the file system
matter. -/
def getJsonData (name : String) : Py JsonData :=
  if name.toList.contains (Char.ofNat 0) then .error (.valueError "embedded null byte")
  else if 250 < name.utf8ByteSize then .error .outsideModel
  else match dirParts name with
    | [] =>
      match Data.table.lookup (basePart name) with
      | some d => .ok d
      | none => .ok Data.d_default_data_for_commands
    | dir :: _ =>
      if dir == ".." then .error .outsideModel
      else if Data.table.any (fun e => e.1 ++ ".json" == dir) then .error .notADirectoryError
      else .ok Data.d_default_data_for_commands

/-- `parse` after `shlex.split` (parser.py:14-56). -/
def parseTokens : List String → Py CommandInvocationInitial
  | [] => .error .indexError
  | name :: rest => do
    let d ← getJsonData name
    let r := parseLoop d rest
    .ok { cmdName := name, flagOptionList := r.1, operandList := r.2 }

/-- `parse` (parser.py:9-56). -/
def parse (command : String) : Py CommandInvocationInitial := do
  let tokens ← Shlex.split command
  parseTokens tokens

end PashAnn
