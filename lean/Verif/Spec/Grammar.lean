import Verif.Model.Data
import Verif.Model.Basic

/-!
Independent specification of how a word list is read as flags, options and operands, for an arbitrary
option database. It uses only the data types of the model (`JsonData`, `FlagOption`), none of its functions.
-/

namespace PashAnn.Spec

/-- The spellings an entry of the flag list declares, the first being the canonical one. An entry that is a
bare string instead of a list declares its characters (an accident of the Python code, see C10). -/
def flagSpellings : FlagEntry → List String
  | .group names => names
  | .bare s => s.toList.map String.singleton

/-- The groups of flag synonyms. -/
def flagGroups (d : JsonData) : List (List String) := d.flag.map flagSpellings

/-- The groups of option synonyms. -/
def optionGroups (d : JsonData) : List (List String) := d.option.map OptionEntry.names

/-- `w` is a spelling in one of the groups. -/
def Declared (groups : List (List String)) (w : String) : Prop := ∃ g ∈ groups, w ∈ g

/-- `p` is the canonical spelling of `w`: the first spelling of the last group that declares `w` as a
synonym, or `w` itself if no group does. -/
def Canonical (groups : List (List String)) (w p : String) : Prop :=
  (∃ before p' syns after, groups = before ++ (p' :: syns) :: after ∧ w ∈ syns ∧ p = p' ∧
      ∀ g ∈ after, w ∉ g.tail) ∨
  ((∀ g ∈ groups, w ∉ g.tail) ∧ p = w)

/-- A cluster `-abc` of the flags `-a`, `-b`, `-c`. -/
def ClusterOf (d : JsonData) (w : String) (letters : List Char) : Prop :=
  w.toList = '-' :: letters ∧ letters ≠ [] ∧
    ∀ c ∈ letters, Declared (flagGroups d) (String.ofList ['-', c])

/-- `w`, followed by `rest`, starts the operands: it is empty, or it is neither a flag, nor an option
with its argument, nor a cluster. -/
def StartsOperands (d : JsonData) (w : String) (rest : List String) : Prop :=
  w = "" ∨ (¬ Declared (flagGroups d) w ∧ ¬ (Declared (optionGroups d) w ∧ rest ≠ []) ∧
    ∀ letters, ¬ ClusterOf d w letters)

/-- `Derives d words flags operands`: the words are read as these flags and options followed by these
operands. -/
inductive Derives (d : JsonData) : List String → List FlagOption → List String → Prop
  | done : Derives d [] [] []
  | operands {w rest} : StartsOperands d w rest → Derives d (w :: rest) [] (w :: rest)
  | flag {w rest p fs ops} : w ≠ "" → Declared (flagGroups d) w → Canonical (flagGroups d) w p →
      Derives d rest fs ops → Derives d (w :: rest) (.flag p :: fs) ops
  | option {w arg rest p fs ops} : w ≠ "" → ¬ Declared (flagGroups d) w → Declared (optionGroups d) w →
      Canonical (optionGroups d) w p → Derives d rest fs ops →
      Derives d (w :: arg :: rest) (.option p arg :: fs) ops
  | cluster {w rest letters fs ops} : ¬ Declared (flagGroups d) w →
      ¬ (Declared (optionGroups d) w ∧ rest ≠ []) → ClusterOf d w letters → Derives d rest fs ops →
      Derives d (w :: rest) (letters.map (fun c => .flag (String.ofList ['-', c])) ++ fs) ops

/-- A path that stays where it is: only slashes and dots with a slash. -/
inductive Here : List Char → Prop
  | nil : Here []
  | slash {l} : Here l → Here ('/' :: l)
  | dot {l} : Here l → Here ('.' :: '/' :: l)

/-- The command name is `base`, possibly with a path before it that stays where it is: `sort`, `./sort`, `/sort`. -/
def Names (name base : String) : Prop := '/' ∉ base.toList ∧ ∃ pre, Here pre ∧ name.toList = pre ++ base.toList

/-- The command name is a path that goes through `dir` first: `bin` for `/bin/sort`. -/
def GoesThrough (name dir : String) : Prop :=
  '/' ∉ dir.toList ∧ dir ∉ ["", "."] ∧ ∃ pre rest, Here pre ∧ name.toList = pre ++ dir.toList ++ '/' :: rest

/-- The name of a data file. -/
def DataFile (file : String) : Prop := ∃ name d, (name, d) ∈ Data.table ∧ file = name ++ ".json"

/-- Command names for which the library gets data: they have no NUL character, are not too long for the name of a file,
and do not go up or through a data file. -/
def Readable (name : String) : Prop :=
  Char.ofNat 0 ∉ name.toList ∧ name.utf8ByteSize ≤ 250 ∧ ∀ dir, GoesThrough name dir → dir ≠ ".." ∧ ¬ DataFile dir

/-- The database used for a command: its own entry of the shipped table, else the default one. -/
def DatabaseFor (name : String) (d : JsonData) : Prop :=
  (∃ base, Names name base ∧ (base, d) ∈ Data.table) ∨
    ((∀ base d', Names name base → (base, d') ∉ Data.table) ∧ d = Data.d_default_data_for_commands)

/-- The databases that exist: those of the table and the default one. -/
def Shipped (d : JsonData) : Prop := (∃ name, (name, d) ∈ Data.table) ∨ d = Data.d_default_data_for_commands

/-- Two spellings of the same flag or option: equal, or declared in the same group. -/
def SameName (groups : List (List String)) (a b : String) : Prop := a = b ∨ ∃ g ∈ groups, a ∈ g ∧ b ∈ g

/-- `Spelled d flags words`: the words spell out the flags and options, up to synonyms and clustering. -/
inductive Spelled (d : JsonData) : List FlagOption → List String → Prop
  | nil : Spelled d [] []
  | flag {n w fs ws} : SameName (flagGroups d) w n → Spelled d fs ws → Spelled d (.flag n :: fs) (w :: ws)
  | option {n w a fs ws} : SameName (optionGroups d) w n → Spelled d fs ws →
      Spelled d (.option n a :: fs) (w :: a :: ws)
  | cluster {letters fs ws} : letters ≠ [] → Spelled d fs ws →
      Spelled d (letters.map (fun c => .flag (String.ofList ['-', c])) ++ fs)
        (String.ofList ('-' :: letters) :: ws)

/-- The words by which a list of flags and options is written down. -/
def renderWords : List FlagOption → List String
  | [] => []
  | .flag n :: fs => n :: renderWords fs
  | .option n a :: fs => n :: a :: renderWords fs

end PashAnn.Spec
