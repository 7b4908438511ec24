import Verif.Model.DataFiles
import Verif.Spec.Grammar

/-!
What a data file says. The documented form of such a file: an object with a list of flags, each the list of its spellings,
and a list of options, each the list of its spellings followed by what the argument is. Only data types of the model are used.
-/

namespace PashAnn.Spec

/-- A list of spellings. -/
def spellings (names : List String) : List Json := names.map Json.str

/-- A flag as it is written in a data file. -/
def flagText : FlagEntry → Json
  | .group names => .arr (spellings names)
  | .bare s => .str s

/-- The argument of an option as it is written: a word, or a pair of a word and a kind of access. -/
def argText : ArgInfo → Json
  | .word kind => .str kind
  | .withAccess kind access => .arr [.str kind, .str access]

/-- An option as it is written. -/
def optionText (e : OptionEntry) : Json := .arr (spellings e.names ++ [argText e.arg])

/-- The file lists the flags and options of `d`; what else is in it does not matter. -/
def FileLists (j : Json) (d : JsonData) : Prop :=
  ∃ items, j = .obj items ∧ items.lookup "flag" = some (.arr (d.flag.map flagText)) ∧
    items.lookup "option" = some (.arr (d.option.map optionText))

/-- Not a list and not an object. -/
def Simple : Json → Prop
  | .arr _ => False
  | .obj _ => False
  | _ => True

/-- What can be gone through: the elements of a list, the characters of a text, the keys of an object. -/
inductive Elements : Json → List Json → Prop
  | list (l) : Elements (.arr l) l
  | text (s) : Elements (.str s) (s.toList.map fun c => .str (String.singleton c))
  | keys (l) : Elements (.obj l) (l.map fun e => .str e.1)

/-- A flag that is not rejected: a list of simple values, a text, or an object with at most one key. -/
def FlagFits (e : Json) : Prop :=
  (∃ l, e = .arr l ∧ ∀ x ∈ l, Simple x) ∨ (∃ s, e = .str s) ∨ (∃ l, e = .obj l ∧ l.length ≤ 1)

/-- An option that is not rejected: a list of values that are simple but for the last one, or a text. -/
def OptionFits (e : Json) : Prop :=
  (∃ l, e = .arr l ∧ ∀ x ∈ l.dropLast, Simple x) ∨ (∃ s, e = .str s)

/-- A file that is not rejected. -/
def Fits (j : Json) : Prop :=
  ∃ items flags options fl ol, j = .obj items ∧ items.lookup "flag" = some flags ∧ items.lookup "option" = some options ∧
    Elements flags fl ∧ (∀ e ∈ fl, FlagFits e) ∧ Elements options ol ∧ (∀ e ∈ ol, OptionFits e)

/-- A name that is not a path and can be the name of a file. -/
def PlainName (name : String) : Prop :=
  '/' ∉ name.toList ∧ Char.ofNat 0 ∉ name.toList ∧ name.utf8ByteSize ≤ 250

/-- Flags and options whose names are strings, among those with any names. -/
def anyNames (fs : List FlagOption) : List DataFiles.AnyFlagOption :=
  fs.map fun
    | .flag n => .flag (.str n)
    | .option n a => .option (.str n) a

/-- Two directories differ at most in the file for the command `n`. -/
def DifferOnlyIn (n : String) (dir dir' : DataFiles.Dir) : Prop := ∀ m, m ≠ n → dir.lookup m = dir'.lookup m

/-- The names of the kinds of access. -/
def accessNames : List (String × AccessKind) :=
  [("CONFIG_INPUT", .configInput), ("STREAM_INPUT", .streamInput), ("CONTAINER_FOR_INPUT", .containerForInput),
   ("EXCLUDES_FROM_INPUT", .excludesFromInput), ("OTHER_INPUT", .otherInput), ("STREAM_OUTPUT", .streamOutput),
   ("OTHER_OUTPUT", .otherOutput)]

/-- What the argument of an option is, as the file says: a file that is accessed in some way, or a string. Words for files need
an access, and an access must be one of the seven. -/
inductive ArgMeans : ArgInfo → Typer → Prop
  | file {kind access a} : kind ∈ ["FILE", "DIR", "DIRECTORY"] → (access, a) ∈ accessNames →
      ArgMeans (.withAccess kind access) (.fileStd a)
  | access {kind access a} : kind ∉ ["FILE", "DIR", "DIRECTORY"] → (access, a) ∈ accessNames →
      ArgMeans (.withAccess kind access) .argString
  | word {kind} : kind ∉ ["FILE", "DIR", "DIRECTORY"] → ArgMeans (.word kind) .argString

/-- The last option in the file whose first spelling is `name` has an argument of this type. -/
def OptionMeans (d : JsonData) (name : String) (t : Typer) : Prop :=
  ∃ before e after, d.option = before ++ e :: after ∧ e.names.head? = some name ∧ ArgMeans e.arg t ∧
    ∀ e' ∈ after, e'.names.head? ≠ some name

/-- The first and the last thing in a list or text. -/
inductive Ends : Json → Json → Json → Prop
  | list {l : List Json} {first last : Json} : l.head? = some first → l.getLast? = some last → Ends (.arr l) first last
  | text {s : String} {c d : Char} : s.toList.head? = some c → s.toList.getLast? = some d →
      Ends (.str s) (.str (String.singleton c)) (.str (String.singleton d))

/-- What an option says about its argument is understood: a list of a kind and one of the seven kinds of access, or else not a list
and not a word for files. -/
def ArgumentUnderstood (info : Json) : Prop :=
  (∃ kind access a more, info = .arr (kind :: .str access :: more) ∧ (access, a) ∈ accessNames) ∨
    ((∀ l, info ≠ .arr l) ∧ ∀ w ∈ ["FILE", "DIR", "DIRECTORY"], info ≠ .str w)

/-- The first spelling of the option and what it says about its argument are as they should be. -/
def EntryTyped (e : Json) : Prop := ∃ first info, Ends e first info ∧ Simple first ∧ ArgumentUnderstood info

/-- What is listed as options in data of any form. -/
def OptionEntries (j : Json) (ol : List Json) : Prop :=
  ∃ items options, j = .obj items ∧ items.lookup "option" = some options ∧ Elements options ol

/-- The shipped data files. -/
def shippedDir : DataFiles.Dir :=
  Data.table.map fun e => (e.1, some (.obj [("flag", .arr (e.2.flag.map flagText)), ("option", .arr (e.2.option.map optionText))]))

end PashAnn.Spec
