import Verif.Model.Cli

/-!
Specification vocabulary for C97: how the two options of the script are written on its command line.
-/

namespace PashAnn.Spec

/-- One of the options of the script with a value: the command to look at, or the file for the report. -/
inductive Setting where
  | command (text : String)
  | save (file : String)
deriving DecidableEq, Repr

/-- The names of the options of the script. -/
def Setting.name : Setting → String
  | command _ => "--command_invocation"
  | save _ => "--save_to"

def Setting.value : Setting → String
  | command t => t
  | save f => f

/-- The name of an option, written in full or abbreviated to the two dashes and at least one letter. -/
def Spells (written name : String) : Prop := written.toList <+: name.toList ∧ 3 ≤ written.length

/-- A minus, digits, possibly a point before the last of them; a newline may follow. `digit` tells the digits. -/
def MinusNumber (digit : Char → Bool) (v : String) : Prop :=
  ∃ a b n : List Char, (∀ c ∈ a ++ b, digit c = true) ∧ (n = [] ∨ n = ['\n']) ∧ b ≠ [] ∧
    (v.toList = '-' :: (a ++ b ++ n) ∨ v.toList = '-' :: (a ++ '.' :: b ++ n))

/-- A word that is taken as the value of the option before it: it does not begin with a dash, or is only a dash, or is a
negative number, or has a space and does not begin like a call for help or like the name of an option with `=`. -/
def ValueWord (digit : Char → Bool) (v : String) : Prop :=
  ¬ ['-'] <+: v.toList ∨ v = "-" ∨ MinusNumber digit v ∨
    (' ' ∈ v.toList ∧ ¬ ['-', 'h'] <+: v.toList ∧
      ¬ ∃ name ∈ ["--help", "--command_invocation", "--save_to"], ∃ n r : List Char,
        n <+: name.toList ∧ 2 ≤ n.length ∧ v.toList = n ++ '=' :: r)

/-- How settings are written as words: each one as the name and then the value, or as one word with `=` between them. -/
inductive Written (digit : Char → Bool) : List Setting → List String → Prop
  | nil : Written digit [] []
  | apart {s ss n ws} : Spells n s.name → ValueWord digit s.value → Written digit ss ws →
      Written digit (s :: ss) (n :: s.value :: ws)
  | joined {s ss n ws} : Spells n s.name → Written digit ss ws → Written digit (s :: ss) ((n ++ "=" ++ s.value) :: ws)

/-- The last command and the last file that are set. -/
def lastCommand (ss : List Setting) : Option String :=
  (ss.filterMap fun | .command t => some t | .save _ => none).getLast?
def lastSave (ss : List Setting) : Option String :=
  (ss.filterMap fun | .save f => some f | .command _ => none).getLast?

/-- A call for help: the name in full or abbreviated, or a dash and some `h`, possibly followed by other characters, of which the
first is neither `=` nor a dash. -/
def HelpWord (w : String) : Prop :=
  Spells w "--help" ∨ ∃ n r, w.toList = '-' :: 'h' :: (List.replicate n 'h' ++ r) ∧ ∀ c ∈ r.head?, c ≠ 'h' ∧ c ≠ '=' ∧ c ≠ '-'

/-- A word that is not the name of an option, in full or abbreviated, alone or with `=`, and does not begin like `-h`; the two
dashes alone count as an abbreviation. -/
def Stray (w : String) : Prop :=
  ¬ ['-', 'h'] <+: w.toList ∧ ¬ ∃ name ∈ ["--help", "--command_invocation", "--save_to"], ∃ n : List Char, n <+: name.toList ∧
    2 ≤ n.length ∧ (w.toList = n ∨ ∃ r, w.toList = n ++ '=' :: r)

/-- Words that are read without a message: options with their values and words that belong to no option. -/
inductive Passed (digit : Char → Bool) : List String → Prop
  | nil : Passed digit []
  | stray {w ws} : Stray w → Passed digit ws → Passed digit (w :: ws)
  | apart {n v ws} {s : Setting} : Spells n s.name → ValueWord digit v → Passed digit ws → Passed digit (n :: v :: ws)
  | joined {n v ws} {s : Setting} : Spells n s.name → Passed digit ws → Passed digit ((n ++ "=" ++ v) :: ws)

end PashAnn.Spec
