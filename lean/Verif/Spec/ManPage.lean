import Verif.Model.Data

/-! Specification vocabulary for C71 and C72: names on the lines of a manual page, and names in a data file. -/

namespace PashAnn.Spec

/-- A name the script knows: dashes and a word of small letters and dashes, or dashes and one capital letter. -/
def ProperName (n : String) : Prop :=
  ∃ (k : Nat) (c : Char) (tail : List Char), n.toList = List.replicate (k + 1) '-' ++ c :: tail ∧
    ((('a' ≤ c ∧ c ≤ 'z') ∧ ∀ x ∈ tail, ('a' ≤ x ∧ x ≤ 'z') ∨ x = '-') ∨ (('A' ≤ c ∧ c ≤ 'Z') ∧ tail = []))

/-- The name of an argument: capital letters. -/
def ProperArg (a : String) : Prop := a ≠ "" ∧ ∀ c ∈ a.toList, 'A' ≤ c ∧ c ≤ 'Z'

/-- A name without its dashes. -/
def dashless (n : String) : String := String.ofList (n.toList.filter (· ≠ '-'))

/-- What stands on a line of a page between commas: a flag, or an option with its argument after an equals sign or after
a space. -/
inductive Item where
  | flag (n : String)
  | equals (n a : String)
  | space (n a : String)

namespace Item

/-- Its name. -/
def name : Item → String
  | flag n => n
  | equals n _ => n
  | space n _ => n

/-- Its text. -/
def text : Item → String
  | flag n => n
  | equals n a => n ++ "=" ++ a
  | space n a => n ++ " " ++ a

/-- The name and the argument are proper. -/
def Proper : Item → Prop
  | flag n => ProperName n
  | equals n a => ProperName n ∧ ProperArg a
  | space n a => ProperName n ∧ ProperArg a

/-- It is a flag. -/
def IsFlag : Item → Prop
  | flag _ => True
  | _ => False

end Item

/-- A line of a page: items separated by a comma and a space. -/
def lineOf : List Item → String
  | [] => ""
  | [i] => i.text
  | i :: is => i.text ++ ", " ++ lineOf is

/-- White space in Unicode, as in the documentation of Python's `str.isspace`. -/
def White (c : Char) : Prop :=
  (9 ≤ c.toNat ∧ c.toNat ≤ 13) ∨ (28 ≤ c.toNat ∧ c.toNat ≤ 32) ∨ (0x2000 ≤ c.toNat ∧ c.toNat ≤ 0x200a) ∨
    c.toNat ∈ [0x85, 0xa0, 0x1680, 0x2028, 0x2029, 0x202f, 0x205f, 0x3000]

/-- Nothing, or more words after white space, without commas and equals signs. -/
def MoreWords (w : List Char) : Prop :=
  (∀ c ∈ w, c ≠ ',' ∧ c ≠ '=') ∧ (∀ c, w.head? = some c → White c) ∧ ∀ c, w.getLast? = some c → ¬ White c

/-- The ways to lay out an item: white space around it and between the name and the argument, and words that follow. A flag may be
followed by words if the first one is not an argument. -/
inductive LaidItem : Item → List Char → Prop
  | flag (n : String) (a b : List Char) : (∀ c ∈ a ++ b, White c) → LaidItem (.flag n) (a ++ n.toList ++ b)
  | flagWords (n : String) (a b s w r : List Char) : (∀ c ∈ a ++ s ++ b, White c) → s ≠ [] → w ≠ [] →
      (∀ c ∈ w, ¬ White c ∧ c ≠ ',' ∧ c ≠ '=') → ¬ ProperArg (String.ofList w) → MoreWords r →
      LaidItem (.flag n) (a ++ n.toList ++ s ++ w ++ r ++ b)
  | equals (n x : String) (a b : List Char) : (∀ c ∈ a ++ b, White c) → LaidItem (.equals n x) (a ++ n.toList ++ ['='] ++ x.toList ++ b)
  | space (n x : String) (a b s r : List Char) : (∀ c ∈ a ++ s ++ b, White c) → s ≠ [] → MoreWords r →
      LaidItem (.space n x) (a ++ n.toList ++ s ++ x.toList ++ r ++ b)

/-- The ways to lay out a line, up to brackets, which may stand anywhere: items with a comma and a blank between them. -/
inductive LaidItems : List Item → List Char → Prop
  | one (i : Item) (p : List Char) : LaidItem i p → LaidItems [i] p
  | more (i : Item) (p : List Char) (is : List Item) (l : List Char) : LaidItem i p → LaidItems is l →
      LaidItems (i :: is) (p ++ [',', ' '] ++ l)

/-- The ways to lay out a line. -/
def LaidLine (items : List Item) (line : String) : Prop := LaidItems items (line.toList.filter fun c => c ≠ '[' ∧ c ≠ ']')

/-- The names in an entry of a data file, as they are meant: a bare string is one name. -/
def entryNames : FlagEntry → List String
  | .group names => names
  | .bare s => [s]

/-- All names in a data file. -/
def allNames (d : JsonData) : List String := d.flag.flatMap entryNames ++ d.option.flatMap OptionEntry.names

end PashAnn.Spec
