import Verif.Spec.DataFiles

/-!
What a data file says that has any form that is not rejected (`Fits`): spellings may be any simple values, an entry may be a text,
which is then the list of its characters, and so on. `Spec/DataFiles.lean` has the documented form.
-/

namespace PashAnn.Spec
open DataFiles (AnyFlagOption)

/-- The file has these groups of flags and of options: the elements of each flag, and those of each option but for the last, which is
about the argument. -/
def FileGroups (j : Json) (flags options : List (List Json)) : Prop :=
  ∃ items f o fl ol, j = .obj items ∧ items.lookup "flag" = some f ∧ items.lookup "option" = some o ∧ Elements f fl ∧ Elements o ol ∧
    ∃ ef eo : Json → List Json, (∀ e ∈ fl, Elements e (ef e)) ∧ (∀ e ∈ ol, Elements e (eo e)) ∧
      flags = fl.map ef ∧ options = ol.map fun e => (eo e).dropLast

/-- The word is a spelling in one of the groups. Only texts are words. -/
def DeclaredAny (groups : List (List Json)) (w : String) : Prop := ∃ g ∈ groups, Json.str w ∈ g

/-- The canonical spelling, which need not be a text: the first one in the last group with the word as another spelling. -/
def CanonicalAny (groups : List (List Json)) (w : String) (p : Json) : Prop :=
  (∃ before p' syns after, groups = before ++ (p' :: syns) :: after ∧ Json.str w ∈ syns ∧ p = p' ∧
      ∀ g ∈ after, Json.str w ∉ g.tail) ∨
  ((∀ g ∈ groups, Json.str w ∉ g.tail) ∧ p = .str w)

/-- A cluster `-abc` of the flags `-a`, `-b`, `-c`. -/
def ClusterAny (flags : List (List Json)) (w : String) (letters : List Char) : Prop :=
  w.toList = '-' :: letters ∧ letters ≠ [] ∧ ∀ c ∈ letters, DeclaredAny flags (String.ofList ['-', c])

/-- The words are read as these flags and options followed by these operands. -/
inductive ReadsAny (flags options : List (List Json)) : List String → List AnyFlagOption → List String → Prop
  | done : ReadsAny flags options [] [] []
  | operands {w rest} : (w = "" ∨ (¬ DeclaredAny flags w ∧ ¬ (DeclaredAny options w ∧ rest ≠ []) ∧ ∀ letters, ¬ ClusterAny flags w letters)) →
      ReadsAny flags options (w :: rest) [] (w :: rest)
  | flag {w rest p fs ops} : w ≠ "" → DeclaredAny flags w → CanonicalAny flags w p → ReadsAny flags options rest fs ops →
      ReadsAny flags options (w :: rest) (.flag p :: fs) ops
  | option {w arg rest p fs ops} : w ≠ "" → ¬ DeclaredAny flags w → DeclaredAny options w → CanonicalAny options w p →
      ReadsAny flags options rest fs ops → ReadsAny flags options (w :: arg :: rest) (.option p arg :: fs) ops
  | cluster {w rest letters fs ops} : ¬ DeclaredAny flags w → ¬ (DeclaredAny options w ∧ rest ≠ []) → ClusterAny flags w letters →
      ReadsAny flags options rest fs ops →
      ReadsAny flags options (w :: rest) (letters.map (fun c => .flag (.str (String.ofList ['-', c]))) ++ fs) ops

/-- A value that is one of the words for files. -/
def FileWord (j : Json) : Prop := ∃ kind, j = .str kind ∧ kind ∈ ["FILE", "DIR", "DIRECTORY"]

/-- What the argument of an option is, whatever the file has in its place. -/
inductive ArgAny : Json → Typer → Prop
  | file {kind access a rest} : FileWord kind → (access, a) ∈ accessNames → ArgAny (.arr (kind :: .str access :: rest)) (.fileStd a)
  | access {kind access a rest} : ¬ FileWord kind → (access, a) ∈ accessNames → ArgAny (.arr (kind :: .str access :: rest)) .argString
  | word {kind} : (∀ l, kind ≠ .arr l) → ¬ FileWord kind → ArgAny kind .argString

/-- An option of the file with this first spelling and this type of its argument. -/
def EntryAny (e name : Json) (t : Typer) : Prop :=
  (∃ l info, e = .arr l ∧ l.head? = some name ∧ Simple name ∧ l.getLast? = some info ∧ ArgAny info t) ∨
  (∃ c cs, e = .str (String.ofList (c :: cs)) ∧ name = .str (String.singleton c) ∧ t = .argString)

/-- The options that the file lists. -/
def HasOptions (j : Json) (ol : List Json) : Prop := ∃ items o, j = .obj items ∧ items.lookup "option" = some o ∧ Elements o ol

/-- The last of the options with this first spelling has an argument of this type. -/
def OptionAny (ol : List Json) (name : String) (t : Typer) : Prop :=
  ∃ before e after, ol = before ++ e :: after ∧ EntryAny e (.str name) t ∧ ∀ e' ∈ after, ∀ t', ¬ EntryAny e' (.str name) t'

end PashAnn.Spec
