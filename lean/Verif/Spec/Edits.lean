import Verif.Spec.DataFiles

/-! When two versions of a data file are the same to a command line. Only data types of the model are used. -/

namespace PashAnn.Spec

/-- Words that matter to the reading of a command line: its words, and the letters of words with a dash, each with a dash. -/
def Uses (args : List String) (w : String) : Prop :=
  w ∈ args ∨ ∃ a ∈ args, ∃ letters, a.toList = '-' :: letters ∧ ∃ c ∈ letters, w = String.ofList ['-', c]

/-- Both files say the same about a word: that it is the same flag, the same option, or neither. -/
def SameWord (d d' : JsonData) (w : String) : Prop :=
  (Declared (flagGroups d) w ↔ Declared (flagGroups d') w) ∧
  (Declared (flagGroups d) w → ∀ p, Canonical (flagGroups d) w p ↔ Canonical (flagGroups d') w p) ∧
  (¬ Declared (flagGroups d) w → (Declared (optionGroups d) w ↔ Declared (optionGroups d') w) ∧
    (Declared (optionGroups d) w → ∀ p, Canonical (optionGroups d) w p ↔ Canonical (optionGroups d') w p))

/-- The second file has one more entry, anywhere, with these spellings. -/
inductive Added : JsonData → JsonData → List String → Prop
  | flag (before after options e) :
      Added ⟨before ++ after, options⟩ ⟨before ++ e :: after, options⟩ (flagSpellings e)
  | option (flags before after e) : Added ⟨flags, before ++ after⟩ ⟨flags, before ++ e :: after⟩ e.names

/-- No spelling is in two entries. -/
def Apart (groups : List (List String)) : Prop := groups.Pairwise fun g g' => ∀ w ∈ g, w ∉ g'

/-- The same entries in another order. -/
def Reordered (d d' : JsonData) : Prop := d.flag.Perm d'.flag ∧ d.option.Perm d'.option

/-- Every option has a spelling and its argument is listed as it should be. -/
def ArgumentsFit (d : JsonData) : Prop := ∀ e ∈ d.option, e.names ≠ [] ∧ ∃ t, ArgMeans e.arg t

end PashAnn.Spec
