import Verif.Model.ArgChars

/-! Specification vocabulary for C52. -/

namespace PashAnn.Spec

/-- A code point that is a character. -/
def CharCode (n : Int) : Prop := 0 ≤ n ∧ n.toNat.isValidChar

mutual
/-- Words built from the five known kinds: character codes are characters, variables have a name. -/
inductive Known : ArgChar → Prop
  | C {n : Int} (h : CharCode n) : Known (.C n)
  | B (s : String) : Known (.B s)
  | Q {l : List ArgChar} (h : KnownAll l) : Known (.Q l)
  | V {l : List String} (h : 3 ≤ l.length) : Known (.V l)
  | E {n : Int} (h : CharCode n) : Known (.E n)
/-- All argument characters of a word are of the known kinds. -/
inductive KnownAll : List ArgChar → Prop
  | nil : KnownAll []
  | cons {x : ArgChar} {l : List ArgChar} (h : Known x) (hs : KnownAll l) : KnownAll (x :: l)
end

/-- Argument characters that cannot be mistaken for one another outside quotes: no escapes, no quotes, characters
other than `$` and `"`, names without `}` and `"`, command texts without `)` and `"`; the fields before the name are
fixed. -/
def Unambiguous : ArgChar → Prop
  | .C n => ∃ c : Char, n = c.toNat ∧ c ≠ '$' ∧ c ≠ '"'
  | .B s => ')' ∉ s.toList ∧ '"' ∉ s.toList
  | .V l => ∃ name, l = ["Normal", "false", name] ∧ '}' ∉ name.toList ∧ '"' ∉ name.toList
  | _ => False

/-- Words of unambiguous argument characters and of quotations of such. -/
def UnambiguousWord (l : List ArgChar) : Prop :=
  ∀ x ∈ l, Unambiguous x ∨ ∃ q, x = .Q q ∧ ∀ y ∈ q, Unambiguous y

end PashAnn.Spec
