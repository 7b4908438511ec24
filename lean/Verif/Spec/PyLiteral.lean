import Verif.Model.Text

/-!
Specification vocabulary for C87: string literals of Python, as far as they are needed to read what `repr` prints
(https://docs.python.org/3/reference/lexical_analysis.html, "String and Bytes literals").
-/

namespace PashAnn.Spec

/-- The value of a hexadecimal digit. -/
def HexValue (c : Char) (n : Nat) : Prop :=
  "0123456789abcdef".toList[n]? = some c ∨ "0123456789ABCDEF".toList[n]? = some c

/-- A piece of a string literal between quotes `q`, and the character it stands for. -/
inductive LiteralPiece (q : Char) : List Char → Char → Prop
  | plain {c} : c ≠ q → c ≠ '\\' → c ≠ '\n' → LiteralPiece q [c] c
  | escaped {c} : c = '\\' ∨ c = '\'' ∨ c = '"' → LiteralPiece q ['\\', c] c
  | newline : LiteralPiece q ['\\', 'n'] '\n'
  | return : LiteralPiece q ['\\', 'r'] '\r'
  | tab : LiteralPiece q ['\\', 't'] '\t'
  | hex {c d a b} : HexValue c a → HexValue d b → LiteralPiece q ['\\', 'x', c, d] (Char.ofNat (16 * a + b))

/-- The pieces of a literal, and the characters they stand for. -/
inductive LiteralBody (q : Char) : List Char → List Char → Prop
  | nil : LiteralBody q [] []
  | cons {p c t s} : LiteralPiece q p c → LiteralBody q t s → LiteralBody q (p ++ t) (c :: s)

/-- A text is a string literal of Python for `s`. -/
def StringLiteral (text s : String) : Prop :=
  ∃ q t, (q = '\'' ∨ q = '"') ∧ text.toList = q :: t ++ [q] ∧ LiteralBody q t s.toList

end PashAnn.Spec
