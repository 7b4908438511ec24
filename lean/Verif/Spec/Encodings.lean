import Verif.Spec.JsonText

/-!
The encodings of Unicode: how characters are written as bytes (RFC 3629 for UTF-8, RFC 2781 for UTF-16; UTF-32 writes the number
of the character with four bytes). Nothing of the model is used apart from the grammar of JSON texts.
-/

namespace PashAnn.Spec.Encodings
open Spec.JsonText (Writes)

/-- The order of the bytes of a number. -/
inductive Order where
  | big | little
deriving DecidableEq, Repr

/-- A number as bytes, the most significant ones first. -/
def Order.bytes (o : Order) (l : List Nat) : List Nat :=
  match o with
  | .big => l
  | .little => l.reverse

/-- UTF-8: one to four bytes; the first one tells how many, and each of the others has six bits of the number. -/
def utf8 (n : Nat) : List Nat :=
  if n < 0x80 then [n]
  else if n < 0x800 then [0xC0 + n / 64, 0x80 + n % 64]
  else if n < 0x10000 then [0xE0 + n / 64 / 64, 0x80 + n / 64 % 64, 0x80 + n % 64]
  else [0xF0 + n / 64 / 64 / 64, 0x80 + n / 64 / 64 % 64, 0x80 + n / 64 % 64, 0x80 + n % 64]

/-- Two bytes. -/
def two (o : Order) (u : Nat) : List Nat := o.bytes [u / 256, u % 256]

/-- UTF-16: two bytes, or two pairs of bytes with ten bits each. -/
def utf16 (o : Order) (n : Nat) : List Nat :=
  if n < 0x10000 then two o n else two o (0xD800 + (n - 0x10000) / 1024) ++ two o (0xDC00 + (n - 0x10000) % 1024)

/-- UTF-32: four bytes. -/
def utf32 (o : Order) (n : Nat) : List Nat := o.bytes [n / 256 / 256 / 256, n / 256 / 256 % 256, n / 256 % 256, n % 256]

inductive Encoding where
  | utf8
  | utf16 (o : Order)
  | utf32 (o : Order)
deriving DecidableEq, Repr

/-- The bytes of the character with this number. -/
def Encoding.char : Encoding → Nat → List Nat
  | .utf8, n => Encodings.utf8 n
  | .utf16 o, n => Encodings.utf16 o n
  | .utf32 o, n => Encodings.utf32 o n

/-- The bytes of a text. -/
def Encoding.encode (e : Encoding) (text : List Char) : List UInt8 := (text.flatMap fun c => e.char c.toNat).map UInt8.ofNat

/-- The mark that some editors put at the beginning of a file. -/
def mark : Char := Char.ofNat 0xFEFF

/-- The bytes hold the value: they are one of its texts in one of the encodings, with or without a mark. -/
def Holds (bytes : List UInt8) (j : Json) : Prop :=
  ∃ (e : Encoding) (text : List Char), Writes text j ∧ (bytes = e.encode text ∨ bytes = e.encode (mark :: text))

end PashAnn.Spec.Encodings
