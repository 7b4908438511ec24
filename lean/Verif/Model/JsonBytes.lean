import Verif.Model.JsonText

/-!
`json.loads` for bytes, as `get_json_data` calls it (util_parser.py:9-15: `pkgutil.get_data` gives the bytes of a file): how the
encoding is guessed (`detect_encoding` in the standard module `json`) and how bytes are decoded (the codecs of Python with
`errors='surrogatepass'`). Bytes are numbers here. Simplified: single surrogates, which Python lets pass and Lean has no characters
for, are outside the model.
-/

namespace PashAnn.Bytes

/-- The codecs that `detect_encoding` names. For `json.loads` of bytes (util_parser.py:15). -/
inductive Codec where
  | utf8 | utf8sig | utf16 | utf16be | utf16le | utf32 | utf32be | utf32le
deriving DecidableEq, Repr

/-- `detect_encoding` (json/__init__.py) -/
def detect (b : List Nat) : Codec :=
  if [0, 0, 0xFE, 0xFF].isPrefixOf b || [0xFF, 0xFE, 0, 0].isPrefixOf b then .utf32
  else if [0xFE, 0xFF].isPrefixOf b || [0xFF, 0xFE].isPrefixOf b then .utf16
  else if [0xEF, 0xBB, 0xBF].isPrefixOf b then .utf8sig
  else match b with
    | b0 :: b1 :: b2 :: b3 :: _ =>
      if b0 = 0 then (if b1 ≠ 0 then .utf16be else .utf32be)
      else if b1 = 0 then (if b2 ≠ 0 ∨ b3 ≠ 0 then .utf16le else .utf32le)
      else .utf8
    | [b0, b1] => if b0 = 0 then .utf16be else if b1 = 0 then .utf16le else .utf8
    | _ => .utf8

/-- A byte after the first one of a character. For `json.loads` of bytes (util_parser.py:15). -/
def isNext (b : Nat) : Bool := 0x80 ≤ b && b < 0xC0

/-- The first character in UTF-8, as a number, and the rest; `none` for bytes that are no character: too few, too many, a longer
form than needed or a number that is too large. For `json.loads` of bytes (util_parser.py:15). -/
def first8 : List Nat → Option (Nat × List Nat)
  | [] => none
  | a :: r =>
    if a < 0x80 then some (a, r)
    else if a < 0xC0 then none
    else if a < 0xE0 then
      match r with
      | b :: r =>
        let n := (a - 0xC0) * 64 + (b - 0x80)
        if isNext b && 0x80 ≤ n then some (n, r) else none
      | _ => none
    else if a < 0xF0 then
      match r with
      | b :: c :: r =>
        let n := ((a - 0xE0) * 64 + (b - 0x80)) * 64 + (c - 0x80)
        if isNext b && isNext c && 0x800 ≤ n then some (n, r) else none
      | _ => none
    else if a < 0xF8 then
      match r with
      | b :: c :: d :: r =>
        let n := (((a - 0xF0) * 64 + (b - 0x80)) * 64 + (c - 0x80)) * 64 + (d - 0x80)
        if isNext b && isNext c && isNext d && 0x10000 ≤ n && n < 0x110000 then some (n, r) else none
      | _ => none
    else none

/-- Two bytes as a number. For `json.loads` of bytes (util_parser.py:15). -/
def two (big : Bool) (a b : Nat) : Nat := if big then a * 256 + b else b * 256 + a

/-- The first character in UTF-16. For `json.loads` of bytes (util_parser.py:15). -/
def first16 (big : Bool) : List Nat → Option (Nat × List Nat)
  | a :: b :: r =>
    let u := two big a b
    if 0xD800 ≤ u ∧ u < 0xDC00 then
      match r with
      | c :: d :: r' =>
        let v := two big c d
        if 0xDC00 ≤ v ∧ v < 0xE000 then some (0x10000 + (u - 0xD800) * 1024 + (v - 0xDC00), r') else some (u, r)
      | _ => some (u, r)
    else some (u, r)
  | _ => none

/-- The first character in UTF-32. For `json.loads` of bytes (util_parser.py:15). -/
def first32 (big : Bool) : List Nat → Option (Nat × List Nat)
  | a :: b :: c :: d :: r =>
    let n := if big then two big a b * 65536 + two big c d else two big c d * 65536 + two big a b
    if n < 0x110000 then some (n, r) else none
  | _ => none

/-- The loop of a decoder. The number bounds the steps; `decode` gives enough. For `json.loads` of bytes (util_parser.py:15). -/
def decodeWith (first : List Nat → Option (Nat × List Nat)) : Nat → List Nat → Py (List Char)
  | _, [] => .ok []
  | 0, _ :: _ => .error (.valueError "UnicodeDecodeError")
  | k + 1, b :: bs =>
    match first (b :: bs) with
    | none => .error (.valueError "UnicodeDecodeError")
    | some (n, rest) => if n.isValidChar then (decodeWith first k rest).map (Char.ofNat n :: ·) else .error .outsideModel

/-- `b.decode(codec, 'surrogatepass')`: the codecs with a mark drop it, and it tells the order of the bytes. For
`json.loads` of bytes (util_parser.py:15). -/
def decode (codec : Codec) (b : List Nat) : Py (List Char) :=
  match codec with
  | .utf8 => decodeWith first8 b.length b
  | .utf8sig => decodeWith first8 b.length (b.drop 3)
  | .utf16 => decodeWith (first16 (b.head? = some 0xFE)) b.length (b.drop 2)
  | .utf16be => decodeWith (first16 true) b.length b
  | .utf16le => decodeWith (first16 false) b.length b
  | .utf32 => decodeWith (first32 (b.head? = some 0)) b.length (b.drop 4)
  | .utf32be => decodeWith (first32 true) b.length b
  | .utf32le => decodeWith (first32 false) b.length b

/-- `json.loads(content)` (util_parser.py:15) for bytes. -/
def loads (bytes : List UInt8) : Py Json := do
  let b := bytes.map UInt8.toNat
  let text ← decode (detect b) b
  match Json.loads text with
  | some j => .ok j
  | none => .error (.valueError "JSONDecodeError")

end PashAnn.Bytes
