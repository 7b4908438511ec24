import Verif.Model.Py

/-! Model of `format_arg_chars`, `format_arg_char` and `get_kv` in
/repo/pash_annotations/datatypes/BasicDatatypes.py, lines 130-175. -/

namespace PashAnn

/-- An argument character: a pair of a key and a value (`get_kv`, BasicDatatypes.py:174-175), for each key with the
kind of value the code expects. `C` and `E` hold a character code, `Q` a list of argument characters, `V` a list whose
element at index 2 is the name. Simplification: the value of `B` can be anything with a text; the model has the text. -/
inductive ArgChar where
  | C (code : Int)
  | B (text : String)
  | Q (chars : List ArgChar)
  | V (fields : List String)
  | E (code : Int)
  | other (key : String)
deriving Repr

/-- Python `chr(n)`. The surrogate codes, which Python accepts, are outside the model. Used in BasicDatatypes.py:141, 164
and 166. -/
def pyChr (n : Int) : Py Char :=
  if n < 0 ∨ 0x110000 ≤ n then .error (.valueError "chr() arg not in range(0x110000)")
  else if h : n.toNat.isValidChar then .ok (Char.ofNatAux n.toNat h)
  else .error .outsideModel

mutual
/-- `format_arg_char` (BasicDatatypes.py:138-170). The two branches for `E` (163-166) return the same. -/
def formatArgChar : ArgChar → Py (List Char)
  | .C n => do
      let c ← pyChr n
      .ok [c]
  | .B s => .ok ('$' :: '(' :: s.toList ++ [')'])
  | .Q l => do
      let r ← formatArgChars l
      .ok ('"' :: r ++ ['"'])
  | .V fields =>
      match fields[2]? with
      | none => .error .indexError
      | some name => .ok ('$' :: '{' :: name.toList ++ ['}'])
  | .E n => do
      let c ← pyChr n
      .ok [c]
  | .other _ => .error .notImplementedError

/-- `format_arg_chars` (BasicDatatypes.py:130-132), as a list of characters. -/
def formatArgChars : List ArgChar → Py (List Char)
  | [] => .ok []
  | x :: xs => do
      let r ← formatArgChar x
      let rs ← formatArgChars xs
      .ok (r ++ rs)
end

end PashAnn
