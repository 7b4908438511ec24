import Verif.Model.JsonText

/-!
The grammar of JSON texts (RFC 8259, with the constants for special numbers that Python allows): which texts write which value.
Only the data type `Json` of the model is used.
-/

namespace PashAnn.Spec.JsonText

/-- Only blanks, tabs and line ends. -/
def Blanks (cs : List Char) : Prop := ∀ c ∈ cs, c = ' ' ∨ c = '\t' ∨ c = '\n' ∨ c = '\r'

/-- A hexadecimal digit and its value. -/
def Hex (c : Char) (n : Nat) : Prop :=
  (c, n) ∈ "0123456789abcdef".toList.zip (List.range 16) ∨ (c, n) ∈ "0123456789ABCDEF".toList.zip (List.range 16)

/-- Four hexadecimal digits and their value. -/
def Hex4 (cs : List Char) (n : Nat) : Prop :=
  ∃ a b c d na nb nc nd, cs = [a, b, c, d] ∧ Hex a na ∧ Hex b nb ∧ Hex c nc ∧ Hex d nd ∧
    n = na * 4096 + nb * 256 + nc * 16 + nd

/-- The short escapes. -/
def escapes : List (Char × Char) :=
  [('"', '"'), ('\\', '\\'), ('/', '/'), ('b', Char.ofNat 8), ('f', Char.ofNat 12), ('n', Char.ofNat 10), ('r', Char.ofNat 13),
   ('t', Char.ofNat 9)]

/-- The ways to write a character inside a string: as it is, with a short escape, with a number, and with two numbers for a
character that needs more than four digits. -/
inductive CharWritten : Char → List Char → Prop
  | plain (c : Char) : 32 ≤ c.toNat → c ≠ '"' → c ≠ '\\' → CharWritten c [c]
  | short (e c : Char) : (e, c) ∈ escapes → CharWritten c ['\\', e]
  | number (c : Char) (cs : List Char) : Hex4 cs c.toNat → CharWritten c ('\\' :: 'u' :: cs)
  | numbers (c : Char) (cs ds : List Char) (hi lo : Nat) : Hex4 cs (0xd800 + hi) → Hex4 ds (0xdc00 + lo) → hi < 1024 → lo < 1024 →
      c.toNat = 0x10000 + hi * 1024 + lo → CharWritten c ('\\' :: 'u' :: cs ++ '\\' :: 'u' :: ds)

/-- The ways to write the characters of a string. -/
inductive CharsWritten : List Char → List Char → Prop
  | nil : CharsWritten [] []
  | cons (c : Char) (cs s t : List Char) : CharWritten c cs → CharsWritten s t → CharsWritten (c :: s) (cs ++ t)

/-- The ways to write a string. -/
def StringWritten (s : String) (cs : List Char) : Prop := ∃ t, CharsWritten s.toList t ∧ cs = '"' :: t ++ ['"']

/-- Decimal digits. -/
def Digits (cs : List Char) : Prop := ∀ c ∈ cs, c ∈ "0123456789".toList

/-- The text of a number. -/
def NumberText (cs : List Char) : Prop :=
  ∃ sign int frac exp, cs = sign ++ int ++ frac ++ exp ∧ (sign = [] ∨ sign = ['-']) ∧
    (int = ['0'] ∨ ∃ d ds, int = d :: ds ∧ d ≠ '0' ∧ Digits int) ∧
    (frac = [] ∨ ∃ ds, ds ≠ [] ∧ Digits ds ∧ frac = '.' :: ds) ∧
    (exp = [] ∨ ∃ e s ds, (e = 'e' ∨ e = 'E') ∧ (s = [] ∨ s = ['+'] ∨ s = ['-']) ∧ ds ≠ [] ∧ Digits ds ∧ exp = e :: s ++ ds)

/-- The object with these items: keys in the order in which they occur first, each with the value it has last. -/
def asDict (l : List (String × Json)) : List (String × Json) :=
  (l.map Prod.fst).eraseDups.map fun k => (k, (l.reverse.lookup k).getD .null)

mutual
/-- The ways to write a value. -/
inductive Written : Json → List Char → Prop
  | null : Written .null "null".toList
  | true : Written (.bool true) "true".toList
  | false : Written (.bool false) "false".toList
  | num (cs : List Char) : NumberText cs → Written (.num (String.ofList cs)) cs
  | special (t : String) : t ∈ ["NaN", "Infinity", "-Infinity"] → Written (.num t) t.toList
  | str (s : String) (cs : List Char) : StringWritten s cs → Written (.str s) cs
  | arr0 (a : List Char) : Blanks a → Written (.arr []) ('[' :: a ++ [']'])
  | arr (l : List Json) (cs : List Char) : ElementsWritten l cs → Written (.arr l) ('[' :: cs ++ [']'])
  | obj0 (a : List Char) : Blanks a → Written (.obj []) ('{' :: a ++ ['}'])
  | obj (l : List (String × Json)) (cs : List Char) : MembersWritten l cs → Written (.obj (asDict l)) ('{' :: cs ++ ['}'])
/-- Elements with commas between them and blanks around them. -/
inductive ElementsWritten : List Json → List Char → Prop
  | one (v : Json) (a cs b : List Char) : Blanks a → Written v cs → Blanks b → ElementsWritten [v] (a ++ cs ++ b)
  | more (v : Json) (a cs b : List Char) (l : List Json) (ds : List Char) : Blanks a → Written v cs → Blanks b →
      ElementsWritten l ds → ElementsWritten (v :: l) (a ++ cs ++ b ++ ',' :: ds)
/-- Keys and values with commas between them and blanks around them. -/
inductive MembersWritten : List (String × Json) → List Char → Prop
  | one (k : String) (v : Json) (a ks a' b' cs b : List Char) : Blanks a → StringWritten k ks → Blanks a' → Blanks b' →
      Written v cs → Blanks b → MembersWritten [(k, v)] (a ++ ks ++ a' ++ ':' :: b' ++ cs ++ b)
  | more (k : String) (v : Json) (a ks a' b' cs b : List Char) (l : List (String × Json)) (ds : List Char) :
      Blanks a → StringWritten k ks → Blanks a' → Blanks b' → Written v cs → Blanks b → MembersWritten l ds →
      MembersWritten ((k, v) :: l) (a ++ ks ++ a' ++ ':' :: b' ++ cs ++ b ++ ',' :: ds)
end

/-- The text is one of the ways to write the value, with any layout. -/
def Writes (text : List Char) (j : Json) : Prop := ∃ a cs b, Blanks a ∧ Written j cs ∧ Blanks b ∧ text = a ++ cs ++ b

/-- Made of constants, strings, lists and objects in which no key occurs twice; no numbers. -/
inductive Plain : Json → Prop
  | null : Plain .null
  | bool (b : Bool) : Plain (.bool b)
  | str (s : String) : Plain (.str s)
  | arr (l : List Json) : (∀ v ∈ l, Plain v) → Plain (.arr l)
  | obj (l : List (String × Json)) : (l.map Prod.fst).Nodup → (∀ e ∈ l, Plain e.2) → Plain (.obj l)

mutual
/-- The lines on which a value at this depth is laid out, each with its depth: a list or object with anything in it has a line
for each bracket, at its own depth, and between them what is in it, one level deeper. -/
inductive Lines : Nat → Json → List (Nat × List Char) → Prop
  | simple (d : Nat) (v : Json) (cs : List Char) : (∀ l, v ≠ .arr l) → (∀ l, v ≠ .obj l) → Written v cs → '\n' ∉ cs → Lines d v [(d, cs)]
  | arr0 (d : Nat) : Lines d (.arr []) [(d, ['[', ']'])]
  | obj0 (d : Nat) : Lines d (.obj []) [(d, ['{', '}'])]
  | arr (d : Nat) (l : List Json) (ls : List (Nat × List Char)) : ElementLines (d + 1) l ls →
      Lines d (.arr l) ((d, ['[']) :: ls ++ [(d, [']'])])
  | obj (d : Nat) (l : List (String × Json)) (ls : List (Nat × List Char)) : MemberLines (d + 1) l ls →
      Lines d (.obj l) ((d, ['{']) :: ls ++ [(d, ['}'])])
/-- Elements, with a comma at the end of each one but the last. -/
inductive ElementLines : Nat → List Json → List (Nat × List Char) → Prop
  | one (d : Nat) (v : Json) (ls : List (Nat × List Char)) : Lines d v ls → ElementLines d [v] ls
  | more (d : Nat) (v : Json) (l : List Json) (ls ms : List (Nat × List Char)) (e : Nat) (t : List Char) :
      Lines d v (ls ++ [(e, t)]) → ElementLines d l ms → ElementLines d (v :: l) (ls ++ (e, t ++ [',']) :: ms)
/-- A key, a colon and a blank in front of the first line of its value. -/
inductive MemberLine : Nat → String → Json → List (Nat × List Char) → Prop
  | mk (d : Nat) (k : String) (v : Json) (ks t : List Char) (ls : List (Nat × List Char)) : StringWritten k ks → '\n' ∉ ks →
      Lines d v ((d, t) :: ls) → MemberLine d k v ((d, ks ++ [':', ' '] ++ t) :: ls)
/-- Keys and values, with a comma at the end of each one but the last. -/
inductive MemberLines : Nat → List (String × Json) → List (Nat × List Char) → Prop
  | one (d : Nat) (k : String) (v : Json) (ls : List (Nat × List Char)) : MemberLine d k v ls → MemberLines d [(k, v)] ls
  | more (d : Nat) (k : String) (v : Json) (l : List (String × Json)) (ls ms : List (Nat × List Char)) (e : Nat) (t : List Char) :
      MemberLine d k v (ls ++ [(e, t)]) → MemberLines d l ms → MemberLines d ((k, v) :: l) (ls ++ (e, t ++ [',']) :: ms)
end

/-- The text with these lines: four blanks for each level of depth in front of a line, a line end between two lines. -/
def laidOut (ls : List (Nat × List Char)) : List Char :=
  List.intercalate ['\n'] (ls.map fun l => List.replicate (4 * l.1) ' ' ++ l.2)

end PashAnn.Spec.JsonText
