/-!
Independent specification of shell word splitting: which character sequences are sequences of words and
what the words are. Nothing here mentions the model.
-/

namespace PashAnn.Spec

/-- Blank characters separate words. -/
def Blank (c : Char) : Prop := c = ' ' ∨ c = '\t' ∨ c = '\r' ∨ c = '\n'

/-- The inside of a double-quoted string and the text it denotes: a backslash escapes only a backslash or
a double quote, before any other character it stands for itself. -/
inductive DQBody : List Char → List Char → Prop
  | nil : DQBody [] []
  | plain {c r v} : c ≠ '"' → c ≠ '\\' → DQBody r v → DQBody (c :: r) (c :: v)
  | escaped {c r v} : c = '\\' ∨ c = '"' → DQBody r v → DQBody ('\\' :: c :: r) (c :: v)
  | backslash {c r v} : c ≠ '\\' → c ≠ '"' → DQBody r v → DQBody ('\\' :: c :: r) ('\\' :: c :: v)

/-- A piece of a word and the text it denotes. -/
inductive Piece : List Char → List Char → Prop
  | plain {c} : ¬ Blank c → c ≠ '\'' → c ≠ '"' → c ≠ '\\' → Piece [c] [c]
  | escaped {c} : Piece ['\\', c] [c]
  | single {body} : '\'' ∉ body → Piece ('\'' :: (body ++ ['\''])) body
  | double {r v} : DQBody r v → Piece ('"' :: (r ++ ['"'])) v

/-- Zero or more pieces written next to each other. -/
inductive Pieces : List Char → List Char → Prop
  | nil : Pieces [] []
  | cons {r v r' v'} : Piece r v → Pieces r' v' → Pieces (r ++ r') (v ++ v')

/-- A word: one or more pieces. -/
def Word (raw val : List Char) : Prop :=
  ∃ r v r' v', Piece r v ∧ Pieces r' v' ∧ raw = r ++ r' ∧ val = v ++ v'

/-- A word ends at the end of the text or at a blank. -/
def AtEnd (rest : List Char) : Prop := rest = [] ∨ ∃ c cs, rest = c :: cs ∧ Blank c

/-- `Lexes text words`: the text consists of these words, separated by blanks. -/
inductive Lexes : List Char → List (List Char) → Prop
  | done {bs} : (∀ c ∈ bs, Blank c) → Lexes bs []
  | word {bs raw val rest ws} : (∀ c ∈ bs, Blank c) → Word raw val → AtEnd rest → Lexes rest ws →
      Lexes (bs ++ raw ++ rest) (val :: ws)

/-- The two ways in which a text can stop in the middle of a word. -/
inductive Unfinished where
  | quotation
  | escape

/-- A last piece that is cut off by the end of the text. -/
inductive Dangling : Unfinished → List Char → Prop
  | escape : Dangling .escape ['\\']
  | single {body} : '\'' ∉ body → Dangling .quotation ('\'' :: body)
  | double {r v} : DQBody r v → Dangling .quotation ('"' :: r)
  | doubleEscape {r v} : DQBody r v → Dangling .escape ('"' :: (r ++ ['\\']))

/-- `Broken why text`: some words, then a word that is cut off. -/
inductive Broken : Unfinished → List Char → Prop
  | here {why bs r v d} : (∀ c ∈ bs, Blank c) → Pieces r v → Dangling why d → Broken why (bs ++ r ++ d)
  | later {why bs raw val rest} : (∀ c ∈ bs, Blank c) → Word raw val → AtEnd rest → Broken why rest →
      Broken why (bs ++ raw ++ rest)

end PashAnn.Spec
