import Verif.Spec.Programs

/-! `col` after its manual, for C103: a text is written on a page, where the cursor can go back up. -/

namespace PashAnn.Spec

/-- A page: the row and the column of the cursor, the number of rows that are used, and the characters written so far with their
rows and columns. -/
structure Page where
  row : Nat
  column : Nat
  rows : Nat
  cells : List (Nat × Nat × Char)

/-- What a character of the input does: a newline ends a row; the vertical tab goes up one line, but not above the first; blanks, tabs, backspaces and
carriage returns move within the line; `graphic` characters are written, others ignored. -/
def Page.write (graphic : Char → Bool) (p : Page) (c : Char) : Page :=
  if c = '\n' then { p with row := p.row + 1, column := 0, rows := max p.rows (p.row + 1) }
  else if c = '\x0b' then { p with row := p.row - 1 }
  else if c = '\x08' then { p with column := p.column - 1 }
  else if c = '\r' then { p with column := 0 }
  else if c = ' ' then { p with column := p.column + 1 }
  else if c = '\t' then { p with column := (p.column / 8 + 1) * 8 }
  else if graphic c then 
    { p with column := p.column + 1, rows := max p.rows (p.row + 1), cells := p.cells ++ [(p.row, p.column, c)] }
  else p

/-- The page with a text. -/
def pageOf (graphic : Char → Bool) (x : Text) : Page := x.foldl (Page.write graphic) ⟨0, 0, 0, []⟩

/-- What is in a row, in the order of writing. -/
def Page.inRow (p : Page) (r : Nat) : List (Nat × Char) := (p.cells.filter fun e => e.1 == r).map fun e => e.2

/-- Texts without half-line motions and changes of the character set. -/
def NoEscapes (x : Text) : Prop := '\x1b' ∉ x ∧ '\x0e' ∉ x ∧ '\x0f' ∉ x

/-- `col` prints the rows of the page from top to bottom, each as one line whose contents depend on the options; for texts that
end with a newline, and without `-p`. -/
structure ColProgram (prog : ProgramsOn Char) (graphic : Char → Bool)
    (line : List FlagOptionWithIOVar → List (Nat × Char) → Text) : Prop where
  output : ∀ fl x, (∀ o ∈ fl, o.getName ∈ ["-b", "-f", "-h", "-x"]) → NoEscapes x → (x = [] ∨ x.getLast? = some '\n') →
    prog "col" fl [] [x] = (List.range (pageOf graphic x).rows).flatMap fun r => line fl ((pageOf graphic x).inRow r) ++ ['\n']
  oneLine : ∀ fl cells, '\n' ∉ line fl cells
  letters : graphic 'a' = true ∧ graphic 'b' = true

/-- A part that can be treated apart from what is before and after it: the cursor never goes above the row where the part begins, and
in the end it is below all rows that are used. -/
def Separate (graphic : Char → Bool) (part : Text) : Prop :=
  (∀ pre post, part = pre ++ '\x0b' :: post → (pageOf graphic pre).row ≠ 0) ∧
    (pageOf graphic part).row = (pageOf graphic part).rows

end PashAnn.Spec
