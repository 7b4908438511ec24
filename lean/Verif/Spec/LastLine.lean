import Verif.Spec.Programs

/-!
Inputs as texts instead of lists of lines, for C111: the last line of a text need not be complete, that is, end with a newline.
-/

namespace PashAnn.Spec

/-- The lines of a text, without the newlines. What comes after the last newline is a line if it is not empty. -/
def rawLines : Text → List (List Char)
  | [] => []
  | '\n' :: t => [] :: rawLines t
  | c :: t =>
    match rawLines t with
    | [] => [[c]]
    | l :: ls => (c :: l) :: ls

/-- The lines of a text as strings. -/
def textLines (t : Text) : Stream := (rawLines t).map String.ofList

/-- Lines as a text, each with a newline. -/
def complete (ls : Stream) : Text := ls.flatMap fun l => l.toList ++ ['\n']

/-- The text is empty or its last line is complete. -/
def EndsLine (t : Text) : Prop := t = [] ∨ t.getLast? = some '\n'

/-- All parts that are followed by something end at the end of a line. -/
def CutAtLines (parts : List Text) : Prop :=
  ∀ before part after, parts = before ++ part :: after → after.flatten ≠ [] → EndsLine part

/-- No line has a newline in it. -/
def NoNewlines (ls : Stream) : Prop := ∀ l ∈ ls, '\n' ∉ l.toList

/-- The programs on texts read lines, the last of which need not be complete, and write complete lines, as `grep`, `cut`,
`sort` and `uniq` do; `cat` copies its inputs. -/
structure Completes (texts : ProgramsOn Char) (lines : Programs) : Prop where
  cat : CatProgram texts
  others : ∀ name fl strs ins, name ≠ "cat" → texts name fl strs ins = complete (lines name fl strs (ins.map textLines))

/-- The programs on lines write no newlines inside of lines if they read none. -/
def LinePrograms (lines : Programs) : Prop :=
  ∀ name fl strs ins, (∀ x ∈ ins, NoNewlines x) → NoNewlines (lines name fl strs ins)

/-- Dealing blocks of a text to workers, in order; only the last block need not end at the end of a line. -/
inductive TextDealt : Text → List Text → Prop
  | start (workers : Nat) : TextDealt [] (List.replicate workers [])
  | block {x worker block : Text} {before after : List Text} (h : TextDealt x (before ++ worker :: after)) (hx : EndsLine x) :
      TextDealt (x ++ block) (before ++ (worker ++ block) :: after)

/-- What a splitter makes of a text: parts that are cut at the ends of lines. -/
def TextParts : Splitter → Text → List Text → Prop
  | .roundRobinUnwrapFlag, x, parts => TextDealt x parts
  | _, x, parts => parts.flatten = x ∧ CutAtLines parts

/-- A program that works line by line and leaves the last line incomplete if it is so in the input, as `sed` does: what is printed
for the lines that are complete ends with newlines, what is printed for the other one has none at its end. -/
def keeping (f : String → Stream) (t : Text) : Text :=
  complete ((textLines t).dropLast.flatMap f) ++
    (match (textLines t).getLast? with
     | none => []
     | some l => if t.getLast? = some '\n' then complete (f l) else (complete (f l)).dropLast)

end PashAnn.Spec
