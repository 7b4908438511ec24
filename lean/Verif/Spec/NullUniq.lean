import Verif.Spec.Programs

/-! `uniq -z`, and joining texts at adjacent lines or records, for C70. -/

namespace PashAnn.Spec

/-- The pieces of a text, each with its end `d`; the last one may have none. -/
def piecesOf (d : Char) : Text → List Text
  | [] => []
  | c :: x => if c = d then [d] :: piecesOf d x else match piecesOf d x with
    | [] => [[c]]
    | p :: ps => (c :: p) :: ps

/-- Joining two texts at adjacent pieces: the command is applied to the last piece of the left and the first piece of the right
one (AggregatorKind.py:5-6, 10). An empty text has no pieces. -/
def spliceAt (d : Char) (f : Text → Text) (a b : Text) : Text :=
  match (piecesOf d a).getLast?, piecesOf d b with
  | some l, r :: rs => (piecesOf d a).dropLast.flatten ++ f (l ++ r) ++ rs.flatten
  | _, _ => a ++ b

/-- Joining consecutive outputs at adjacent pieces, in any order. -/
inductive SplicedAt (d : Char) (f : Text → Text) : List Text → Text → Prop
  | leaf (s : Text) : SplicedAt d f [s] s
  | node {l r : List Text} {a b : Text} (hl : SplicedAt d f l a) (hr : SplicedAt d f r b) :
      SplicedAt d f (l ++ r) (spliceAt d f a b)

/-- Executing a parallelizer that joins at adjacent pieces: the mapper is run on each part, and the outputs are joined. -/
def ExecutesAt (d : Char) (prog : ProgramsOn Char) (p : Parallelizer) (c : CommandInvocationWithIOVars) (parts : List Text)
    (y : Text) : Prop :=
  p.coreAggregatorSpec.kind = .adjLinesSeq ∧
    ∃ runs : List (Text × Text), parts = runs.map Prod.fst ∧ (∀ r ∈ runs, MapperRun prog p c r.1 r.2) ∧
      SplicedAt d (sequential prog c) (runs.map Prod.snd) y

/-- The groups of consecutive records that compare equal to their predecessor. -/
def recordGroups (same : Text → Text → Bool) : List Text → List (List Text)
  | [] => []
  | l :: x => match recordGroups same x with
    | (k :: g) :: gs => if same l k then (l :: k :: g) :: gs else [l] :: (k :: g) :: gs
    | gs => [l] :: gs

/-- `uniq -z` shows the first record of each group, followed by a null character; with `-u` only of groups with one record, and
with `-d` only of groups with more. -/
def UniqNullProgram (prog : ProgramsOn Char) (same : List FlagOptionWithIOVar → Text → Text → Bool) : Prop :=
  ∀ fl x, Covered "uniq" fl → Given fl "-z" → ¬ (∃ n ∈ ["-c", "-D", "--all-repeated", "--group"], Given fl n) →
    prog "uniq" fl [] [x] = (recordGroups (same fl) (records x)).flatMap fun g =>
      if (Given fl "-u" ∧ 1 < g.length) ∨ (Given fl "-d" ∧ g.length ≤ 1) then [] else g.headD [] ++ ['\x00']

end PashAnn.Spec
