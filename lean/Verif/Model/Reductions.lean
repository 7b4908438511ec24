/-!
The table of reductions of the older annotations (old_annotations/p_stats/mr.md:1-19): how the outputs `a` and `b` of a command for
the two parts of its input are to be combined. `init`, `last`, `head` and `tail` are read as what `head -n -1`, `tail -n 1`,
`head -n 1` and `tail -n +2` give, so that they are defined for empty outputs. The `+` in the line
for `uniq -c` is not explained (mr.md:9); it is read as in `nl` and `wc`, as an addition of numbers. Not modelled: the line for `join -e`, which is
empty (mr.md:13).
-/

namespace PashAnn.Reductions

/-- The last element, if there is one (mr.md:4 and 10-11: `last`). -/
def last {α : Type} (a : List α) : List α := a.drop (a.length - 1)

/-- `a ++ b` (mr.md:3, 6 and 7). -/
def concat {α : Type} (a b : List α) : List α := a ++ b

/-- `(init a) ++ (f (last a) ++ (head b)) ++ (tail b)` (mr.md:4, 10 and 11): `f` is the command again. -/
def atTheSeam {α : Type} (f : List α → List α) (a b : List α) : List α := a.dropLast ++ f (last a ++ b.take 1) ++ b.drop 1

/-- `a ++ map (\e -> ((last unzip a) + (fst e)), snd e)) b` (mr.md:5): the last number of `a` is added to those of `b`. Lines without a
number are passed over, and there is nothing to add if `a` has no numbers. -/
def renumber {α : Type} (a b : List (Option Nat × α)) : List (Option Nat × α) :=
  a ++ b.map fun e => (e.1.map ((a.filterMap (·.1)).getLast?.getD 0 + ·), e.2)

/-- `b ++ a` (mr.md:8). -/
def swapped {α : Type} (a b : List α) : List α := b ++ a

/-- `a + b` (mr.md:9), for lines with their counts: the counts are added where the lines at the seam are the same. Simplified: the notation says
nothing about other lines, which are kept. -/
def addCounts {α : Type} [DecidableEq α] (a b : List (α × Nat)) : List (α × Nat) :=
  match a.getLast?, b with
  | some (k, n), (k', n') :: r => if k = k' then a.dropLast ++ (k, n + n') :: r else a ++ b
  | _, _ => a ++ b

/-- `(((fst a) + (fst b)), ((med a) + (med b)), ((lst a) + (lst b)))` (mr.md:14). -/
def sums (a b : Nat × Nat × Nat) : Nat × Nat × Nat := (a.1 + b.1, a.2.1 + b.2.1, a.2.2 + b.2.2)

/-- `a + b` (mr.md:15). -/
def sum (a b : Nat) : Nat := a + b

/-- `a` (mr.md:18). -/
def first {α : Type} (a _b : List α) : List α := a

end PashAnn.Reductions
