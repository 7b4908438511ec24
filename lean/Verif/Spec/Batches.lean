import Verif.Spec.Programs

/-!
`xargs -n K` and `xargs -L K`, after the manual, for C68.
-/

namespace PashAnn.Spec

/-- `gs` is `ws` cut into groups of `k`, of which the last one may be smaller; no group is empty. -/
structure Grouped {α : Type} (k : Nat) (ws : List α) (gs : List (List α)) : Prop where
  all : gs.flatten = ws
  full : ∀ g ∈ gs.dropLast, g.length = k
  size : ∀ g ∈ gs, g ≠ [] ∧ g.length ≤ k

/-- `xargs -n K` behaves like its manual says, for lines of blank-separated words without quotes and words that fit in a
command line: the command is run for the first `K` words, then for the next `K`, and at last for those that remain; if
there are no words, once without arguments, and with `-r` not at all. `run` is what the command prints when it is run
with some words as arguments. -/
def XargsBatches (prog : Programs) (words : String → List String)
    (run : List FlagOptionWithIOVar → List String → List String → Stream) : Prop :=
  ∀ fl strs x k gs, Covered "xargs" fl → argOf fl "-n" = some (toString (k + 1)) →
    ¬ (∃ n ∈ ["--null", "--delimiter", "-E", "-I", "-L", "-a"], Given fl n) → Grouped (k + 1) (x.flatMap words) gs →
    prog "xargs" fl strs [x] =
      if x.flatMap words = [] then (if Given fl "-r" then [] else run fl strs []) else gs.flatMap (run fl strs)

/-- The words of the lines that have any. -/
def filled (words : String → List String) (x : Stream) : List (List String) :=
  (x.map words).filter (fun ws => decide (ws ≠ []))

/-- `xargs -L K` behaves like its manual says, for lines of blank-separated words without quotes, none of which ends with
a blank, that fit in a command line: the command is run with the words of the first `K` lines that have words, then with
those of the next `K`, and at last with those that remain; if there are no words, once without arguments, and with `-r`
not at all. -/
def XargsLineBatches (prog : Programs) (words : String → List String)
    (run : List FlagOptionWithIOVar → List String → List String → Stream) : Prop :=
  ∀ fl strs x k gs, Covered "xargs" fl → argOf fl "-L" = some (toString (k + 1)) →
    ¬ (∃ n ∈ ["--null", "--delimiter", "-E", "-I", "-n", "-a"], Given fl n) →
    (∀ l ∈ x, l.toList.getLast? ≠ some ' ' ∧ l.toList.getLast? ≠ some '\t') → Grouped (k + 1) (filled words x) gs →
    prog "xargs" fl strs [x] =
      if filled words x = [] then (if Given fl "-r" then [] else run fl strs [])
      else gs.flatMap (fun lines => run fl strs lines.flatten)

end PashAnn.Spec
