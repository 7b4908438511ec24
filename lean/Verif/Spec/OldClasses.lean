import Verif.Spec.Old
import Verif.Spec.Programs

/-!
Specification vocabulary for C121: what the class `stateless` of the older annotations promises (pash_annotations/old_annotations/README.md:15-20),
when grep keeps it, and `cat` with its options, after the manual.
-/

namespace PashAnn.Spec

/-- On texts: what follows the end of a line is treated as if nothing came before it. -/
def LineWiseText (f : Text → Text) : Prop := ∀ x y, x = [] ∨ x.getLast? = some '\n' → f (x ++ y) = f x ++ f y

/-- The options let grep treat each line by itself: nothing is printed at all; or lines are printed, as many as match, without
numbers, and without lines around them or separators between them. -/
def GrepByLines (g : GrepParameters) (fl : List FlagOptionWithIOVar) : Prop :=
  Given fl "-q" ∨ (GrepParameters.listing fl ≠ some "-L" ∧ g.limit fl = some 0) ∨
  (GrepParameters.listing fl = none ∧ g.limit fl = none ∧ ¬ (∃ n ∈ ["-c", "-n", "-b"], Given fl n) ∧
    (GrepParameters.context fl → g.before fl = 0 ∧ g.after fl = 0 ∧ g.separator fl = []))

/-- A search with which one can see what grep does: a line that matches and one that does not, something is printed for the one if
it is found and for the other if it is shown beside a match, and numbers of lines and offsets can be seen. -/
structure Telling (g : GrepParameters) (fl : List FlagOptionWithIOVar) (strs : List String) (found other : String) : Prop where
  succeeds : g.matching fl strs found = true
  fails : g.matching fl strs other = false
  prints : ∀ a b, g.print fl true a b found ≠ []
  beside : ∀ a b, g.print fl false a b other ≠ []
  numbers : ∀ sel sel' b b', g.print fl sel (some 1) b found ≠ g.print fl sel' (some 2) b' found
  offsets : ∀ sel sel' a a' k, 0 < k → g.print fl sel a (some 0) found ≠ g.print fl sel' a' (some k) found

/-- Of adjacent empty lines only one is left. -/
def squeezeBlank : Stream → Stream
  | a :: b :: x => if a = "" ∧ b = "" then squeezeBlank (b :: x) else a :: squeezeBlank (b :: x)
  | x => x

/-- Lines with their numbers, from `k`: with `-b` lines that are not empty, else with `-n` all lines. -/
def numberLines (fl : List FlagOptionWithIOVar) (k : Nat) : Stream → List (Option Nat × String)
  | [] => []
  | l :: x =>
      if (Given fl "-b" ∧ l ≠ "") ∨ (¬ Given fl "-b" ∧ Given fl "-n") then (some k, l) :: numberLines fl (k + 1) x
      else (none, l) :: numberLines fl k x

/-- `cat` behaves like its manual says, on one input. How a line is shown depends on the other options; its number can be seen. -/
structure CatLines (prog : Programs) (shows : List FlagOptionWithIOVar → Option Nat → String → String) : Prop where
  output : ∀ fl x, (∀ o ∈ fl, o.getName ∈ ["-A", "-b", "-e", "-E", "-n", "-s", "-t", "-T", "-u", "-v"]) →
    prog "cat" fl [] [x] = (numberLines fl 1 (if Given fl "-s" then squeezeBlank x else x)).map fun q => shows fl q.1 q.2
  numbers : ∀ fl l a b, a ≠ b → shows fl (some a) l ≠ shows fl (some b) l

end PashAnn.Spec
