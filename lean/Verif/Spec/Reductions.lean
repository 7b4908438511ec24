import Verif.Spec.Programs

/-!
What the programs in the table of reductions of the older annotations do, after their manuals. A text is a list of characters, an
input of lines a list of lines of any kind.
-/

namespace PashAnn.Spec.Reductions
open PashAnn.Spec (squeeze)

/-- `g` makes the output for an input from the outputs for its two parts, wherever it is cut. -/
def Combines {α β : Type} (f : List α → β) (g : β → β → β) : Prop := ∀ x y, f (x ++ y) = g (f x) (f y)

/-- An input cut into parts, and the order in which outputs are combined: those for two neighbours at a time. -/
inductive Cut (α : Type) where
  | part (x : List α)
  | both (l r : Cut α)

/-- The input. -/
def Cut.whole {α : Type} : Cut α → List α
  | part x => x
  | both l r => l.whole ++ r.whole

/-- The outputs for the parts, combined. -/
def Cut.combined {α β : Type} (f : List α → β) (g : β → β → β) : Cut α → β
  | part x => f x
  | both l r => g (l.combined f g) (r.combined f g)

/-- `tr`: each character is translated or deleted. -/
def tr (image : Char → Option Char) (x : List Char) : List Char := x.filterMap image

/-- `tr -s`: each character is translated, and then repetitions of characters in the set are removed. -/
def trSqueeze (image : Char → Char) (set : Char → Bool) (x : List Char) : List Char := squeeze set (x.map image)

/-- `nl`: some of the lines (those that are not empty, or all of them) are numbered, from `n + 1` on. -/
def nlFrom {α : Type} (numbered : α → Bool) (n : Nat) : List α → List (Option Nat × α)
  | [] => []
  | l :: x => if numbered l then (some (n + 1), l) :: nlFrom numbered (n + 1) x else (none, l) :: nlFrom numbered n x

/-- `nl`, from 1 on. -/
def nl {α : Type} (numbered : α → Bool) (x : List α) : List (Option Nat × α) := nlFrom numbered 0 x

/-- `join`: for each line of the first input, the lines of the second with the same key, in order. -/
def join {α β κ γ : Type} [DecidableEq κ] (key : α → κ) (key' : β → κ) (pair : α → β → γ) (x : List α) (z : List β) : List γ :=
  x.flatMap fun l => (z.filter fun l' => key l = key' l').map (pair l)

/-- `rev`: the characters of each line in reverse order. -/
def rev (x : List (List Char)) : List (List Char) := x.map List.reverse

/-- `tac`: the lines in reverse order. -/
def tac {α : Type} (x : List α) : List α := x.reverse

/-- `uniq -c`: the lines without their immediate repetitions, and how often each comes. -/
def runs {α : Type} [DecidableEq α] : List α → List (α × Nat)
  | [] => []
  | l :: x => match runs x with
    | [] => [(l, 1)]
    | (k, n) :: r => if l = k then (k, n + 1) :: r else (l, 1) :: (k, n) :: r

/-- `uniq`. -/
def uniq {α : Type} [DecidableEq α] (x : List α) : List α := (runs x).map (·.1)

/-- `uniq -d`: one line for each that is repeated. -/
def uniqRepeated {α : Type} [DecidableEq α] (x : List α) : List α := ((runs x).filter fun r => 2 ≤ r.2).map (·.1)

/-- Characters of words that begin: those that are not blank, after a blank (or at the beginning). -/
def wordsAfter (blank : Char → Bool) (start : Bool) : List Char → Nat
  | [] => 0
  | c :: x => (if start && !blank c then 1 else 0) + wordsAfter blank (blank c) x

/-- `wc`: the numbers of lines, of words and of characters. -/
def wc (blank : Char → Bool) (x : List Char) : Nat × Nat × Nat := (x.count '\n', wordsAfter blank true x, x.length)

/-- `sort`: some list of the same lines in order. -/
def Sorts {α : Type} (le : α → α → Prop) (f : List α → List α) : Prop := ∀ x, (f x).Pairwise le ∧ (f x).Perm x

/-- `sort -m`: the same for inputs that are in order. -/
def Merges {α : Type} (le : α → α → Prop) (m : List α → List α → List α) : Prop :=
  ∀ a b, a.Pairwise le → b.Pairwise le → (m a b).Pairwise le ∧ (m a b).Perm (a ++ b)

end PashAnn.Spec.Reductions
