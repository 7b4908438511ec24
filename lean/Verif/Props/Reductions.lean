import Verif.Model.Reductions
import Verif.Spec.Reductions

/-!
Property C124: the table of reductions of the older annotations. Specification: `Spec/Reductions.lean` (the programs and what it means
that a reduction combines their outputs).
-/

namespace PashAnn
open Spec.Reductions Reductions
open Spec (squeeze)

/-- A reduction that is right for two parts is right for any number of them, in whatever order neighbours are combined; and a reduction that is right for all
numbers of parts is right for two. -/
theorem C124_parts {α β : Type} (f : List α → β) (g : β → β → β) :
    Combines f g ↔ ∀ c : Cut α, c.combined f g = f c.whole := by
  constructor
  · intro h c
    induction c with
    | part x => rfl
    | both l r hl hr => rw [Cut.combined, hl, hr, Cut.whole, h]
  · intro h x y
    exact (h (.both (.part x) (.part y))).symm

/-- `tr` without `-s`, `cat`, and `join` with the first input cut. -/
theorem C124_concat :
    (∀ image, Combines (tr image) concat) ∧ (∀ α, Combines (id : List α → List α) concat) ∧
    ∀ (α β κ γ : Type) [DecidableEq κ] (key : α → κ) (key' : β → κ) (pair : α → β → γ) (z : List β),
      Combines (fun x => join key key' pair x z) concat :=
  ⟨fun _ _ _ => List.filterMap_append, fun _ _ _ => rfl, fun _ _ _ _ _ _ _ _ _ _ _ => List.flatMap_append⟩

example : join (· % 2) (· % 2) Prod.mk [1, 2, 3] [5, 6] = concat (join (· % 2) (· % 2) Prod.mk [1] [5, 6]) (join (· % 2) (· % 2) Prod.mk [2, 3] [5, 6]) ∧
    join (· % 2) (· % 2) Prod.mk [1, 2, 3] [5, 6] = [(1, 5), (2, 6), (3, 5)] := by decide

/-- With the second input cut, `join` gives its lines in another order. -/
theorem C124_join_false : ¬ ∀ (key : Nat → Unit) (pair : Nat → Nat → Nat × Nat) (x : List Nat),
    Combines (fun z => join key key pair x z) concat := by
  intro h
  exact absurd (h (fun _ => ()) Prod.mk [1, 2] [3] [4]) (by decide)

/-- With the second input cut, `join` is right if the lines of the first that have partners in the second part come after those that have partners in
the first part. -/
theorem C124_join_partial {α β κ γ : Type} [DecidableEq κ] (key : α → κ) (key' : β → κ) (pair : α → β → γ) (x x' : List α) (z z' : List β)
    (h : ∀ l ∈ x, ∀ m ∈ z', key l ≠ key' m) (h' : ∀ l ∈ x', ∀ m ∈ z, key l ≠ key' m) :
    join key key' pair (x ++ x') (z ++ z') = concat (join key key' pair (x ++ x') z) (join key key' pair (x ++ x') z') := by
  have none : ∀ (u : List α) (w : List β), (∀ l ∈ u, ∀ m ∈ w, key l ≠ key' m) → join key key' pair u w = [] := by
    intro u w hu
    simp only [join, List.flatMap_eq_nil_iff, List.map_eq_nil_iff, List.filter_eq_nil_iff, decide_eq_true_eq]
    exact hu
  have left : join key key' pair x (z ++ z') = join key key' pair x z := by
    simp only [join, List.flatMap_def]
    refine congrArg List.flatten (List.map_congr_left fun l hl => ?_)
    have : z'.filter (fun m => decide (key l = key' m)) = [] := by
      simpa [List.filter_eq_nil_iff] using h l hl
    rw [List.filter_append, this, List.append_nil]
  have right : join key key' pair x' (z ++ z') = join key key' pair x' z' := by
    simp only [join, List.flatMap_def]
    refine congrArg List.flatten (List.map_congr_left fun l hl => ?_)
    have : z.filter (fun m => decide (key l = key' m)) = [] := by
      simpa [List.filter_eq_nil_iff] using h' l hl
    rw [List.filter_append, this, List.nil_append]
  have split : ∀ w, join key key' pair (x ++ x') w = join key key' pair x w ++ join key key' pair x' w := fun w => List.flatMap_append
  rw [split, split, split, left, right, none x z' h, none x' z h']
  simp [concat]

/-- This is so if the first input is in the order of its keys and the second one is cut between two keys. -/
theorem C124_join_sorted_partial {α β γ : Type} (key : α → Nat) (key' : β → Nat) (pair : α → β → γ) (x : List α) (hx : x.Pairwise (key · ≤ key ·))
    (z z' : List β) (k : Nat) (hz : ∀ m ∈ z, key' m ≤ k) (hz' : ∀ m ∈ z', k < key' m) :
    join key key' pair x (z ++ z') = concat (join key key' pair x z) (join key key' pair x z') := by
  have hsplit : ∃ u u', x = u ++ u' ∧ (∀ l ∈ u, key l ≤ k) ∧ ∀ l ∈ u', k < key l := by
    clear hz hz'
    induction x with
    | nil => exact ⟨[], [], rfl, by simp, by simp⟩
    | cons a x ih =>
        by_cases ha : key a ≤ k
        · obtain ⟨u, u', rfl, h1, h2⟩ := ih (List.pairwise_cons.1 hx).2
          exact ⟨a :: u, u', rfl, by simpa using ⟨ha, h1⟩, h2⟩
        · refine ⟨[], a :: x, rfl, by simp, fun l hl => ?_⟩
          rcases List.mem_cons.1 hl with rfl | hl
          · omega
          · have := (List.pairwise_cons.1 hx).1 l hl
            omega
  obtain ⟨u, u', rfl, h1, h2⟩ := hsplit
  refine C124_join_partial key key' pair u u' z z' (fun l hl m hm e => ?_) (fun l hl m hm e => ?_)
  · have := h1 l hl
    have := hz' m hm
    omega
  · have := h2 l hl
    have := hz m hm
    omega

example : join id Prod.fst Prod.mk [1, 1, 2] ([(1, 'a'), (1, 'b')] ++ [(2, 'c')]) =
    [(1, 1, 'a'), (1, 1, 'b'), (1, 1, 'a'), (1, 1, 'b'), (2, 2, 'c')] := by decide

private theorem nlFrom_append {α : Type} (numbered : α → Bool) (y : List α) : ∀ (x : List α) (n : Nat),
    nlFrom numbered n (x ++ y) = nlFrom numbered n x ++ nlFrom numbered (((nlFrom numbered n x).filterMap (·.1)).getLast?.getD n) y := by
  intro x
  induction x with
  | nil => intro n; rfl
  | cons l x ih =>
      intro n
      rw [List.cons_append, nlFrom, nlFrom]
      split
      · rw [ih]
        simp only [List.cons_append, List.filterMap_cons, List.getLast?_cons, Option.getD_some]
      · rw [ih]
        simp only [List.cons_append, List.filterMap_cons]

private theorem nlFrom_shift {α : Type} (numbered : α → Bool) (k : Nat) : ∀ (y : List α) (n : Nat),
    nlFrom numbered (k + n) y = (nlFrom numbered n y).map fun e => (e.1.map (k + ·), e.2) := by
  intro y
  induction y with
  | nil => intro n; rfl
  | cons l y ih =>
      intro n
      rw [nlFrom, nlFrom]
      split
      · rw [show k + n + 1 = k + (n + 1) by omega, ih]; rfl
      · rw [ih]; rfl

/-- `nl`, whichever lines it numbers. -/
theorem C124_nl (α : Type) (numbered : α → Bool) : Combines (nl numbered) renumber := by
  intro x y
  unfold nl renumber
  rw [nlFrom_append]
  congr 1
  exact nlFrom_shift numbered _ y 0

example : nl (α := Nat) (· ≠ 0) [7, 0, 8] = [(some 1, 7), (none, 0), (some 2, 8)] ∧
    renumber (nl (α := Nat) (· ≠ 0) [7, 0, 8]) (nl (· ≠ 0) [9]) = [(some 1, 7), (none, 0), (some 2, 8), (some 3, 9)] := by decide

/-- For `rev` the table has the reduction of `tac`: it is right only for parts of which it does not matter which is first. The reduction of `cat`
would be right. -/
theorem C124_rev_exact :
    (∀ x y, rev (x ++ y) = swapped (rev x) (rev y) ↔ x ++ y = y ++ x) ∧ Combines rev concat ∧ ∀ α, Combines (tac : List α → List α) swapped := by
  refine ⟨fun x y => ?_, fun _ _ => List.map_append, fun _ _ _ => List.reverse_append⟩
  unfold rev swapped
  rw [← List.map_append]
  refine ⟨fun h => ?_, fun h => by rw [h]⟩
  have := congrArg (List.map List.reverse) h
  simpa [Function.comp_def] using this

theorem C124_rev_false : ¬ Combines rev swapped := fun h => absurd ((C124_rev_exact.1 [['a']] [['b']]).1 (h _ _)) (by decide)

/-! `wc`. -/

private theorem wordsAfter_append (blank : Char → Bool) (y : List Char) : ∀ (x : List Char) (s : Bool),
    wordsAfter blank s (x ++ y) = wordsAfter blank s x + wordsAfter blank ((x.getLast?.map blank).getD s) y := by
  intro x
  induction x with
  | nil => intro s; simp [wordsAfter]
  | cons c x ih =>
      intro s
      rw [List.cons_append, wordsAfter, wordsAfter, ih]
      have : (((c :: x).getLast?).map blank).getD s = ((x.getLast?).map blank).getD (blank c) := by
        cases x with
        | nil => rfl
        | cons d x => simp [List.getLast?_cons]
      rw [this]
      omega

/-- `wc`: the sums are right exactly if the input is not cut within a word; lines and characters are always right. -/
theorem C124_wc_exact (blank : Char → Bool) :
    (∀ x y, wc blank (x ++ y) = sums (wc blank x) (wc blank y) ↔
      ¬ ∃ c d, x.getLast? = some c ∧ y.head? = some d ∧ blank c = false ∧ blank d = false) ∧
    Combines (fun x => (wc blank x).1) sum ∧ Combines (fun x => (wc blank x).2.2) sum := by
  refine ⟨fun x y => ?_, fun x y => List.count_append, fun x y => List.length_append⟩
  simp only [wc, sums, List.count_append, List.length_append, Prod.mk.injEq, true_and, and_true, wordsAfter_append]
  rw [Nat.add_left_cancel_iff]
  cases hx : x.getLast? with
  | none => simp
  | some c =>
      cases y with
      | nil => simp [wordsAfter]
      | cons d y =>
          simp only [Option.map_some, Option.getD_some, wordsAfter, List.head?_cons, Option.some.injEq]
          have : (¬ ∃ c_1 d_1, c = c_1 ∧ d = d_1 ∧ blank c_1 = false ∧ blank d_1 = false) ↔ ¬ (blank c = false ∧ blank d = false) := by
            constructor
            · rintro h ⟨h1, h2⟩
              exact h ⟨c, d, rfl, rfl, h1, h2⟩
            · rintro h ⟨_, _, rfl, rfl, h1, h2⟩
              exact h ⟨h1, h2⟩
          rw [this]
          rcases Bool.eq_false_or_eq_true (blank c) with hc | hc <;> rcases Bool.eq_false_or_eq_true (blank d) with hd | hd <;> simp [hc, hd]

example : wc (fun c => c = ' ' || c = '\n') ['a', ' ', 'b', '\n'] = (1, 2, 4) := by decide

theorem C124_wc_false : ¬ ∀ blank, Combines (wc blank) sums :=
  fun h => absurd (h (· = ' ') ['a'] ['b']) (by decide)

/-- Cut at the end of a line, as the splitters of the library do. -/
theorem C124_wc_partial (blank : Char → Bool) (hb : blank '\n' = true) (x y : List Char) (hx : x = [] ∨ x.getLast? = some '\n') :
    wc blank (x ++ y) = sums (wc blank x) (wc blank y) := by
  refine ((C124_wc_exact blank).1 x y).2 ?_
  rintro ⟨c, d, h1, _, h2, _⟩
  rcases hx with rfl | hx
  · simp at h1
  · rw [hx] at h1
    cases h1
    rw [hb] at h2
    cases h2

/-! `uniq`. -/

private theorem runs_append {α : Type} [DecidableEq α] (y : List α) : ∀ x : List α,
    (runs (x ++ y) = runs x ++ runs y ∧ ∀ v, x.getLast? = some v → y.head? ≠ some v) ∨
    ∃ r k n n' r', runs x = r ++ [(k, n)] ∧ runs y = (k, n') :: r' ∧ runs (x ++ y) = r ++ (k, n + n') :: r' := by
  have hhead : ∀ {z : List α} {k n r}, runs z = (k, n) :: r → z.head? = some k := by
    intro z k n r h
    cases z with
    | nil => simp [runs] at h
    | cons l z =>
        rw [runs] at h
        split at h
        · cases h; rfl
        · split at h
          · rename_i hlk; cases h; rw [← hlk]; rfl
          · cases h; rfl
  intro x
  induction x with
  | nil => left; simp [runs]
  | cons l x ih =>
      rcases ih with ⟨h1, h2⟩ | ⟨r, k, n, n', r', h1, h2, h3⟩
      · cases x with
        | nil =>
            cases hy : runs y with
            | nil =>
                left
                constructor
                · simp [runs, hy]
                · intro v _ hv
                  cases y with
                  | nil => simp at hv
                  | cons d y => rw [runs] at hy; split at hy <;> (try split at hy) <;> cases hy
            | cons p r' =>
                obtain ⟨k, n'⟩ := p
                by_cases hlk : l = k
                · right
                  exact ⟨[], k, 1, n', r', by simp [runs, hlk], rfl, by simp [runs, hy, hlk, Nat.add_comm]⟩
                · left
                  constructor
                  · simp [runs, hy, hlk]
                  · intro v hv hv'
                    rw [hhead hy] at hv'
                    simp at hv hv'
                    exact hlk (hv.trans hv'.symm)
        | cons d x =>
            left
            constructor
            · rw [List.cons_append, runs, h1]
              conv => rhs; rw [runs]
              cases hx : runs (d :: x) with
              | nil => rw [runs] at hx; split at hx <;> (try split at hx) <;> cases hx
              | cons p r =>
                  simp only [List.cons_append]
                  split <;> rfl
            · intro v hv
              rw [List.getLast?_cons_cons] at hv
              exact h2 v hv
      · right
        cases r with
        | nil =>
            rw [List.nil_append] at h1 h3
            by_cases hlk : l = k
            · exact ⟨[], k, n + 1, n', r', by rw [runs, h1]; simp [hlk], h2, by
                rw [List.cons_append, runs, h3]; simp [hlk]; omega⟩
            · exact ⟨[(l, 1)], k, n, n', r', by rw [runs, h1]; simp [hlk], h2, by rw [List.cons_append, runs, h3]; simp [hlk]⟩
        | cons p r =>
            obtain ⟨k', m⟩ := p
            by_cases hlk : l = k'
            · exact ⟨(k', m + 1) :: r, k, n, n', r', by rw [runs, h1]; simp [hlk], h2, by rw [List.cons_append, runs, h3]; simp [hlk]⟩
            · exact ⟨(l, 1) :: (k', m) :: r, k, n, n', r', by rw [runs, h1]; simp [hlk], h2, by rw [List.cons_append, runs, h3]; simp [hlk]⟩

private theorem runs_pos {α : Type} [DecidableEq α] : ∀ (x : List α), ∀ p ∈ runs x, 1 ≤ p.2 := by
  intro x
  induction x with
  | nil => simp [runs]
  | cons l x ih =>
      intro p hp
      rw [runs] at hp
      split at hp
      · simp at hp; simp [hp]
      · rename_i k n r hr
        rw [hr] at ih
        split at hp
        · rcases List.mem_cons.1 hp with rfl | hp
          · simp
          · exact ih p (by simp [hp])
        · rcases List.mem_cons.1 hp with rfl | hp
          · simp
          · exact ih p hp

private theorem last_append_single {α : Type} (a : List α) (k : α) : last (a ++ [k]) = [k] := by simp [last]

private theorem uniq_short {α : Type} [DecidableEq α] (b : List α) : uniq (b.take 1) = b.take 1 := by
  cases b <;> simp [uniq, runs]

private theorem runs_last {α : Type} [DecidableEq α] : ∀ (x : List α), (runs x).getLast?.map Prod.fst = x.getLast? := by
  intro x
  induction x with
  | nil => rfl
  | cons l x ih =>
      rw [runs]
      split
      · rename_i h
        rw [h] at ih
        cases x with
        | nil => rfl
        | cons d x => simp [List.getLast?_cons] at ih
      · rename_i k n r h
        rw [h] at ih
        have hx : (l :: x).getLast? = x.getLast? := by
          cases x with
          | nil => simp [List.getLast?_cons] at ih
          | cons d x => simp
        split
        · rw [hx, ← ih]
          cases r <;> simp
        · rw [hx, ← ih]
          simp

private theorem runs_flat {α : Type} [DecidableEq α] : ∀ (x : List α), (runs x).flatMap (fun p => List.replicate p.2 p.1) = x := by
  intro x
  induction x with
  | nil => rfl
  | cons l x ih =>
      rw [runs]
      split
      · rename_i h
        rw [h] at ih
        simp [← ih]
      · rename_i k n r h
        rw [h] at ih
        split
        · rename_i hlk
          subst hlk
          rw [← ih]
          simp [List.replicate_succ]
        · rw [← ih]
          simp

private theorem runs_eq_nil {α : Type} [DecidableEq α] {x : List α} (h : runs x = []) : x = [] := by
  rw [← runs_flat x, h]
  rfl

private theorem runs_head {α : Type} [DecidableEq α] {x : List α} {k n r} (h : runs x = (k, n) :: r) : x.head? = some k := by
  have hp := runs_pos x (k, n) (by rw [h]; simp)
  rw [← runs_flat x, h]
  simp only [List.flatMap_cons]
  obtain ⟨m, rfl⟩ : ∃ m, n = m + 1 := ⟨n - 1, by simp at hp; omega⟩
  simp [List.replicate_succ]

private theorem apart {α : Type} [DecidableEq α] {x y : List α} (h : ∀ v, x.getLast? = some v → y.head? ≠ some v) {r k n k' n' r'}
    (hx : runs x = r ++ [(k, n)]) (hy : runs y = (k', n') :: r') : k ≠ k' := by
  rintro rfl
  refine h k ?_ (runs_head hy)
  rw [← runs_last, hx]
  simp

private theorem snoc_cases {α : Type} (l : List α) : l = [] ∨ ∃ r a, l = r ++ [a] := by
  rcases l.eq_nil_or_concat with h | ⟨r, a, h⟩
  · exact Or.inl h
  · exact Or.inr ⟨r, a, by rw [h]; simp⟩

/-- `uniq`. -/
theorem C124_uniq (α : Type) [DecidableEq α] : Combines (uniq : List α → List α) (atTheSeam uniq) := by
  intro x y
  rcases runs_append y x with ⟨h1, h2⟩ | ⟨r, k, n, n', r', h1, h2, h3⟩
  · rcases snoc_cases (runs x) with hx | ⟨r, ⟨k, n⟩, hx⟩
    · simp only [atTheSeam, uniq, h1, hx, List.map_append, List.map_nil]
      cases hy : runs y <;> simp [last, runs]
    · cases hy : runs y with
      | nil =>
          simp only [atTheSeam, uniq, h1, hx, hy, List.map_append, List.map_cons, List.map_nil, last_append_single]
          simp [runs]
      | cons p r' =>
          obtain ⟨k', n'⟩ := p
          have := apart h2 hx hy
          simp only [atTheSeam, uniq, h1, hx, hy, List.map_append, List.map_cons, List.map_nil, last_append_single]
          simp [runs, this]
  · simp only [atTheSeam, uniq, h1, h2, h3, List.map_append, List.map_cons, List.map_nil, last_append_single]
    simp [runs]

example : uniq [1, 2, 2, 2, 3] = [1, 2, 3] ∧ atTheSeam uniq (uniq [1, 2, 2]) (uniq [2, 3]) = [1, 2, 3] := by decide

example : (Cut.both (.both (.part [1, 2]) (.part [2])) (.part [2, 3])).combined uniq (atTheSeam uniq) = [1, 2, 3] :=
  (C124_parts uniq (atTheSeam uniq)).1 (C124_uniq Nat) _

/-- `uniq -c`, if `+` adds the counts of the line at the seam. -/
theorem C124_uniq_c (α : Type) [DecidableEq α] : Combines (runs : List α → List (α × Nat)) addCounts := by
  intro x y
  rcases runs_append y x with ⟨h1, h2⟩ | ⟨r, k, n, n', r', h1, h2, h3⟩
  · rw [h1]
    rcases snoc_cases (runs x) with hx | ⟨r, ⟨k, n⟩, hx⟩
    · simp [addCounts, hx]
    · cases hy : runs y with
      | nil => simp [addCounts]
      | cons p r' =>
          obtain ⟨k', n'⟩ := p
          simp [addCounts, hx, apart h2 hx hy]
  · simp [addCounts, h1, h2, h3]

example : addCounts (runs [1, 2, 2]) (runs [2, 3]) = [(1, 1), (2, 3), (3, 1)] := by decide

private theorem seam_length {α : Type} [DecidableEq α] (a b : List α) (h : a ≠ [] ∨ b ≠ []) :
    (atTheSeam uniqRepeated a b).length < a.length + b.length := by
  rcases snoc_cases a with rfl | ⟨r, k, rfl⟩
  · cases b with
    | nil => simp at h
    | cons k' b => simp [atTheSeam, last, uniqRepeated, runs]
  · cases b with
    | nil => simp [atTheSeam, last_append_single, uniqRepeated, runs]
    | cons k' b =>
        by_cases hk : k = k'
        · simp [atTheSeam, last_append_single, uniqRepeated, runs, hk]
        · simp [atTheSeam, last_append_single, uniqRepeated, runs, hk]
          omega

private theorem ends_twice {α : Type} [DecidableEq α] (v : α) : ∀ x : List α, ∃ r n, 2 ≤ n ∧ runs (x ++ [v, v]) = r ++ [(v, n)] := by
  intro x
  induction x with
  | nil => exact ⟨[], 2, Nat.le_refl 2, by simp [runs]⟩
  | cons l x ih =>
      obtain ⟨r, n, hn, h⟩ := ih
      rw [List.cons_append, runs, h]
      cases r with
      | nil =>
          by_cases hl : l = v
          · exact ⟨[], n + 1, by omega, by simp [hl]⟩
          · exact ⟨[(l, 1)], n, hn, by simp [hl]⟩
      | cons p r =>
          obtain ⟨k, m⟩ := p
          by_cases hl : l = k
          · exact ⟨(k, m + 1) :: r, n, hn, by simp [hl]⟩
          · exact ⟨(l, 1) :: (k, m) :: r, n, hn, by simp [hl]⟩

private theorem begins_twice {α : Type} [DecidableEq α] (v : α) (y : List α) : ∃ r n, 2 ≤ n ∧ runs (v :: v :: y) = (v, n) :: r := by
  rw [runs, runs]
  cases runs y with
  | nil => exact ⟨[], 2, Nat.le_refl 2, by simp⟩
  | cons p r =>
      obtain ⟨k, m⟩ := p
      by_cases hl : v = k
      · exact ⟨r, m + 2, by omega, by simp [hl]⟩
      · exact ⟨(k, m) :: r, 2, Nat.le_refl 2, by simp [hl]⟩

/-- `uniq -d`: looking only at the seam of the two outputs is right exactly if nothing is repeated at all, or the line at
the cut is repeated both at the end of the first part and at the beginning of the second. -/
theorem C124_uniq_d_exact (α : Type) [DecidableEq α] (x y : List α) :
    uniqRepeated (x ++ y) = atTheSeam uniqRepeated (uniqRepeated x) (uniqRepeated y) ↔
      uniqRepeated (x ++ y) = [] ∨ ∃ v x' y', x = x' ++ [v, v] ∧ y = v :: v :: y' := by
  rcases runs_append y x with ⟨h1, h2⟩ | ⟨r, k, n, n', r', h1, h2, h3⟩
  · have hd : uniqRepeated (x ++ y) = uniqRepeated x ++ uniqRepeated y := by simp [uniqRepeated, h1]
    have hno : ¬ ∃ v x' y', x = x' ++ [v, v] ∧ y = v :: v :: y' := by
      rintro ⟨v, x', y', rfl, rfl⟩
      exact h2 v (by simp) (by simp)
    simp only [hno, or_false]
    constructor
    · intro h
      rw [hd] at h ⊢
      have hl := congrArg List.length h
      rw [List.length_append] at hl
      have := seam_length (uniqRepeated x) (uniqRepeated y)
      simp only [List.append_eq_nil_iff]
      refine Decidable.byContradiction fun hc => ?_
      have hc' : uniqRepeated x ≠ [] ∨ uniqRepeated y ≠ [] := by
        rcases Decidable.not_and_iff_or_not.1 hc with h | h
        · exact Or.inl h
        · exact Or.inr h
      have := this hc'
      omega
    · intro h
      rw [h]
      rw [hd, List.append_eq_nil_iff] at h
      rw [h.1, h.2]
      simp [atTheSeam, last, uniqRepeated, runs]
  · have hn : 1 ≤ n := runs_pos x (k, n) (by rw [h1]; simp)
    have hn' : 1 ≤ n' := runs_pos y (k, n') (by rw [h2]; simp)
    have hd : uniqRepeated (x ++ y) = (r.filter (2 ≤ ·.2)).map Prod.fst ++ k :: (r'.filter (2 ≤ ·.2)).map Prod.fst := by
      simp [uniqRepeated, h3, show 2 ≤ n + n' by omega]
    have hne : uniqRepeated (x ++ y) ≠ [] := by rw [hd]; simp
    simp only [hne, false_or]
    by_cases h2n : 2 ≤ n
    · have ha : uniqRepeated x = (r.filter (2 ≤ ·.2)).map Prod.fst ++ [k] := by
        simp [uniqRepeated, h1, h2n]
      by_cases h2n' : 2 ≤ n'
      · have hb : uniqRepeated y = k :: (r'.filter (2 ≤ ·.2)).map Prod.fst := by
          simp [uniqRepeated, h2, h2n']
        refine iff_of_true ?_ ?_
        · rw [hd, ha, hb]
          simp [atTheSeam, last_append_single, uniqRepeated, runs]
        · obtain ⟨m, rfl⟩ : ∃ m, n = m + 2 := ⟨n - 2, by omega⟩
          obtain ⟨m', rfl⟩ : ∃ m', n' = m' + 2 := ⟨n' - 2, by omega⟩
          refine ⟨k, r.flatMap (fun p => List.replicate p.2 p.1) ++ List.replicate m k, List.replicate m' k ++ r'.flatMap (fun p => List.replicate p.2 p.1), ?_, ?_⟩
          · conv => lhs; rw [← runs_flat x, h1]
            simp [List.replicate_succ']
          · conv => lhs; rw [← runs_flat y, h2]
            simp [List.replicate_succ]
      · have hb : uniqRepeated y = (r'.filter (2 ≤ ·.2)).map Prod.fst := by
          simp [uniqRepeated, h2, h2n']
        refine iff_of_false ?_ ?_
        · intro h
          have hl := congrArg List.length h
          have := seam_length (uniqRepeated x) (uniqRepeated y) (Or.inl (by rw [ha]; simp))
          rw [hd] at hl
          rw [ha, hb] at this hl
          simp only [List.length_append, List.length_cons, List.length_nil] at hl this
          omega
        · rintro ⟨v, x', y', rfl, rfl⟩
          obtain ⟨r0, n0, hn0, h0⟩ := begins_twice v y'
          rw [h0] at h2
          simp at h2
          omega
    · have ha : uniqRepeated x = (r.filter (2 ≤ ·.2)).map Prod.fst := by
        simp [uniqRepeated, h1, h2n]
      refine iff_of_false ?_ ?_
      · intro h
        have hl := congrArg List.length h
        have hs := seam_length (uniqRepeated x) (uniqRepeated y)
        by_cases h2n' : 2 ≤ n'
        · have hb : uniqRepeated y = k :: (r'.filter (2 ≤ ·.2)).map Prod.fst := by
            simp [uniqRepeated, h2, h2n']
          have hs := hs (Or.inr (by rw [hb]; simp))
          rw [hd] at hl
          rw [ha, hb] at hs hl
          simp only [List.length_append, List.length_cons] at hl hs
          omega
        · have hb : uniqRepeated y = (r'.filter (2 ≤ ·.2)).map Prod.fst := by
            simp [uniqRepeated, h2, h2n']
          rw [hd] at hl
          by_cases he : uniqRepeated x ≠ [] ∨ uniqRepeated y ≠ []
          · have hs := hs he
            rw [ha, hb] at hs hl
            simp only [List.length_append, List.length_cons] at hl hs
            omega
          · have he1 : uniqRepeated x = [] := Decidable.byContradiction fun hc => he (Or.inl hc)
            have he2 : uniqRepeated y = [] := Decidable.byContradiction fun hc => he (Or.inr hc)
            rw [he1, he2] at hl
            simp [atTheSeam, last, uniqRepeated, runs] at hl
      · rintro ⟨v, x', y', rfl, rfl⟩
        obtain ⟨r0, n0, hn0, h0⟩ := ends_twice v x'
        rw [h0] at h1
        have := (List.append_inj' h1 rfl).2
        simp at this
        omega

example : uniqRepeated ([1, 2, 2] ++ [2, 2, 3]) = [2] ∧ atTheSeam uniqRepeated (uniqRepeated [1, 2, 2]) (uniqRepeated [2, 2, 3]) = [2] := by decide

theorem C124_uniq_d_false : ¬ ∀ (α : Type) [DecidableEq α], Combines (uniqRepeated : List α → List α) (atTheSeam uniqRepeated) :=
  fun h => absurd (h Nat ([0] : List Nat) [0]) (by decide)

/-! `tr -s`. -/

private theorem squeeze_cons (set : Char → Bool) : ∀ (b : Char) (v : List Char), ∃ w, squeeze set (b :: v) = b :: w := by
  intro b v
  induction v generalizing b with
  | nil => exact ⟨[], rfl⟩
  | cons c v ih =>
      rw [squeeze]
      split
      · rename_i h
        rw [h.1]
        exact ih c
      · exact ⟨_, rfl⟩

private theorem last_cons {α : Type} (a : α) {l : List α} (h : l ≠ []) : last (a :: l) = last l := by
  cases l with
  | nil => exact absurd rfl h
  | cons b l => simp [last]

private theorem squeeze_seam (set : Char → Bool) (v : List Char) : ∀ u : List Char,
    squeeze set (u ++ v) =
      (squeeze set u).dropLast ++ squeeze set (last (squeeze set u) ++ (squeeze set v).take 1) ++ (squeeze set v).drop 1
  | [] => by
      cases v with
      | nil => rfl
      | cons b v =>
          obtain ⟨w, hw⟩ := squeeze_cons set b v
          simp [hw, squeeze, last]
  | [a] => by
      cases v with
      | nil => rfl
      | cons b v =>
          obtain ⟨w, hw⟩ := squeeze_cons set b v
          simp only [List.cons_append, List.nil_append]
          rw [squeeze, hw]
          have h1 : squeeze set [a] = [a] := rfl
          rw [h1]
          have h2 : squeeze set (last [a] ++ (b :: w).take 1) = squeeze set [a, b] := rfl
          rw [h2, squeeze]
          split <;> rfl
  | a :: b :: u => by
      obtain ⟨w, hw⟩ := squeeze_cons set b u
      have ih := squeeze_seam set v (b :: u)
      rw [List.cons_append] at ih
      rw [List.cons_append, List.cons_append, squeeze, squeeze, ih]
      split
      · rfl
      · rw [last_cons a (by rw [hw]; simp), List.dropLast_cons_of_ne_nil (by rw [hw]; simp)]
        rfl

private theorem squeeze_mem (set : Char → Bool) : ∀ (u : List Char) (c), c ∈ squeeze set u → c ∈ u
  | [], c, h => h
  | [a], c, h => h
  | a :: b :: u, c, h => by
      rw [squeeze] at h
      split at h
      · exact List.mem_cons_of_mem _ (squeeze_mem set (b :: u) c h)
      · rcases List.mem_cons.1 h with rfl | h
        · simp
        · exact List.mem_cons_of_mem _ (squeeze_mem set (b :: u) c h)

/-- `tr -s`: since the command is run again at the seam, it is right exactly if translating a second time changes nothing. Without
translation this is so. -/
theorem C124_tr_s_exact (image : Char → Char) (set : Char → Bool) :
    Combines (trSqueeze image set) (atTheSeam (trSqueeze image set)) ↔ ∀ c, image (image c) = image c := by
  constructor
  · intro h c
    have := h [c] []
    simpa [trSqueeze, squeeze, atTheSeam, last] using this.symm
  · intro h x y
    have hfix : ∀ z : List Char, ∀ c ∈ trSqueeze image set z, image c = c := by
      intro z c hc
      obtain ⟨d, _, rfl⟩ := List.mem_map.1 (squeeze_mem set _ c hc)
      exact h d
    have hmap : (last (trSqueeze image set x) ++ (trSqueeze image set y).take 1).map image =
        last (trSqueeze image set x) ++ (trSqueeze image set y).take 1 := by
      conv => rhs; rw [← List.map_id (last (trSqueeze image set x) ++ (trSqueeze image set y).take 1)]
      refine List.map_congr_left fun c hc => ?_
      rcases List.mem_append.1 hc with hc | hc
      · exact hfix x c (List.mem_of_mem_drop hc)
      · exact hfix y c (List.mem_of_mem_take hc)
    have hf : trSqueeze image set (last (trSqueeze image set x) ++ (trSqueeze image set y).take 1) =
        squeeze set (last (trSqueeze image set x) ++ (trSqueeze image set y).take 1) := by
      conv => lhs; unfold trSqueeze
      exact congrArg (squeeze set) hmap
    rw [atTheSeam, hf]
    unfold trSqueeze
    rw [List.map_append]
    exact squeeze_seam set _ _

example : Combines (trSqueeze id (· = ' ')) (atTheSeam (trSqueeze id (· = ' '))) := (C124_tr_s_exact _ _).2 fun _ => rfl

example : trSqueeze id (· = ' ') (['a', ' ', ' '] ++ [' ', 'b']) = ['a', ' ', 'b'] := by decide

/-- `tr -s ab bc`. -/
theorem C124_tr_s_false : ¬ ∀ image set, Combines (trSqueeze image set) (atTheSeam (trSqueeze image set)) := fun h =>
  absurd ((C124_tr_s_exact (fun c => if c = 'a' then 'b' else if c = 'b' then 'c' else c) (fun _ => false)).1 (h _ _) 'a') (by decide)

/-! `sort`. -/

/-- `sort`: for an order in which no two different lines are equal, as that of `sort` without `-s` and `-u`, merging gives the sorted input. -/
theorem C124_sort {α : Type} (le : α → α → Prop) (hle : ∀ u v, le u v → le v u → u = v) (f : List α → List α) (hf : Sorts le f)
    (m : List α → List α → List α) (hm : Merges le m) : Combines f m := by
  intro x y
  obtain ⟨h1, h2⟩ := hm _ _ (hf x).1 (hf y).1
  refine List.Perm.eq_of_pairwise (fun u v _ _ => hle u v) (hf _).1 h1 ?_
  exact ((hf (x ++ y)).2.trans ((hf x).2.append (hf y).2).symm).trans h2.symm

/-- For `sort -h` the table has the output for the first part: it is right only if the second is empty. -/
theorem C124_sort_h_exact {α : Type} (le : α → α → Prop) (f : List α → List α) (hf : Sorts le f) (x y : List α) :
    f (x ++ y) = first (f x) (f y) ↔ y = [] := by
  constructor
  · intro h
    have := congrArg List.length h
    rw [first, (hf _).2.length_eq, (hf _).2.length_eq, List.length_append] at this
    exact List.eq_nil_of_length_eq_zero (by omega)
  · rintro rfl
    rw [List.append_nil]
    rfl

theorem C124_sort_h_false {α : Type} (a : α) (le : α → α → Prop) (f : List α → List α) (hf : Sorts le f) : ¬ Combines f first := fun h =>
  absurd ((C124_sort_h_exact le f hf [] [a]).1 (h _ _)) (by simp)

private theorem sorts_nat : Sorts (α := Nat) (· ≤ ·) (fun x => x.mergeSort (fun a b => decide (a ≤ b))) := by
  intro x
  refine ⟨?_, List.mergeSort_perm x _⟩
  have := List.pairwise_mergeSort (le := fun a b : Nat => decide (a ≤ b)) (by simp; omega) (by simp; omega) x
  simpa using this

example : ∃ f m, Sorts (α := Nat) (· ≤ ·) f ∧ Merges (α := Nat) (· ≤ ·) m :=
  ⟨_, fun a b => (a ++ b).mergeSort (fun a b => decide (a ≤ b)), sorts_nat, fun a b _ _ => sorts_nat (a ++ b)⟩

/-! Whether there is a reduction at all. -/

/-- There is a reduction exactly if parts with the same output can be exchanged. -/
theorem C124_possible_exact {α β : Type} (f : List α → β) :
    (∃ g, Combines f g) ↔ ∀ x x' y y', f x = f x' → f y = f y' → f (x ++ y) = f (x' ++ y') := by
  classical
  constructor
  · rintro ⟨g, hg⟩ x x' y y' hx hy
    rw [hg, hg, hx, hy]
  · intro h
    refine ⟨fun a b => if hab : ∃ p : List α × List α, f p.1 = a ∧ f p.2 = b then f (hab.choose.1 ++ hab.choose.2) else a, fun x y => ?_⟩
    have hab : ∃ p : List α × List α, f p.1 = f x ∧ f p.2 = f y := ⟨(x, y), rfl, rfl⟩
    dsimp only
    rw [dif_pos hab]
    exact h _ _ _ _ hab.choose_spec.1.symm hab.choose_spec.2.symm

/-- For `uniq -d` and `wc` no reduction of the outputs is right, so that the lines of the table cannot be repaired; those for `rev`, `tr -s` and
`sort -h` can: by concatenation, by squeezing without translating at the seam, and by merging. -/
theorem C124_repair :
    (∀ (α : Type) [DecidableEq α] (_ : α) g, ¬ Combines (uniqRepeated : List α → List α) g) ∧
    (∀ blank, (∃ c, blank c = false) → (∃ c, c ≠ '\n' ∧ blank c = true) → blank '\n' = true → ∀ g, ¬ Combines (wc blank) g) ∧
    Combines rev concat ∧
    (∀ image set, Combines (trSqueeze image set) (atTheSeam (squeeze set))) ∧
    (∀ (α : Type) (le : α → α → Prop), (∀ u v, le u v → le v u → u = v) → ∀ f, Sorts le f → ∀ m, Merges le m → Combines f m) := by
  refine ⟨?_, ?_, C124_rev_exact.2.1, ?_, fun α le hle f hf m hm => C124_sort le hle f hf m hm⟩
  · intro α _ a g hg
    have h1 : uniqRepeated ([a] : List α) = uniqRepeated [] := by simp [uniqRepeated, runs]
    have h2 := (C124_possible_exact _).1 ⟨g, hg⟩ [a] [] [a] [a] h1 rfl
    simp [uniqRepeated, runs] at h2
  · rintro blank ⟨c, hc⟩ ⟨d, hd, hd'⟩ hn g hg
    have hcn : c ≠ '\n' := by
      rintro rfl
      rw [hn] at hc
      cases hc
    have h1 : wc blank [c, d] = wc blank [c, c] := by simp [wc, wordsAfter, hc, hd', hd, hcn]
    have h2 := (C124_possible_exact _).1 ⟨g, hg⟩ [c, d] [c, c] [c] [c] h1 rfl
    simp [wc, wordsAfter, hc, hd'] at h2
  · intro image set x y
    unfold trSqueeze atTheSeam
    rw [List.map_append]
    exact squeeze_seam set _ _

example : ∃ blank : Char → Bool, (∃ c, blank c = false) ∧ (∃ c, c ≠ '\n' ∧ blank c = true) ∧ blank '\n' = true :=
  ⟨fun c => c = ' ' || c = '\n', ⟨'a', by decide⟩, ⟨' ', by decide⟩, by decide⟩

end PashAnn
