import Verif.Props.Limits

/-! C54 for `grep -A`, `-B` and `-C`: for which inputs and splits an offered parallelizer is right although it is not for
all. -/

namespace PashAnn
open Spec

/-- A position: the number of lines before a part, the part, and the number of a line in the part. -/
def positions (o : Nat) : List Stream → List (Nat × Stream × Nat)
  | [] => []
  | q :: qs => (List.range q.length).map (fun k => (o, q, k)) ++ positions (o + q.length) qs

theorem positions_parts (F : Stream → Nat → List String) (parts : List Stream) (o : Nat) :
    (positions o parts).flatMap (fun i => F i.2.1 i.2.2) =
      (parts.map fun q => (List.range q.length).flatMap (F q)).flatten := by
  induction parts generalizing o with
  | nil => rfl
  | cons q qs ih =>
      rw [positions, List.flatMap_append, ih, List.flatMap_map, List.map_cons, List.flatten_cons]

theorem positions_whole (F : Nat → List String) (parts : List Stream) (o : Nat) :
    (positions o parts).flatMap (fun i => F (i.1 + i.2.2)) =
      (List.range parts.flatten.length).flatMap (fun k => F (o + k)) := by
  induction parts generalizing o with
  | nil => rfl
  | cons q qs ih =>
      rw [positions, List.flatMap_append, ih, List.flatMap_map, List.flatten_cons, List.length_append, List.range_add,
        List.flatMap_append, List.flatMap_map]
      simp only [Nat.add_assoc]

theorem mem_positions {parts : List Stream} {o : Nat} {i : Nat × Stream × Nat} :
    i ∈ positions o parts ↔ ∃ pre post, parts = pre ++ i.2.1 :: post ∧ i.1 = o + pre.flatten.length ∧ i.2.2 < i.2.1.length := by
  induction parts generalizing o with
  | nil => simp [positions]
  | cons q qs ih =>
      rw [positions, List.mem_append, ih]
      constructor
      · rintro (h | ⟨pre, post, h1, h2, h3⟩)
        · obtain ⟨k, hk, rfl⟩ := List.mem_map.1 h
          exact ⟨[], qs, rfl, rfl, List.mem_range.1 hk⟩
        · refine ⟨q :: pre, post, by rw [h1]; rfl, ?_, h3⟩
          rw [h2, List.flatten_cons, List.length_append, Nat.add_assoc]
      · rintro ⟨pre, post, h1, h2, h3⟩
        cases pre with
        | nil =>
            left
            obtain ⟨rfl, rfl⟩ : q = i.2.1 ∧ qs = post := by simpa using h1
            refine List.mem_map.2 ⟨i.2.2, List.mem_range.2 h3, ?_⟩
            simp only [List.flatten_nil, List.length_nil, Nat.add_zero] at h2
            rw [← h2]
        | cons a pre =>
            right
            obtain ⟨rfl, h4⟩ : q = a ∧ qs = pre ++ i.2.1 :: post := by simpa using h1
            exact ⟨pre, post, h4, by rw [h2, List.flatten_cons, List.length_append, Nat.add_assoc], h3⟩

/-- If each list of one family is at least as long as that of the other and the concatenations are equally long, then so are
the lists. -/
private theorem lengths_eq {ι α : Type} (l : List ι) (f h : ι → List α) (hle : ∀ i ∈ l, (h i).length ≤ (f i).length)
    (he : (l.flatMap f).length = (l.flatMap h).length) : ∀ i ∈ l, (h i).length = (f i).length := by
  have sum_le : ∀ l : List ι, (∀ i ∈ l, (h i).length ≤ (f i).length) → (l.flatMap h).length ≤ (l.flatMap f).length := by
    intro l
    induction l with
    | nil => simp
    | cons a l ih =>
        intro hle
        have := ih (fun i hi => hle i (List.mem_cons_of_mem _ hi))
        have := hle a List.mem_cons_self
        simp only [List.flatMap_cons, List.length_append]
        omega
  induction l with
  | nil => simp
  | cons a l ih =>
      have h1 := sum_le l (fun i hi => hle i (List.mem_cons_of_mem _ hi))
      have h2 := hle a List.mem_cons_self
      simp only [List.flatMap_cons, List.length_append] at he
      intro i hi
      rcases List.mem_cons.1 hi with rfl | hi
      · omega
      · exact ih (fun i hi => hle i (List.mem_cons_of_mem _ hi)) (by omega) i hi

variable {g : GrepParameters} {fl : List FlagOptionWithIOVar} {strs : List String}

theorem selected_nolimit (hlim : g.limit fl = none) (z : Stream) (k : Nat) :
    g.selected fl strs z k = z[k]?.elim false (g.matching fl strs) := by
  unfold GrepParameters.selected; rw [hlim]; simp

theorem selected_part (hlim : g.limit fl = none) (u q v : Stream) {k : Nat} (hk : k < q.length) :
    g.selected fl strs (u ++ q ++ v) (u.length + k) = g.selected fl strs q k := by
  rw [selected_nolimit hlim, selected_nolimit hlim, List.getElem?_append_left (by simp; omega),
    List.getElem?_append_right (by omega), Nat.add_sub_cancel_left]

/-- What a part shows, the whole shows. -/
theorem shown_whole (hlim : g.limit fl = none) (u q v : Stream) {k : Nat} (h : g.shown fl strs q k = true) :
    g.shown fl strs (u ++ q ++ v) (u.length + k) = true := by
  unfold GrepParameters.shown at h ⊢
  rw [List.any_eq_true] at h ⊢
  obtain ⟨j, hj, h⟩ := h
  rw [List.mem_range] at hj
  simp only [Bool.and_eq_true, decide_eq_true_eq] at h
  refine ⟨u.length + j, List.mem_range.2 (by simp; omega), ?_⟩
  simp only [Bool.and_eq_true, decide_eq_true_eq]
  refine ⟨?_, by omega⟩
  rw [selected_part hlim u q v hj]
  exact h.1

/-- Where a line before a part is. -/
private theorem earlier_part {pre : List Stream} {j : Nat} (h : j < pre.flatten.length) :
    ∃ a q b k, pre = a ++ q :: b ∧ k < q.length ∧ j = a.flatten.length + k := by
  induction pre generalizing j with
  | nil => simp at h
  | cons p pre ih =>
      by_cases hj : j < p.length
      · exact ⟨[], p, pre, j, rfl, hj, by simp⟩
      · rw [List.flatten_cons, List.length_append] at h
        obtain ⟨a, q, b, k, rfl, hk, he⟩ := ih (j := j - p.length) (by omega)
        exact ⟨p :: a, q, b, k, rfl, hk, by rw [List.flatten_cons, List.length_append]; omega⟩

/-- Whether the line with the number `k` starts a new group. -/
private def newGroup (g : GrepParameters) (fl : List FlagOptionWithIOVar) (strs : List String) (x : Stream) (k : Nat) : Prop :=
  GrepParameters.context fl ∧ 0 < k ∧ g.shown fl strs x (k - 1) = false ∧
    (List.range k).any (fun j => g.shown fl strs x j) = true

private instance (g : GrepParameters) (fl : List FlagOptionWithIOVar) (strs : List String) (x : Stream) (k : Nat) :
    Decidable (newGroup g fl strs x k) := by unfold newGroup; infer_instance

/-- The separator before a line, and the line. -/
private def sepOf (g : GrepParameters) (fl : List FlagOptionWithIOVar) (strs : List String) (x : Stream) (k : Nat) : List String :=
  if g.shown fl strs x k ∧ newGroup g fl strs x k then g.separator fl else []
private def bodyOf (g : GrepParameters) (fl : List FlagOptionWithIOVar) (strs : List String) (x : Stream) (k : Nat) : List String :=
  if g.shown fl strs x k then g.print fl (g.selected fl strs x k) none none (x[k]?.getD "") else []

private theorem printed_eq (hn : ¬ Given fl "-n") (hb : ¬ Given fl "-b") (x : Stream) (k : Nat) :
    g.printed fl strs x k = sepOf g fl strs x k ++ bodyOf g fl strs x k := by
  unfold GrepParameters.printed sepOf bodyOf
  simp only [hn, hb, if_false]
  cases g.shown fl strs x k with
  | false => simp
  | true => simp only [if_true, true_and]; rfl

theorem least_nat {P : Nat → Prop} [DecidablePred P] {k : Nat} (h : P k) : ∃ m ≤ k, P m ∧ ∀ j < m, ¬ P j := by
  induction k using Nat.strongRecOn with
  | _ k ih =>
      by_cases hj : ∃ j < k, P j
      · obtain ⟨j, hj, hp⟩ := hj
        obtain ⟨m, hm, h1, h2⟩ := ih j hj hp
        exact ⟨m, by omega, h1, h2⟩
      · exact ⟨k, Nat.le_refl _, h, fun j hj' hp => hj ⟨j, hj', hp⟩⟩

private theorem context_positions (hlim : g.limit fl = none) (hn : ¬ Given fl "-n") (hb : ¬ Given fl "-b") (parts : List Stream)
    (hpr : ∀ l ∈ parts.flatten, ∀ sel, g.print fl sel none none l ≠ [] ∧ ∀ o ∈ g.print fl sel none none l, o ∉ g.separator fl) :
    ((parts.map fun q => (List.range q.length).flatMap (g.printed fl strs q)).flatten =
      (List.range parts.flatten.length).flatMap (g.printed fl strs parts.flatten)) ↔ ContextFits g fl strs parts := by
  have e1 := positions_parts (g.printed fl strs) parts 0
  have e2 := positions_whole (g.printed fl strs parts.flatten) parts 0
  simp only [Nat.zero_add] at e2
  rw [← e1, ← e2]
  generalize hz : parts.flatten = z at *
  generalize hL : positions 0 parts = L at *
  have hmem : ∀ i ∈ L, ∃ pre post, parts = pre ++ i.2.1 :: post ∧ i.1 = pre.flatten.length ∧ i.2.2 < i.2.1.length ∧
      z = pre.flatten ++ i.2.1 ++ post.flatten := by
    intro i hi
    rw [← hL] at hi
    obtain ⟨pre, post, h1, h2, h3⟩ := mem_positions.1 hi
    exact ⟨pre, post, h1, by omega, h3, by rw [← hz, h1]; simp⟩
  have hmem' : ∀ pre q post k, parts = pre ++ q :: post → k < q.length → (pre.flatten.length, q, k) ∈ L := by
    intro pre q post k h1 h2
    rw [← hL]
    exact mem_positions.2 ⟨pre, post, h1, by simp, h2⟩
  -- the same line is the same
  have hsel : ∀ i ∈ L, g.selected fl strs z (i.1 + i.2.2) = g.selected fl strs i.2.1 i.2.2 := by
    intro i hi
    obtain ⟨pre, post, _, h2, h3, h4⟩ := hmem i hi
    rw [h4, h2]; exact selected_part hlim _ _ _ h3
  have hline : ∀ i ∈ L, z[i.1 + i.2.2]?.getD "" = i.2.1[i.2.2]?.getD "" ∧ z[i.1 + i.2.2]?.getD "" ∈ z := by
    intro i hi
    obtain ⟨pre, post, _, h2, h3, h4⟩ := hmem i hi
    have : z[i.1 + i.2.2]? = i.2.1[i.2.2]? := by
      rw [h4, h2, List.getElem?_append_left (by simp; omega), List.getElem?_append_right (by omega), Nat.add_sub_cancel_left]
    rw [this]
    refine ⟨rfl, ?_⟩
    rw [List.getElem?_eq_getElem h3, Option.getD_some, h4]
    simp
  have hsh : ∀ i ∈ L, g.shown fl strs i.2.1 i.2.2 = true → g.shown fl strs z (i.1 + i.2.2) = true := by
    intro i hi h
    obtain ⟨pre, post, _, h2, h3, h4⟩ := hmem i hi
    rw [h4, h2]; exact shown_whole hlim _ _ _ h
  have hbody : ∀ i ∈ L, bodyOf g fl strs i.2.1 i.2.2 = [] ∨
      bodyOf g fl strs i.2.1 i.2.2 = bodyOf g fl strs z (i.1 + i.2.2) := by
    intro i hi
    by_cases h : g.shown fl strs i.2.1 i.2.2 = true
    · right
      unfold bodyOf
      rw [if_pos h, if_pos (hsh i hi h), hsel i hi, (hline i hi).1]
    · left; unfold bodyOf; rw [if_neg h]
  -- the outputs agree exactly if they agree line by line
  have hpoint : (L.flatMap (fun i => g.printed fl strs i.2.1 i.2.2) = L.flatMap (fun i => g.printed fl strs z (i.1 + i.2.2))) ↔
      (∀ i ∈ L, g.shown fl strs z (i.1 + i.2.2) = true → g.shown fl strs i.2.1 i.2.2 = true) ∧
      (∀ i ∈ L, sepOf g fl strs i.2.1 i.2.2 = sepOf g fl strs z (i.1 + i.2.2)) := by
    have hflat : ∀ f h : Nat × Stream × Nat → List String, (∀ i ∈ L, f i = h i) → L.flatMap f = L.flatMap h := by
      intro f h he
      unfold List.flatMap
      rw [List.map_congr_left he]
    constructor
    · intro he
      have hf : L.flatMap (fun i => bodyOf g fl strs z (i.1 + i.2.2)) = L.flatMap (fun i => bodyOf g fl strs i.2.1 i.2.2) := by
        have := congrArg (List.filter (fun o => decide (o ∉ g.separator fl))) he
        rw [List.filter_flatMap, List.filter_flatMap] at this
        have hs : ∀ x k, (sepOf g fl strs x k).filter (fun o => decide (o ∉ g.separator fl)) = [] := by
          intro x k
          rw [List.filter_eq_nil_iff]
          intro o ho
          unfold sepOf at ho
          split at ho
          · simpa using ho
          · simp at ho
        have hbz : ∀ i ∈ L, (bodyOf g fl strs z (i.1 + i.2.2)).filter (fun o => decide (o ∉ g.separator fl)) =
            bodyOf g fl strs z (i.1 + i.2.2) := by
          intro i hi
          rw [List.filter_eq_self]
          intro o ho
          unfold bodyOf at ho
          split at ho
          · simpa using (hpr _ (hline i hi).2 _).2 o ho
          · simp at ho
        have l1 : ∀ i ∈ L, List.filter (fun o => decide (o ∉ g.separator fl)) (g.printed fl strs i.2.1 i.2.2) =
            bodyOf g fl strs i.2.1 i.2.2 := by
          intro i hi
          rw [printed_eq hn hb, List.filter_append, hs, List.nil_append]
          rcases hbody i hi with h | h
          · rw [h]; rfl
          · rw [h]; exact hbz i hi
        have l2 : ∀ i ∈ L, List.filter (fun o => decide (o ∉ g.separator fl)) (g.printed fl strs z (i.1 + i.2.2)) =
            bodyOf g fl strs z (i.1 + i.2.2) := by
          intro i hi
          rw [printed_eq hn hb, List.filter_append, hs, List.nil_append]
          exact hbz i hi
        rw [hflat _ _ l1, hflat _ _ l2] at this
        exact this.symm
      have hlen := lengths_eq L _ _ (by
        intro i hi
        rcases hbody i hi with h | h
        · rw [h]; simp
        · rw [h]; exact Nat.le_refl _) (congrArg List.length hf)
      have hagree : ∀ i ∈ L, g.shown fl strs z (i.1 + i.2.2) = true → g.shown fl strs i.2.1 i.2.2 = true := by
        intro i hi h
        have := hlen i hi
        by_cases hq : g.shown fl strs i.2.1 i.2.2 = true
        · exact hq
        · rw [bodyOf, if_neg hq, bodyOf, if_pos h] at this
          exact absurd (List.length_eq_zero_iff.1 this.symm) (hpr _ (hline i hi).2 _).1
      refine ⟨hagree, ?_⟩
      have hsep : ∀ i ∈ L, sepOf g fl strs i.2.1 i.2.2 = [] ∨ sepOf g fl strs i.2.1 i.2.2 = sepOf g fl strs z (i.1 + i.2.2) := by
        intro i hi
        by_cases h : g.shown fl strs i.2.1 i.2.2 ∧ newGroup g fl strs i.2.1 i.2.2
        · right
          obtain ⟨pre, post, p1, p2, p3, p4⟩ := hmem i hi
          have hz' : newGroup g fl strs z (i.1 + i.2.2) := by
            obtain ⟨h1, h2, h3, h4⟩ := h.2
            refine ⟨h1, by omega, ?_, ?_⟩
            · cases hc : g.shown fl strs z (i.1 + i.2.2 - 1) with
              | false => rfl
              | true =>
                  have m := hmem' pre i.2.1 post (i.2.2 - 1) p1 (by omega)
                  have := hagree _ m (by rw [← hc]; congr 1; rw [p2]; simp only; omega)
                  rw [h3] at this; cases this
            · rw [List.any_eq_true] at h4 ⊢
              obtain ⟨j, hj, h4⟩ := h4
              rw [List.mem_range] at hj
              have m := hmem' pre i.2.1 post j p1 (by omega)
              refine ⟨i.1 + j, List.mem_range.2 (by omega), ?_⟩
              rw [p2]; exact hsh _ m h4
          unfold sepOf
          rw [if_pos h, if_pos ⟨hsh i hi h.1, hz'⟩]
        · left; unfold sepOf; rw [if_neg h]
      have hlen' := lengths_eq L (fun i => sepOf g fl strs z (i.1 + i.2.2)) (fun i => sepOf g fl strs i.2.1 i.2.2) (by
        intro i hi
        rcases hsep i hi with h | h
        · rw [h]; simp
        · rw [h]; exact Nat.le_refl _) (by
        have hl : ∀ (l : List (Nat × Stream × Nat)) (a b : Nat × Stream × Nat → List String),
            (l.flatMap fun i => a i ++ b i).length = (l.flatMap a).length + (l.flatMap b).length := by
          intro l a b
          induction l with
          | nil => rfl
          | cons c l ih => simp only [List.flatMap_cons, List.length_append, ih]; omega
        have := congrArg List.length he
        rw [hflat _ (fun i => sepOf g fl strs i.2.1 i.2.2 ++ bodyOf g fl strs i.2.1 i.2.2) (fun i _ => printed_eq hn hb _ _),
          hflat (fun i => g.printed fl strs z (i.1 + i.2.2))
            (fun i => sepOf g fl strs z (i.1 + i.2.2) ++ bodyOf g fl strs z (i.1 + i.2.2)) (fun i _ => printed_eq hn hb _ _),
          hl, hl, hf] at this
        omega)
      intro i hi
      rcases hsep i hi with h | h
      · have := hlen' i hi
        rw [h] at this ⊢
        exact (List.length_eq_zero_iff.1 this.symm).symm
      · exact h
    · rintro ⟨h1, h2⟩
      refine hflat _ _ (fun i hi => ?_)
      rw [printed_eq hn hb, printed_eq hn hb, h2 i hi]
      congr 1
      rcases hbody i hi with h | h
      · by_cases hq : g.shown fl strs z (i.1 + i.2.2) = true
        · have h3 := h1 i hi hq
          unfold bodyOf
          rw [if_pos h3, if_pos hq, hsel i hi, (hline i hi).1]
        · rw [h, bodyOf, if_neg hq]
      · exact h
  rw [hpoint]
  -- what agreeing line by line means at the boundaries
  constructor
  · rintro ⟨h1, h2⟩ pre part post hp
    rw [hz]
    refine ⟨fun k hk h => h1 _ (hmem' pre part post k hp hk) h, ?_⟩
    rintro hs hc ⟨k, hk, hkk⟩ ⟨q, hq, j, hj, hjj⟩
    obtain ⟨a, b, rfl⟩ := List.append_of_mem hq
    have hjz : g.shown fl strs z (a.flatten.length + j) = true :=
      hsh _ (hmem' a q (b ++ part :: post) j (by rw [hp]; simp) hj) hjj
    have hjo : a.flatten.length + j < (a ++ q :: b).flatten.length := by
      simp only [List.flatten_append, List.flatten_cons, List.length_append]; omega
    generalize ho : (a ++ q :: b).flatten.length = o at *
    obtain ⟨m, hmk, hm, hmin⟩ := least_nat (P := fun k => g.shown fl strs part k = true) hkk
    have hml : m < part.length := by omega
    have im := hmem' (a ++ q :: b) part post m hp hml
    rw [ho] at im
    have hmz := hsh _ im hm
    -- at the first shown line of the part there must not be a separator in the whole
    have hno : ¬ newGroup g fl strs z (o + m) := by
      intro hg
      have := (h2 _ im).symm
      unfold sepOf at this
      rw [if_pos ⟨hmz, hg⟩, if_neg] at this
      · exact hs this
      · rintro ⟨_, _, _, _, h4⟩
        rw [List.any_eq_true] at h4
        obtain ⟨i, hi, h4⟩ := h4
        exact hmin i (List.mem_range.1 hi) h4
    have hm0 : m = 0 := by
      by_cases hm0 : m = 0
      · exact hm0
      · exfalso
        refine hno ⟨hc, by omega, ?_, ?_⟩
        · cases hcc : g.shown fl strs z (o + m - 1) with
          | false => rfl
          | true =>
              have i' := hmem' (a ++ q :: b) part post (m - 1) hp (by omega)
              rw [ho] at i'
              exact absurd (h1 _ i' (by rw [← hcc]; congr 1; simp only; omega)) (hmin (m - 1) (by omega))
        · rw [List.any_eq_true]
          exact ⟨_, List.mem_range.2 (by omega), hjz⟩
    subst hm0
    refine ⟨hm, ?_⟩
    cases hcc : g.shown fl strs z (o - 1) with
    | true => rfl
    | false =>
        exfalso
        refine hno ⟨hc, by omega, hcc, ?_⟩
        rw [List.any_eq_true]
        exact ⟨_, List.mem_range.2 (by omega), hjz⟩
  · intro hfit
    have h1 : ∀ i ∈ L, g.shown fl strs z (i.1 + i.2.2) = true → g.shown fl strs i.2.1 i.2.2 = true := by
      intro i hi h
      obtain ⟨pre, post, p1, p2, p3, p4⟩ := hmem i hi
      refine (hfit pre i.2.1 post p1).1 _ p3 ?_
      rw [hz, ← p2]; exact h
    refine ⟨h1, fun i hi => ?_⟩
    obtain ⟨pre, post, p1, p2, p3, p4⟩ := hmem i hi
    have hiff : (g.separator fl ≠ []) → ((g.shown fl strs i.2.1 i.2.2 = true ∧ newGroup g fl strs i.2.1 i.2.2) ↔
        (g.shown fl strs z (i.1 + i.2.2) = true ∧ newGroup g fl strs z (i.1 + i.2.2))) := by
      intro hs
      have hprev : 0 < i.2.2 → (g.shown fl strs z (i.1 + i.2.2 - 1) = g.shown fl strs i.2.1 (i.2.2 - 1)) := by
        intro h0
        have m := hmem' pre i.2.1 post (i.2.2 - 1) p1 (by omega)
        have e : i.1 + i.2.2 - 1 = pre.flatten.length + (i.2.2 - 1) := by omega
        rw [e, Bool.eq_iff_iff]
        exact ⟨h1 _ m, hsh _ m⟩
      constructor
      · rintro ⟨hsn, hc, hk, h3, h4⟩
        refine ⟨hsh i hi hsn, hc, by omega, by rw [hprev hk]; exact h3, ?_⟩
        rw [List.any_eq_true] at h4 ⊢
        obtain ⟨j, hj, h4⟩ := h4
        rw [List.mem_range] at hj
        refine ⟨i.1 + j, List.mem_range.2 (by omega), ?_⟩
        rw [p2]; exact hsh _ (hmem' pre i.2.1 post j p1 (by omega)) h4
      · rintro ⟨hsn, hc, hk, h3, h4⟩
        have hsn' := h1 i hi hsn
        refine ⟨hsn', hc, ?_⟩
        rw [List.any_eq_true] at h4
        obtain ⟨j, hj, h4⟩ := h4
        rw [List.mem_range] at hj
        by_cases hjo : j < i.1
        · obtain ⟨a, q, b, k, he, hk', hje⟩ := earlier_part (pre := pre) (j := j) (by omega)
          have hq : g.shown fl strs q k = true := by
            refine h1 (a.flatten.length, q, k) (hmem' a q (b ++ i.2.1 :: post) k (by rw [p1, he]; simp) hk') ?_
            rw [← hje]; exact h4
          have := (hfit pre i.2.1 post p1).2 hs hc ⟨_, p3, hsn'⟩ ⟨q, by rw [he]; simp, k, hk', hq⟩
          rw [hz, ← p2] at this
          by_cases h0 : i.2.2 = 0
          · rw [h0, Nat.add_zero, this.2] at h3; cases h3
          · refine ⟨by omega, by rw [← hprev (by omega)]; exact h3, ?_⟩
            rw [List.any_eq_true]
            exact ⟨0, List.mem_range.2 (by omega), this.1⟩
        · have hq : g.shown fl strs i.2.1 (j - i.1) = true := by
            refine h1 (pre.flatten.length, i.2.1, j - i.1) (hmem' pre i.2.1 post _ p1 (by omega)) ?_
            rw [← h4]; congr 1; simp only; omega
          refine ⟨by omega, by rw [← hprev (by omega)]; exact h3, ?_⟩
          rw [List.any_eq_true]
          exact ⟨_, List.mem_range.2 (by omega), hq⟩
    unfold sepOf
    by_cases hs : g.separator fl = []
    · rw [hs]; split <;> split <;> rfl
    · by_cases h : g.shown fl strs i.2.1 i.2.2 = true ∧ newGroup g fl strs i.2.1 i.2.2
      · rw [if_pos h, if_pos ((hiff hs).1 h)]
      · rw [if_neg h, if_neg (fun h' => h ((hiff hs).2 h'))]

/-- C54 for context, exactly: an offered parallelizer gives the output of grep for an input and a split exactly if the parts
fit. It is assumed that every shown line is printed and that no line is printed like a separator. -/
theorem C54_context_exact (inv : CommandInvocationInitial) (hn : inv.cmdName = "grep") (p : Parallelizer)
    (hp : Offered inv p)
    (hx : ¬ ∃ w ∈ ["-m", "--max-count", "-L", "-l", "-c", "-n", "-b", "-z"], Has inv w)
    (prog : Programs) (hcat : CatProgram prog) (g : GrepParameters) (hg : GrepProgram prog g)
    (c : CommandInvocationWithIOVars) (hb : Belongs inv c) (hcov : Covered "grep" c.flagOptionList) (hc : OneStream c)
    (x : Stream) (hpr : ∀ l ∈ x, ∀ sel, g.print c.flagOptionList sel none none l ≠ [] ∧
      ∀ o ∈ g.print c.flagOptionList sel none none l, o ∉ g.separator c.flagOptionList)
    (parts : List Stream) (hs : Split p.splitter x parts) (y : Stream) (h : Executes prog p c parts y) :
    y = sequential prog c x ↔ ContextFits g c.flagOptionList (strOperands c) parts := by
  have hoff : p ∈ bothPlans concatenation ∧ ¬ Has inv "-q" := by
    obtain ⟨i, hi, hcom, h1, h2⟩ := C31_grep_decision inv hn
    obtain ⟨i', hi', hp⟩ := offered_iff.1 hp
    rw [hi] at hi'; cases hi'
    have hp : p ∈ i.parallelizerList := by
      rcases hp with hp | ⟨hc, _⟩
      · exact hp
      · rw [hcom] at hc; cases hc
    by_cases hcond : ¬ Has inv "-q" ∧ ((∃ n ∈ ["-A", "-B", "-C", "-m"], Has inv n) ∨
          ¬ ∃ n ∈ ["-L", "-l", "-c", "-n", "-b"], Has inv n)
    · exact ⟨by rw [h1 hcond] at hp; exact hp, hcond.1⟩
    · rw [h2 hcond] at hp; cases hp
  have hnone : ∀ w ∈ ["-q", "-m", "--max-count", "-L", "-l", "-c", "-n", "-b", "-z"], ¬ Given c.flagOptionList w := by
    intro w hw hh
    rw [← has_iff_given hb] at hh
    rcases List.mem_cons.1 hw with rfl | hw
    · exact hoff.2 hh
    · exact hx ⟨w, hw, hh⟩
  have hlim : g.limit c.flagOptionList = none := by
    unfold GrepParameters.limit
    rw [argAmong_none (fun w hw => hnone w (by
      simp only [List.mem_cons, List.not_mem_nil, or_false] at hw ⊢
      rcases hw with rfl | rfl <;> simp))]
    rfl
  have hseq : sequential prog c = fun z => (List.range z.length).flatMap (g.printed c.flagOptionList (strOperands c) z) := by
    funext z
    unfold sequential
    rw [hb.1, hn, hg _ _ _ hcov (hnone "-z" (by simp))]
    unfold GrepParameters.grep
    simp only [hnone "-q" (by simp), listing_none c.flagOptionList (hnone "-l" (by simp)) (hnone "-L" (by simp)),
      hnone "-c" (by simp), if_false, reduceCtorEq]
  have hx' : parts.flatten = x := by
    have := hoff.1
    simp only [bothPlans, List.mem_cons, List.not_mem_nil, or_false] at this
    rcases this with rfl | rfl <;> exact hs
  subst hx'
  rw [executes_concatenation hcat hc hoff.1 h, hseq]
  exact context_positions hlim (hnone "-n" (by simp)) (hnone "-b" (by simp)) parts hpr

/-- The fit of given parts can be computed. -/
private theorem fits_iff {parts : List Stream} : ContextFits g fl strs parts ↔
    (List.range parts.length).all (fun n =>
      (List.range (parts.getD n []).length).all (fun k =>
        !g.shown fl strs parts.flatten ((parts.take n).flatten.length + k) || g.shown fl strs (parts.getD n []) k) &&
      (decide (g.separator fl = []) || !decide (GrepParameters.context fl) ||
        !(List.range (parts.getD n []).length).any (g.shown fl strs (parts.getD n [])) ||
        !(parts.take n).any (fun q => (List.range q.length).any (g.shown fl strs q)) ||
        (g.shown fl strs (parts.getD n []) 0 && g.shown fl strs parts.flatten ((parts.take n).flatten.length - 1)))) = true := by
  have e : ContextFits g fl strs parts ↔ ∀ n < parts.length,
      (∀ k < (parts.getD n []).length, g.shown fl strs parts.flatten ((parts.take n).flatten.length + k) = true →
        g.shown fl strs (parts.getD n []) k = true) ∧
      (g.separator fl ≠ [] → GrepParameters.context fl →
        (∃ k < (parts.getD n []).length, g.shown fl strs (parts.getD n []) k = true) →
        (∃ q ∈ parts.take n, ∃ k < q.length, g.shown fl strs q k = true) →
        g.shown fl strs (parts.getD n []) 0 = true ∧
          g.shown fl strs parts.flatten ((parts.take n).flatten.length - 1) = true) := by
    constructor
    · intro h n hn
      refine h (parts.take n) (parts.getD n []) (parts.drop (n + 1)) ?_
      have e : parts.getD n [] = parts[n] := by simp [hn]
      rw [e, ← List.drop_eq_getElem_cons hn, List.take_append_drop]
    · rintro h pre part post rfl
      have := h pre.length (by simp)
      simpa using this
  rw [e, List.all_eq_true]
  refine ⟨fun h n hn => ?_, fun h n hn => ?_⟩
  · obtain ⟨h1, h2⟩ := h n (List.mem_range.1 hn)
    simp only [Bool.and_eq_true, Bool.or_eq_true, List.all_eq_true, Bool.not_eq_true', decide_eq_true_eq]
    refine ⟨fun k hk => ?_, ?_⟩
    · have := h1 k (List.mem_range.1 hk)
      cases hc : g.shown fl strs parts.flatten ((parts.take n).flatten.length + k) with
      | false => exact .inl rfl
      | true => exact .inr (this hc)
    · by_cases hs : g.separator fl = []
      · exact .inl (.inl (.inl (.inl hs)))
      by_cases hc : GrepParameters.context fl
      case neg => exact .inl (.inl (.inl (.inr (decide_eq_false hc))))
      cases ha : (List.range (parts.getD n []).length).any (g.shown fl strs (parts.getD n [])) with
      | false => exact .inl (.inl (.inr rfl))
      | true =>
      cases hb : (parts.take n).any (fun q => (List.range q.length).any (g.shown fl strs q)) with
      | false => exact .inl (.inr rfl)
      | true =>
      right
      refine h2 hs hc ?_ ?_
      · simpa using ha
      · simpa using hb
  · have := h n (List.mem_range.2 hn)
    simp only [Bool.and_eq_true, Bool.or_eq_true, List.all_eq_true, Bool.not_eq_true', decide_eq_true_eq] at this
    obtain ⟨h1, h2⟩ := this
    refine ⟨fun k hk h => ?_, ?_⟩
    · rcases h1 k (List.mem_range.2 hk) with h' | h'
      · rw [h] at h'; cases h'
      · exact h'
    · rintro hs hc ⟨k, hk, ha⟩ ⟨q, hq, j, hj, hb⟩
      rcases h2 with (((h2 | h2) | h2) | h2) | h2
      · exact absurd h2 hs
      · exact absurd hc (of_decide_eq_false h2)
      · rw [List.any_eq_false] at h2
        exact absurd ha (h2 k (List.mem_range.2 hk))
      · rw [List.any_eq_false] at h2
        have := h2 q hq
        rw [Bool.not_eq_true, List.any_eq_false] at this
        exact absurd hb (this j (List.mem_range.2 hj))
      · exact h2

example : ∃ inv p, parse "grep -A 1 a f" = .ok inv ∧ Offered inv p ∧
    (¬ ∃ w ∈ ["-m", "--max-count", "-L", "-l", "-c", "-n", "-b", "-z"], Has inv w) ∧
    Belongs inv (grepSample [.optionVar 0 "-A" (.str "1")]) ∧
    Covered "grep" (grepSample [.optionVar 0 "-A" (.str "1")]).flagOptionList ∧
    (∀ l ∈ ["a", "b", "c", "a"], ∀ sel, sampleGrep.print [.optionVar 0 "-A" (.str "1")] sel none none l ≠ [] ∧
      ∀ o ∈ sampleGrep.print [.optionVar 0 "-A" (.str "1")] sel none none l, o ∉ sampleGrep.separator [.optionVar 0 "-A" (.str "1")]) ∧
    -- the parts fit: the groups touch and the context is in the same part
    ContextFits sampleGrep [.optionVar 0 "-A" (.str "1")] ["a"] [["c", "a", "b"], ["a", "b", "c"]] ∧
    -- context in another part
    ¬ ContextFits sampleGrep [.optionVar 0 "-A" (.str "1")] ["a"] [["c", "a"], ["b", "c"]] ∧
    -- a missing separator
    ¬ ContextFits sampleGrep [.optionVar 0 "-A" (.str "1")] ["a"] [["a", "b"], ["c", "a", "b"]] := by
  refine ⟨⟨"grep", [.option "-A" "1"], ["a", "f"]⟩, plan .consecChunks concatenation, by decide +kernel, ?_,
    by simp [Has], ⟨rfl, rfl⟩, by decide +kernel, by decide +kernel, ?_, ?_, ?_⟩
  · exact offered_iff.2 ⟨_, grep_offered rfl (by simp [Has, grepSpecial]), .inl (by simp [bothPlans])⟩
  · rw [fits_iff]; decide +kernel
  · rw [fits_iff]; decide +kernel
  · rw [fits_iff]; decide +kernel

end PashAnn
