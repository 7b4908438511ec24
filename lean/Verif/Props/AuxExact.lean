import Verif.Props.AuxPlans

/-! Property C69: for which splits the plan for bigrams_aux is right. -/

namespace PashAnn
open Spec

theorem bigrams_length (x : Stream) : (bigrams x).length = x.length - 1 := by
  match x with
  | [] => rfl
  | [a] => rfl
  | a :: b :: x =>
      have := bigrams_length (b :: x)
      rw [bigrams, List.length_cons, this]
      simp

theorem pasteLines_length (x y : Stream) : (pasteLines x y).length = if x = [] ∧ y = [] then 0 else 1 := by
  cases x <;> cases y <;> simp [pasteLines]

/-- How many lines come out if the parts have so many lines: those of each part, and one for each two neighbours that are not both
empty. -/
def joinedLines : List Nat → Nat
  | [] => 0
  | [a] => a - 1
  | a :: b :: l => (a - 1) + (if a = 0 ∧ b = 0 then 0 else 1) + joinedLines (b :: l)

theorem joinedLines_append (l r : List Nat) (a b : Nat) : joinedLines (l ++ [a] ++ b :: r) =
    joinedLines (l ++ [a]) + (if a = 0 ∧ b = 0 then 0 else 1) + joinedLines (b :: r) := by
  induction l with
  | nil => rfl
  | cons c l ih =>
      cases l with
      | nil => simp only [List.nil_append, List.cons_append, joinedLines] at ih ⊢; omega
      | cons d l => simp only [List.cons_append, joinedLines] at ih ⊢; omega

theorem joinedLines_bounds (l : List Nat) : l.sum - 1 ≤ joinedLines l ∧ (∀ a l', l = a :: l' → a = 0 → l.sum ≤ joinedLines l) ∧
    (0 ∈ l → l.sum ≤ joinedLines l) := by
  induction l with
  | nil => simp
  | cons a l ih =>
      cases l with
      | nil => simp [joinedLines]; omega
      | cons b l =>
          obtain ⟨h1, h2, h3⟩ := ih
          have h2 := h2 b l rfl
          simp only [joinedLines, List.sum_cons] at h1 h2 h3 ⊢
          refine ⟨?_, ?_, ?_⟩
          · split <;> omega
          · rintro _ _ ⟨⟩ rfl
            by_cases hb : b = 0
            · have := h2 hb
              simp only [hb] at *; simp; omega
            · simp [hb]; omega
          · intro h0
            by_cases ha : a = 0
            · by_cases hb : b = 0
              · have := h2 hb
                simp only [ha, hb] at *; simp; omega
              · simp [ha, hb]; omega
            · have := h3 ((List.mem_cons.1 h0).resolve_left (fun h => ha h.symm))
              simp [ha]; omega

theorem joinedLines_pos (l : List Nat) (h : ∀ a ∈ l, 0 < a) : joinedLines l = l.sum - 1 := by
  induction l with
  | nil => rfl
  | cons a l ih =>
      cases l with
      | nil => simp [joinedLines]
      | cons b l =>
          rw [joinedLines, ih (fun x hx => h x (by simp [hx])), List.sum_cons]
          have := h a (by simp)
          have := h b (by simp)
          rw [if_neg (by omega)]
          simp only [List.sum_cons]
          omega

/-- C69. For which splits the plan for `bigrams_aux` gives the bigrams of the input: exactly if no part is empty, or all are. -/
theorem C69_bigrams_exact (inv : CommandInvocationInitial) (hn : inv.cmdName = "bigrams_aux") (p : Parallelizer)
    (hp : Offered inv p) (c : CommandInvocationWithIOVars) (prog : FilePrograms) (hb : BigramPrograms prog)
    (x : Stream) (parts : List Stream) (hsp : Split p.splitter x parts) (ys : List Stream) (h : AuxExecutes prog p c parts ys) :
    ys.head? = some (bigrams x) ↔ x = [] ∨ ∀ part ∈ parts, part ≠ [] := by
  have right := C69_bigrams_partial inv hn p hp c prog hb x parts hsp
  rw [(offered_bigrams hn p).1 hp] at hsp h right
  replace hsp : parts.flatten = x := hsp
  have key : ∃ o, ys.head? = some o ∧ o.length = joinedLines (parts.map List.length) := by
    obtain ⟨runs, rfl, hruns, hj⟩ := h
    have hruns' : ∀ r ∈ runs, r.2 = [bigrams r.1, r.1.take 1, r.1.getLast?.toList] := fun r hr =>
      ((auxMapper_output (by decide) (hruns r hr)).1).trans (hb.map _)
    clear hruns right hsp
    generalize hq : runs.map Prod.snd = outs at hj
    suffices ∃ o first last mid, ys = [o, first.take 1, last.getLast?.toList] ∧ o.length = joinedLines ((runs.map Prod.fst).map List.length) ∧
        (runs.map Prod.fst = [first] ∧ first = last ∨ runs.map Prod.fst = first :: (mid ++ [last])) by
      obtain ⟨o, _, _, _, rfl, h, _⟩ := this
      exact ⟨o, rfl, h⟩
    induction hj generalizing runs with
    | leaf s =>
        obtain ⟨r, rfl⟩ : ∃ r, runs = [r] := List.length_eq_one_iff.1 (by rw [← List.length_map (f := Prod.snd), hq]; rfl)
        cases hq
        exact ⟨bigrams r.1, r.1, r.1, [], hruns' r (by simp), by simp [joinedLines, bigrams_length], .inl ⟨rfl, rfl⟩⟩
    | @node l r a b i₁ i₂ o aux₁ aux₂ auxo agg env hl hr hnd hag hlen hrun ha hb' ihl ihr =>
        obtain ⟨runs₁, runs₂, rfl, q1, q2⟩ := List.map_eq_append_iff.1 hq
        obtain ⟨o1, f1, l1, m1, e1, n1, s1⟩ := ihl runs₁ (fun r hr => hruns' r (by simp [hr])) q1
        obtain ⟨o2, f2, l2, m2, e2, n2, s2⟩ := ihr runs₂ (fun r hr => hruns' r (by simp [hr])) q2
        rw [auxNode_output (p := bigramPlan) rfl (ns := []) (inv := ⟨"bigram_aux_reduce", [], []⟩) (by decide +kernel) rfl
          hag hlen hrun ha hb', e1, e2]
        have hlast : ∃ z, runs₁.map Prod.fst = z ++ [l1] := by
          rcases s1 with ⟨s1, rfl⟩ | s1
          · exact ⟨[], s1⟩
          · exact ⟨f1 :: m1, s1⟩
        have hfirst : ∃ z, runs₂.map Prod.fst = f2 :: z := by
          rcases s2 with ⟨s2, rfl⟩ | s2
          · exact ⟨[], s2⟩
          · exact ⟨_, s2⟩
        obtain ⟨z1, hz1⟩ := hlast
        obtain ⟨z2, hz2⟩ := hfirst
        refine ⟨o1 ++ pasteLines l1.getLast?.toList (f2.take 1) ++ o2, f1, l2, ?_, hb.reduce _ _ _ _ _ _, ?_, ?_⟩
        · exact (z1 ++ [l1]).tail ++ (f2 :: z2).dropLast
        · rw [List.map_append, List.map_append, List.length_append, List.length_append, n1, n2, hz1, hz2, pasteLines_length]
          rw [List.map_append, List.map_cons, List.map_nil, List.map_cons, joinedLines_append]
          congr 2
          cases l1 <;> cases f2 <;> simp [List.getLast?_cons]
        · right
          rw [List.map_append, hz1, hz2]
          rcases s1 with ⟨s1, rfl⟩ | s1 <;> rcases s2 with ⟨s2, rfl⟩ | s2
          all_goals
            rw [hz1] at s1
            rw [hz2] at s2
            rw [s1, s2]
            simp
          all_goals
            rw [show f2 :: (m2 ++ [l2]) = (f2 :: m2) ++ [l2] from rfl, List.dropLast_concat]
  obtain ⟨o, ho, hlen⟩ := key
  constructor
  · intro e
    rw [ho] at e
    cases e
    by_cases hx : x = []
    · exact .inl hx
    · right
      rintro part hm rfl
      have := (joinedLines_bounds (parts.map List.length)).2.2 (List.mem_map.2 ⟨[], hm, rfl⟩)
      rw [← hlen, bigrams_length, ← List.length_flatten, hsp] at this
      have := List.length_pos_iff.2 hx
      omega
  · rintro (rfl | hne)
    · have hz : ∀ l : List Stream, l.flatten = [] → joinedLines (l.map List.length) = 0 := by
        intro l
        induction l with
        | nil => intro _; rfl
        | cons a l ih =>
            intro hf
            rw [List.flatten_cons, List.append_eq_nil_iff] at hf
            obtain ⟨rfl, hf⟩ := hf
            cases l with
            | nil => rfl
            | cons b l =>
                rw [List.flatten_cons, List.append_eq_nil_iff] at hf
                have := ih (by rw [List.flatten_cons, hf.1, hf.2]; rfl)
                simp only [List.map_cons, joinedLines] at this ⊢
                rw [this]
                simp [hf.1]
      rw [hz parts hsp] at hlen
      rw [ho, List.length_eq_zero_iff.1 hlen]
      rfl
    · rw [right hne ys h]
      rfl

example : ∃ inv p, parse "bigrams_aux" = .ok inv ∧ Offered inv p ∧ Split p.splitter ["a", "b", "c"] [["a", "b"], [], ["c"]] ∧
    ∃ ys, AuxExecutes bigramProgs p ⟨"bigrams_aux", [], [], none, none, []⟩ [["a", "b"], [], ["c"]] ys :=
  ⟨⟨"bigrams_aux", [], []⟩, bigramPlan, by decide +kernel, (offered_bigrams rfl _).2 rfl, by simp [bigramPlan, Split],
    C69_executable _ rfl bigramProgs bigramProgs_ok _ (by simp)⟩

end PashAnn
