import Verif.Props.Unique

/-! Property C56, `uniq -u`: exactly when it is right, for any number of parts and any order of joining. -/

namespace PashAnn
open Spec

variable {same : String → String → Bool}

private theorem gathered_sub {x y : Stream} (h : y.Sublist x) (hg : Gathered same x) : Gathered same y :=
  fun u v w hs => hg u v w (hs.trans h)

private theorem count_none {z : Stream} {u : String} (h : ∀ v ∈ z, same u v = false) : z.countP (same u) = 0 := by
  rw [List.countP_eq_zero]
  intro v hv; rw [h v hv]; simp

private theorem count_all {z : Stream} {u : String} (h : ∀ v ∈ z, same u v = true) : z.countP (same u) = z.length :=
  List.countP_eq_length.2 h

/-- If lines that compare equal are adjacent then `uniq -u` shows the lines that compare equal to no other. -/
private theorem loners_gathered (hs : SameLine same) (n : Nat) (x : Stream) (hn : x.length ≤ n) (hg : Gathered same x) :
    loners same x = x.filter (fun u => decide (x.countP (same u) = 1)) := by
  induction n generalizing x with
  | zero =>
      have : x = [] := List.length_eq_zero_iff.1 (by omega)
      subst this; rfl
  | succ n ih =>
      cases x with
      | nil => rfl
      | cons r b =>
          obtain ⟨g, b0, rfl, h1, h2⟩ := gathered_start hg
          have hin : ∀ u ∈ r :: g, same r u = true := by
            intro u hu
            rcases List.mem_cons.1 hu with rfl | hu
            · exact hs.refl u
            · exact h1 u hu
          have apart : ∀ u ∈ r :: g, ∀ v ∈ b0, same u v = false := by
            intro u hu v hv
            cases h : same u v with
            | false => rfl
            | true => have := h2 v hv; rw [hs.trans _ _ _ (hin u hu) h] at this; cases this
          have all : ∀ u ∈ r :: g, ∀ v ∈ r :: g, same u v = true :=
            fun u hu v hv => hs.trans _ _ _ (hs.symm _ _ (hin u hu)) (hin v hv)
          rw [← List.cons_append, loners_append _ _ _ apart, List.filter_append, loners_all all,
            ih b0 (by simp at hn; omega) (gathered_sub (List.sublist_append_right (r :: g) b0) (by simpa using hg))]
          have e1 : (r :: g).filter (fun u => decide (List.countP (same u) (r :: g ++ b0) = 1)) = if g = [] then [r] else [] := by
            have : ∀ u ∈ r :: g, decide (List.countP (same u) (r :: g ++ b0) = 1) = decide (g = []) := by
              intro u hu
              rw [List.countP_append, count_all (all u hu), count_none (apart u hu)]
              simp
            rw [List.filter_congr this]
            cases g <;> simp
          have e2 : b0.filter (fun u => decide (List.countP (same u) (r :: g ++ b0) = 1)) =
              b0.filter (fun u => decide (List.countP (same u) b0 = 1)) := by
            apply List.filter_congr
            intro u hu
            rw [List.countP_append, count_none (z := r :: g), Nat.zero_add]
            intro v hv
            cases h : same u v with
            | false => rfl
            | true => have := apart v hv u hu; rw [hs.symm _ _ h] at this; cases this
          rw [e1, e2]

/-- What is shown of each part, joined in any order: some of the lines, no two of which compare equal; a line is shown, up to
comparing equal, exactly if it is alone in an odd number of parts. -/
private structure Shown (same : String → String → Bool) (parts : List Stream) (y : Stream) : Prop where
  sub : y.Sublist parts.flatten
  apart : y.Pairwise (fun u v => same u v = false)
  odd : ∀ u, (∃ v ∈ y, same u v = true) ↔ (parts.filter (fun q => decide (q.countP (same u) = 1))).length % 2 = 1

private theorem count_congr (hs : SameLine same) {u v : String} (h : same u v = true) (z : Stream) :
    z.countP (same u) = z.countP (same v) := by
  congr 1
  funext w
  rw [Bool.eq_iff_iff]
  exact ⟨fun h' => hs.trans _ _ _ (hs.symm _ _ h) h', fun h' => hs.trans _ _ _ h h'⟩

private theorem filter_alone_apart (x : Stream) (hs : SameLine same) :
    (x.filter (fun u => decide (x.countP (same u) = 1))).Pairwise (fun u v => same u v = false) := by
  have key : ∀ z : Stream, (∀ u ∈ z, x.countP (same u) = 1) → z.Sublist x → z.Pairwise (fun u v => same u v = false) := by
    intro z hz hsub
    induction z with
    | nil => exact List.Pairwise.nil
    | cons a z ih =>
        refine List.pairwise_cons.2 ⟨fun v hv => ?_,
          ih (fun u hu => hz u (List.mem_cons_of_mem _ hu)) ((List.sublist_cons_self a z).trans hsub)⟩
        cases h : same a v with
        | false => rfl
        | true =>
            have h2 : [a, v].Sublist x := (List.Sublist.cons_cons a (List.singleton_sublist.2 hv)).trans hsub
            have := h2.countP_le (p := same a)
            rw [hz a List.mem_cons_self] at this
            simp [hs.refl a, h] at this
  refine key _ ?_ List.filter_sublist
  intro u hu
  simpa using (List.mem_filter.1 hu).2

private theorem shown_one (hs : SameLine same) {q : Stream} (hg : Gathered same q) : Shown same [q] (loners same q) := by
  rw [loners_gathered hs q.length q (Nat.le_refl _) hg]
  refine ⟨by simp, filter_alone_apart q hs, fun u => ?_⟩
  constructor
  · rintro ⟨v, hv, h⟩
    have := (List.mem_filter.1 hv).2
    rw [decide_eq_true_eq] at this
    simp [count_congr hs h, this]
  · intro h
    have h1 : q.countP (same u) = 1 := by
      by_cases h1 : q.countP (same u) = 1
      · exact h1
      · simp [h1] at h
    obtain ⟨v, hv, hsv⟩ := List.countP_pos_iff.1 (show 0 < q.countP (same u) by omega)
    exact ⟨v, List.mem_filter.2 ⟨hv, by rw [decide_eq_true_eq, ← count_congr hs hsv]; exact h1⟩, hsv⟩

private theorem shown_join (hs : SameLine same) {p q : List Stream} {a b : Stream} (ha : Shown same p a) (hb : Shown same q b)
    (hg : Gathered same (p ++ q).flatten) : Shown same (p ++ q) (splice (loners same) a b) := by
  rw [List.flatten_append] at hg
  have hab : (a ++ b).Sublist (p.flatten ++ q.flatten) := ha.sub.append hb.sub
  have hg' : Gathered same (a ++ b) := gathered_sub hab hg
  -- the joined lines and which lines they show
  have key : (splice (loners same) a b).Sublist (a ++ b) ∧ (splice (loners same) a b).Pairwise (fun u v => same u v = false) ∧
      ∀ u, (∃ v ∈ splice (loners same) a b, same u v = true) ↔
        ((∃ v ∈ a, same u v = true) ∧ ¬ (∃ v ∈ b, same u v = true) ∨
          ¬ (∃ v ∈ a, same u v = true) ∧ ∃ v ∈ b, same u v = true) := by
    by_cases hcut : ∃ a' l r b', a = a' ++ [l] ∧ b = r :: b' ∧ same l r = true
    · obtain ⟨a', l, r, b', rfl, rfl, hlr⟩ := hcut
      have e : splice (loners same) (a' ++ [l]) (r :: b') = a' ++ b' := by
        unfold splice
        simp [loners, groups, hlr]
      rw [e]
      obtain ⟨pa, _, pal⟩ := List.pairwise_append.1 ha.apart
      obtain ⟨pbr, pb⟩ := List.pairwise_cons.1 hb.apart
      have pal' : ∀ u ∈ a', same u l = false := fun u hu => pal u hu l (by simp)
      have hcross : ∀ u ∈ a', ∀ v ∈ r :: b', same u v = false := by
        intro u hu v hv
        cases h : same u v with
        | false => rfl
        | true =>
            have := hg' u l v (by
              rw [List.append_assoc]
              exact (List.singleton_sublist.2 hu).append (List.Sublist.cons_cons l (List.singleton_sublist.2 hv))) h
            rw [pal' u hu] at this; cases this
      have hcross' : ∀ v ∈ b', same l v = false := by
        intro v hv
        cases h : same l v with
        | false => rfl
        | true =>
            have := pbr v hv
            rw [hs.trans _ _ _ (hs.symm _ _ hlr) h] at this; cases this
      refine ⟨?_, ?_, ?_⟩
      · exact (List.sublist_append_left a' [l]).append (List.sublist_cons_self r b')
      · exact List.pairwise_append.2 ⟨pa, pb, fun u hu v hv => hcross u hu v (List.mem_cons_of_mem _ hv)⟩
      · intro u
        by_cases hul : same u l = true
        · have hA : ∃ v ∈ a' ++ [l], same u v = true := ⟨l, by simp, hul⟩
          have hB : ∃ v ∈ r :: b', same u v = true := ⟨r, by simp, hs.trans _ _ _ hul hlr⟩
          have hN : ¬ ∃ v ∈ a' ++ b', same u v = true := by
            rintro ⟨v, hv, h⟩
            have hlv : same l v = true := hs.trans _ _ _ (hs.symm _ _ hul) h
            rcases List.mem_append.1 hv with hv | hv
            · have := pal' v hv; rw [hs.symm _ _ hlv] at this; cases this
            · rw [hcross' v hv] at hlv; cases hlv
          simp only [hA, hB, hN, not_true_eq_false, and_false, false_and, or_self]
        · have hA : (∃ v ∈ a' ++ [l], same u v = true) ↔ ∃ v ∈ a', same u v = true := by
            constructor
            · rintro ⟨v, hv, h⟩
              rcases List.mem_append.1 hv with hv | hv
              · exact ⟨v, hv, h⟩
              · rw [List.mem_singleton.1 hv] at h; exact absurd h hul
            · rintro ⟨v, hv, h⟩; exact ⟨v, List.mem_append_left _ hv, h⟩
          have hB : (∃ v ∈ r :: b', same u v = true) ↔ ∃ v ∈ b', same u v = true := by
            constructor
            · rintro ⟨v, hv, h⟩
              rcases List.mem_cons.1 hv with rfl | hv
              · exact absurd (hs.trans _ _ _ h (hs.symm _ _ hlr)) hul
              · exact ⟨v, hv, h⟩
            · rintro ⟨v, hv, h⟩; exact ⟨v, List.mem_cons_of_mem _ hv, h⟩
          rw [hA, hB]
          constructor
          · rintro ⟨v, hv, h⟩
            rcases List.mem_append.1 hv with hv | hv
            · refine .inl ⟨⟨v, hv, h⟩, ?_⟩
              rintro ⟨w, hw, h'⟩
              have := hcross v hv w (List.mem_cons_of_mem _ hw)
              rw [hs.trans _ _ _ (hs.symm _ _ h) h'] at this; cases this
            · refine .inr ⟨?_, ⟨v, hv, h⟩⟩
              rintro ⟨w, hw, h'⟩
              have := hcross w hw v (List.mem_cons_of_mem _ hv)
              rw [hs.trans _ _ _ (hs.symm _ _ h') h] at this; cases this
          · rintro (⟨⟨v, hv, h⟩, _⟩ | ⟨_, v, hv, h⟩)
            · exact ⟨v, List.mem_append_left _ hv, h⟩
            · exact ⟨v, List.mem_append_right _ hv, h⟩
    · have hcross : ∀ u ∈ a, ∀ v ∈ b, same u v = false := by
        intro u hu v hv
        cases h : same u v with
        | false => rfl
        | true =>
            exfalso
            have hne : a ≠ [] := List.ne_nil_of_mem hu
            cases b with
            | nil => cases hv
            | cons r b' =>
                refine hcut ⟨a.dropLast, a.getLast hne, r, b', (List.dropLast_concat_getLast hne).symm, rfl, ?_⟩
                have hul : same u (a.getLast hne) = true := by
                  rw [← List.dropLast_concat_getLast hne] at hu
                  rcases List.mem_append.1 hu with hu' | hu'
                  · refine hg' u (a.getLast hne) v ?_ h
                    conv => rhs; rw [← List.dropLast_concat_getLast hne, List.append_assoc]
                    exact (List.singleton_sublist.2 hu').append (List.Sublist.cons_cons _ (List.singleton_sublist.2 hv))
                  · rw [List.mem_singleton.1 hu']; exact hs.refl _
                have hlv : same (a.getLast hne) v = true := hs.trans _ _ _ (hs.symm _ _ hul) h
                rcases List.mem_cons.1 hv with rfl | hv'
                · exact hlv
                · refine hg' (a.getLast hne) r v ?_ hlv
                  exact (List.singleton_sublist.2 (List.getLast_mem hne)).append
                    (List.Sublist.cons_cons r (List.singleton_sublist.2 hv'))
      rw [splice_apart hcross]
      refine ⟨List.Sublist.refl _, List.pairwise_append.2 ⟨ha.apart, hb.apart, hcross⟩, fun u => ?_⟩
      constructor
      · rintro ⟨v, hv, h⟩
        rcases List.mem_append.1 hv with hv | hv
        · refine .inl ⟨⟨v, hv, h⟩, ?_⟩
          rintro ⟨w, hw, h'⟩
          have := hcross v hv w hw
          rw [hs.trans _ _ _ (hs.symm _ _ h) h'] at this; cases this
        · refine .inr ⟨?_, ⟨v, hv, h⟩⟩
          rintro ⟨w, hw, h'⟩
          have := hcross w hw v hv
          rw [hs.trans _ _ _ (hs.symm _ _ h') h] at this; cases this
      · rintro (⟨⟨v, hv, h⟩, _⟩ | ⟨_, v, hv, h⟩)
        · exact ⟨v, List.mem_append_left _ hv, h⟩
        · exact ⟨v, List.mem_append_right _ hv, h⟩
  obtain ⟨k1, k2, k3⟩ := key
  refine ⟨by rw [List.flatten_append]; exact k1.trans hab, k2, fun u => ?_⟩
  rw [k3, ha.odd, hb.odd, List.filter_append, List.length_append]
  omega

private theorem shown_spliced (hs : SameLine same) {outs : List Stream} {y : Stream} (h : Spliced (loners same) outs y) :
    ∀ parts : List Stream, outs = parts.map (loners same) → Gathered same parts.flatten → Shown same parts y := by
  induction h with
  | leaf s =>
      intro parts he hg
      cases parts with
      | nil => cases he
      | cons q parts =>
          cases parts with
          | nil =>
              simp only [List.map_cons, List.map_nil, List.cons.injEq, and_true] at he
              rw [he]; exact shown_one hs (by simpa using hg)
          | cons _ _ => simp at he
  | @node l r a b hl hr ihl ihr =>
      intro parts he hg
      obtain ⟨p, q, rfl, rfl, rfl⟩ := List.append_eq_map_iff.1 he
      rw [List.flatten_append] at hg
      refine shown_join hs (ihl p rfl (gathered_sub (List.sublist_append_left _ _) hg))
        (ihr q rfl (gathered_sub (List.sublist_append_right _ _) hg)) (by rw [List.flatten_append]; exact hg)

/-- Some of the elements are all those with a property if they have it and no others do, and those that do are distinct. -/
private theorem sub_eq_filter {x y : Stream} (P : String → Bool) (h : y.Sublist x) (h1 : ∀ u ∈ y, P u = true)
    (h2 : ∀ u ∈ x, P u = true → u ∈ y) (hn : (x.filter P).Nodup) : y = x.filter P := by
  induction h with
  | slnil => rfl
  | @cons y x a hsub ih =>
      by_cases ha : P a = true
      · rw [List.filter_cons_of_pos ha, List.nodup_cons] at hn
        exact absurd (List.mem_filter.2 ⟨hsub.subset (h2 a (by simp) ha), ha⟩) hn.1
      · rw [List.filter_cons_of_neg ha] at hn ⊢
        exact ih h1 (fun u hu => h2 u (List.mem_cons_of_mem _ hu)) hn
  | @cons_cons y x a hsub ih =>
      have ha : P a = true := h1 a (by simp)
      rw [List.filter_cons_of_pos ha] at hn ⊢
      rw [List.nodup_cons] at hn
      rw [← ih (fun u hu => h1 u (List.mem_cons_of_mem _ hu)) (fun u hu hp => ?_) hn.2]
      rcases List.mem_cons.1 (h2 u (List.mem_cons_of_mem _ hu) hp) with rfl | h
      · exact absurd (List.mem_filter.2 ⟨hu, hp⟩) hn.1
      · exact h

private theorem count_flatten (u : String) (parts : List Stream) (h : parts.flatten.countP (same u) = 1) :
    (parts.filter (fun q => decide (q.countP (same u) = 1))).length = 1 := by
  induction parts with
  | nil => simp at h
  | cons q parts ih =>
      rw [List.flatten_cons, List.countP_append] at h
      by_cases hq : q.countP (same u) = 1
      · have h0 : parts.flatten.countP (same u) = 0 := by omega
        have : parts.filter (fun q => decide (q.countP (same u) = 1)) = [] := by
          rw [List.filter_eq_nil_iff]
          intro p hp h1
          rw [decide_eq_true_eq] at h1
          have := (List.sublist_flatten_of_mem hp).countP_le (p := same u)
          omega
        rw [List.filter_cons_of_pos (by simpa using hq), this]; rfl
      · rw [List.filter_cons_of_neg (by simpa using hq)]
        exact ih (by omega)

/-- C56 for `-u`, exactly: if lines that compare equal are adjacent in the input, as after `sort`, then an execution, on any
number of parts and with any order of joining, is right exactly if every line that is repeated is alone in an even number of
parts. -/
theorem C56_unique_parts_exact (inv : CommandInvocationInitial) (c : CommandInvocationWithIOVars) (h : PlainUnique inv c)
    (p : Parallelizer) (hp : Offered inv p) (prog : Programs)
    (same : List FlagOptionWithIOVar → String → String → Bool) (hprog : UniqProgram prog same) (x : Stream)
    (hg : ∀ u v w, [u, v, w].Sublist x → same c.flagOptionList u w = true → same c.flagOptionList u v = true)
    (parts : List Stream) (hs : Split p.splitter x parts) (y : Stream) (he : Executes prog p c parts y) :
    y = sequential prog c x ↔ ∀ u ∈ x, 2 ≤ x.countP (same c.flagOptionList u) →
      (parts.filter (fun part => decide (part.countP (same c.flagOptionList u) = 1))).length % 2 = 0 := by
  have hse := hprog.equivalence c.flagOptionList
  obtain ⟨h1, h2⟩ := unique_executes h (prog := prog) hp (x := x) (parts := parts) (y := y)
  have hsp := h2 he
  have hx := h1.1 hs
  rw [unique_sequential h hprog] at hsp ⊢
  generalize same c.flagOptionList = same at *
  subst hx
  have hsh := shown_spliced hse hsp parts rfl hg
  rw [loners_gathered hse _ _ (Nat.le_refl _) hg]
  have hnodup : (parts.flatten.filter (fun u => decide (parts.flatten.countP (same u) = 1))).Nodup :=
    (filter_alone_apart parts.flatten hse).imp (fun {u v} huv e => by rw [e, hse.refl] at huv; cases huv)
  have hpos : ∀ u ∈ parts.flatten, 1 ≤ parts.flatten.countP (same u) :=
    fun u hu => List.countP_pos_iff.2 ⟨u, hu, hse.refl u⟩
  constructor
  · intro hy u hu h2
    have : ¬ ∃ v ∈ y, same u v = true := by
      rintro ⟨v, hv, hv'⟩
      rw [hy] at hv
      have := (List.mem_filter.1 hv).2
      rw [decide_eq_true_eq, ← count_congr hse hv'] at this
      omega
    rw [hsh.odd] at this
    omega
  · intro heven
    refine sub_eq_filter _ hsh.sub ?_ ?_ hnodup
    · intro u hu
      have hux := hsh.sub.subset hu
      have hodd := (hsh.odd u).1 ⟨u, hu, hse.refl u⟩
      have := hpos u hux
      rw [decide_eq_true_eq]
      by_cases h2 : 2 ≤ parts.flatten.countP (same u)
      · have := heven u hux h2; omega
      · omega
    · intro u hu h1
      rw [decide_eq_true_eq] at h1
      obtain ⟨v, hv, hv'⟩ := (hsh.odd u).2 (by rw [count_flatten u parts h1])
      -- `u` is the only such line
      have hvx := hsh.sub.subset hv
      have : u = v := by
        have hlen : (parts.flatten.filter (same u)).length = 1 := by rw [← List.countP_eq_length_filter]; exact h1
        obtain ⟨w, hw⟩ := List.length_eq_one_iff.1 hlen
        have m1 : u ∈ parts.flatten.filter (same u) := List.mem_filter.2 ⟨hu, hse.refl u⟩
        have m2 : v ∈ parts.flatten.filter (same u) := List.mem_filter.2 ⟨hvx, hv'⟩
        rw [hw, List.mem_singleton] at m1 m2
        rw [m1, m2]
      rw [this]; exact hv

/-- Three parts: `a | a | b` is right, `a | a | a` is not, in any order of joining. -/
example : ∃ y z, Executes uniqProgs (plan .consecChunks (.nonFunc .adjLinesSeq false)) (uniqSample [.flag "-u"])
      [["a"], ["a"], ["b"]] y ∧ y = sequential uniqProgs (uniqSample [.flag "-u"]) ["a", "a", "b"] ∧
    Executes uniqProgs (plan .consecChunks (.nonFunc .adjLinesSeq false)) (uniqSample [.flag "-u"])
      [["a"], ["a"], ["a"]] z ∧ z ≠ sequential uniqProgs (uniqSample [.flag "-u"]) ["a", "a", "a"] := by
  have ho := (uniq_offered (inv := ⟨"uniq", [.flag "-u"], ["x"]⟩) rfl (by simp [Has]) (by simp [Has])
    (plan .consecChunks (.nonFunc .adjLinesSeq false))).2 (by simp [bothPlans])
  obtain ⟨y, hy⟩ := C56_executable uniqProgs _ uniqueSample_plain.stream .consecChunks [["a"], ["a"], ["b"]] (by simp)
  obtain ⟨z, hz⟩ := C56_executable uniqProgs _ uniqueSample_plain.stream .consecChunks [["a"], ["a"], ["a"]] (by simp)
  have g : ∀ k : String, ∀ u v w : String, [u, v, w].Sublist ["a", "a", k] → (u == w) = true → (u == v) = true := by
    intro k u v w h
    have := h.eq_of_length rfl
    simp only [List.cons.injEq, and_true] at this
    obtain ⟨rfl, rfl, rfl⟩ := this
    intro _; rfl
  refine ⟨y, z, hy, ?_, hz, fun h => ?_⟩
  · exact (C56_unique_parts_exact _ _ uniqueSample_plain _ ho uniqProgs _ uniqProgs_ok ["a", "a", "b"] (g "b") [["a"], ["a"], ["b"]] rfl y hy).2
      (by decide)
  · have := (C56_unique_parts_exact _ _ uniqueSample_plain _ ho uniqProgs _ uniqProgs_ok ["a", "a", "a"] (g "a") [["a"], ["a"], ["a"]] rfl z hz).1 h
    exact absurd this (by decide)

end PashAnn
