import Verif.Props.Streams

/-! Property C56, `uniq -u`: when it is right although the general claim is false (`C56_unique_false`). -/

namespace PashAnn
open Spec

theorem groups_cons2 (same : String → String → Bool) {l k : String} {x : Stream} {g : List String} {gs : List (List String)}
    (h : groups same (k :: x) = (k :: g) :: gs) :
    groups same (l :: k :: x) = if same l k then (l :: k :: g) :: gs else [l] :: (k :: g) :: gs := by
  rw [groups, h]

theorem groups_append_apart (same : String → String → Bool) (a b : Stream) (h : ∀ u ∈ a, ∀ v ∈ b, same u v = false) :
    groups same (a ++ b) = groups same a ++ groups same b := by
  induction a with
  | nil => rfl
  | cons l a ih =>
      have ih := ih (fun u hu => h u (List.mem_cons_of_mem _ hu))
      rw [List.cons_append]
      cases a with
      | nil =>
          cases b with
          | nil => simp [groups]
          | cons k b =>
              obtain ⟨g, gs, e⟩ := groups_head same k b
              have : same l k = false := h l (by simp) k (by simp)
              rw [List.nil_append, groups_cons2 same e, e, this]
              rfl
      | cons k a =>
          obtain ⟨g, gs, e⟩ := groups_head same k a
          rw [e, List.cons_append, List.cons_append] at ih
          rw [List.cons_append, groups_cons2 same ih, groups_cons2 same e]
          split <;> rfl

theorem groups_all (same : String → String → Bool) (l : String) (g : Stream)
    (h : ∀ u ∈ l :: g, ∀ v ∈ l :: g, same u v = true) : groups same (l :: g) = [l :: g] := by
  induction g generalizing l with
  | nil => rfl
  | cons k g ih =>
      have e := ih k (fun u hu v hv => h u (List.mem_cons_of_mem _ hu) v (List.mem_cons_of_mem _ hv))
      rw [groups_cons2 same e, if_pos (h l (by simp) k (by simp))]

/-- What `uniq -u` shows. -/
def loners (same : String → String → Bool) (x : Stream) : Stream :=
  (groups same x).flatMap (fun g => if 1 < g.length then [] else g.take 1)

theorem loners_append (same : String → String → Bool) (a b : Stream) (h : ∀ u ∈ a, ∀ v ∈ b, same u v = false) :
    loners same (a ++ b) = loners same a ++ loners same b := by
  unfold loners
  rw [groups_append_apart same a b h, List.flatMap_append]

theorem groups_flatten (same : String → String → Bool) (x : Stream) : (groups same x).flatten = x := by
  induction x with
  | nil => rfl
  | cons l x ih =>
      cases x with
      | nil => rfl
      | cons k x =>
          obtain ⟨g, gs, e⟩ := groups_head same k x
          rw [groups_cons2 same e]
          rw [e] at ih
          split <;> simpa using ih

theorem loners_mem {same : String → String → Bool} {x : Stream} {u : String} (h : u ∈ loners same x) : u ∈ x := by
  unfold loners at h
  obtain ⟨g, hg, hu⟩ := List.mem_flatMap.1 h
  rw [← groups_flatten same x]
  refine List.mem_flatten.2 ⟨g, hg, ?_⟩
  split at hu
  · cases hu
  · exact List.mem_of_mem_take hu

theorem loners_two {same : String → String → Bool} {u v : String} (h : same u v = false) : loners same [u, v] = [u, v] := by
  simp [loners, groups, h]

theorem splice_apart {same : String → String → Bool} {a b : Stream} (h : ∀ u ∈ a, ∀ v ∈ b, same u v = false) :
    splice (loners same) a b = a ++ b := by
  unfold splice
  split
  · rename_i l r b' hl
    obtain ⟨a', rfl⟩ := List.getLast?_eq_some_iff.1 hl
    rw [loners_two (h l (by simp) r (by simp))]
    simp
  · rfl

/-- No line of an earlier part compares equal to one of a later part. -/
def PartsApart (same : String → String → Bool) (parts : List Stream) : Prop :=
  parts.Pairwise (fun a b => ∀ u ∈ a, ∀ v ∈ b, same u v = false)

theorem loners_flatten {same : String → String → Bool} {parts : List Stream} (h : PartsApart same parts) :
    (parts.map (loners same)).flatten = loners same parts.flatten := by
  induction parts with
  | nil => rfl
  | cons a l ih =>
      obtain ⟨h1, h2⟩ := List.pairwise_cons.1 h
      rw [List.map_cons, List.flatten_cons, List.flatten_cons, loners_append, ih h2]
      intro u hu v hv
      obtain ⟨b, hb, hv⟩ := List.mem_flatten.1 hv
      exact h1 b hb u hu v hv

theorem spliced_apart {same : String → String → Bool} {outs : List Stream} {y : Stream}
    (h : Spliced (loners same) outs y) (ha : PartsApart same outs) : y = outs.flatten := by
  induction h with
  | leaf s => simp
  | @node l r a b hl hr ihl ihr =>
      obtain ⟨h1, h2, h3⟩ := List.pairwise_append.1 ha
      have el := ihl h1
      have er := ihr h2
      rw [splice_apart, el, er, List.flatten_append]
      intro u hu v hv
      rw [el] at hu; rw [er] at hv
      obtain ⟨a', ha', hu⟩ := List.mem_flatten.1 hu
      obtain ⟨b', hb', hv⟩ := List.mem_flatten.1 hv
      exact h3 a' ha' b' hb' u hu v hv

theorem spliced_pair {f : Stream → Stream} {a b y : Stream} (h : Spliced f [a, b] y) : y = splice f a b := by
  have one : ∀ {outs : List Stream} {y s : Stream}, Spliced f outs y → outs = [s] → y = s := by
    intro outs y s h
    induction h with
    | leaf a => intro h; simpa using h
    | @node p q a b hp hq ih1 ih2 =>
        intro h
        have h1 : p ≠ [] := by clear ih1 ih2 h; induction hp <;> simp_all
        have h2 : q ≠ [] := by clear ih1 ih2 h; induction hq <;> simp_all
        have := congrArg List.length h
        have l1 := List.length_pos_iff.2 h1
        have l2 := List.length_pos_iff.2 h2
        simp only [List.length_append, List.length_singleton] at this
        omega
  generalize ho : [a, b] = outs at h
  cases h with
  | leaf s => cases ho
  | @node p q u v hp hq =>
      have h1 : p ≠ [] := by clear ho hq; induction hp <;> simp_all
      have h2 : q ≠ [] := by clear ho hp; induction hq <;> simp_all
      have l1 := List.length_pos_iff.2 h1
      have l2 := List.length_pos_iff.2 h2
      have hl := congrArg List.length ho
      simp only [List.length_append, List.length_cons, List.length_nil] at hl
      obtain ⟨p1, rfl⟩ := List.length_eq_one_iff.1 (show p.length = 1 by omega)
      obtain ⟨q1, rfl⟩ := List.length_eq_one_iff.1 (show q.length = 1 by omega)
      simp only [List.cons_append, List.nil_append, List.cons.injEq, and_true] at ho
      rw [one hp rfl, one hq rfl, ← ho.1, ← ho.2]

/-- The invocation is a plain `uniq -u`, for which parallelizers are offered. -/
structure PlainUnique (inv : CommandInvocationInitial) (c : CommandInvocationWithIOVars) : Prop where
  hname : inv.cmdName = "uniq"
  unique : Has inv "-u"
  others : ¬ ∃ n ∈ ["-c", "-d", "-D", "--all-repeated", "--group", "-z"], Has inv n
  belongs : Belongs inv c
  covered : Covered "uniq" c.flagOptionList
  stream : OneStream c
  texts : strOperands c = []

theorem unique_sequential {inv : CommandInvocationInitial} {c : CommandInvocationWithIOVars} (h : PlainUnique inv c)
    {prog : Programs} {same : List FlagOptionWithIOVar → String → String → Bool} (hprog : UniqProgram prog same) :
    sequential prog c = loners (same c.flagOptionList) := by
  have hng : ∀ n, n ∈ ["-c", "-d", "-D", "--all-repeated", "--group", "-z"] → ¬ Given c.flagOptionList n :=
    fun n hn hg => h.others ⟨n, hn, (has_iff_given h.belongs n).2 hg⟩
  have hug := (has_iff_given h.belongs "-u").1 h.unique
  funext z
  unfold sequential
  rw [h.belongs.1, h.hname, h.texts, hprog.output _ _ h.covered (by
    rintro ⟨n, hm, hg⟩
    refine hng n ?_ hg
    simp only [List.mem_cons, List.not_mem_nil, or_false] at hm ⊢
    rcases hm with rfl | rfl | rfl | rfl | rfl <;> simp)]
  unfold loners
  congr 1
  funext g
  simp [showGroup, hug, hng "-d" (by simp)]

theorem unique_executes {inv : CommandInvocationInitial} {c : CommandInvocationWithIOVars} (h : PlainUnique inv c)
    {prog : Programs} {p : Parallelizer} (hp : Offered inv p) {x : Stream} {parts : List Stream} {y : Stream} :
    (Split p.splitter x parts ↔ parts.flatten = x) ∧
    (Executes prog p c parts y → Spliced (sequential prog c) (parts.map (sequential prog c)) y) := by
  have hoff := (uniq_offered h.hname (by
    rintro ⟨n, hm, hh⟩
    refine h.others ⟨n, ?_, hh⟩
    simp only [List.mem_cons, List.not_mem_nil, or_false] at hm ⊢
    rcases hm with rfl | rfl | rfl <;> simp) (fun hh => h.others ⟨"-c", by simp, hh⟩) p).1 hp
  have hplan : ∃ s, s ≠ .roundRobinUnwrapFlag ∧ p = plan s (.nonFunc .adjLinesSeq false) := by
    simp only [bothPlans, List.mem_cons, List.not_mem_nil, or_false] at hoff
    rcases hoff with rfl | rfl
    · exact ⟨.consecChunks, by simp, rfl⟩
    · exact ⟨.roundRobinPlain, by simp, rfl⟩
  obtain ⟨s, hne, rfl⟩ := hplan
  refine ⟨?_, ?_⟩
  · cases s
    case roundRobinUnwrapFlag => exact absurd rfl hne
    all_goals rfl
  · rintro ⟨runs, hparts, hr, hrec⟩
    rw [runs_outputs h.stream rfl rfl hr, ← hparts] at hrec
    generalize parts.map (sequential prog c) = outs at hrec ⊢
    cases hrec with
    | concatenate hk => cases hk
    | tree hk => cases hk
    | adjacent _ h => exact h

/-- C56 for `-u`: it is right, for any number of parts and all orders of joining, if no lines of different parts compare
equal. -/
theorem C56_unique_partial (inv : CommandInvocationInitial) (c : CommandInvocationWithIOVars) (h : PlainUnique inv c)
    (p : Parallelizer) (hp : Offered inv p) (prog : Programs)
    (same : List FlagOptionWithIOVar → String → String → Bool) (hprog : UniqProgram prog same) (x : Stream)
    (parts : List Stream) (hs : Split p.splitter x parts)
    (ha : parts.Pairwise (fun a b => ∀ u ∈ a, ∀ v ∈ b, same c.flagOptionList u v = false)) (y : Stream)
    (he : Executes prog p c parts y) : y = sequential prog c x := by
  obtain ⟨h1, h2⟩ := unique_executes h (prog := prog) hp (x := x) (parts := parts) (y := y)
  have hsp := h2 he
  rw [unique_sequential h hprog] at hsp ⊢
  rw [spliced_apart hsp, loners_flatten ha, h1.1 hs]
  rw [PartsApart, List.pairwise_map]
  exact ha.imp (fun hab u hu v hv => hab u (loners_mem hu) v (loners_mem hv))

/-- Lines that compare equal are adjacent, as in the output of `sort`. -/
def Gathered (same : String → String → Bool) (x : Stream) : Prop :=
  ∀ u v w, [u, v, w].Sublist x → same u w = true → same u v = true

theorem gathered_end {same : String → String → Bool} (hs : SameLine same) {a : Stream} {l : String}
    (h : Gathered same (a ++ [l])) : ∃ a0 g, a = a0 ++ g ∧ (∀ u ∈ a0, same u l = false) ∧ ∀ u ∈ g, same u l = true := by
  induction a with
  | nil => exact ⟨[], [], rfl, by simp, by simp⟩
  | cons k a ih =>
      by_cases hk : same k l = true
      · refine ⟨[], k :: a, rfl, by simp, ?_⟩
        intro u hu
        rcases List.mem_cons.1 hu with rfl | hu
        · exact hk
        · have := h k u l ?_ hk
          · exact hs.trans _ _ _ (hs.symm _ _ this) hk
          · rw [List.cons_append]
            refine List.Sublist.cons_cons k ?_
            exact List.Sublist.append (List.singleton_sublist.2 hu) (List.Sublist.refl [l])
      · obtain ⟨a0, g, e, h1, h2⟩ := ih (fun u v w hsub => h u v w (hsub.trans (List.sublist_cons_self ..)))
        refine ⟨k :: a0, g, by rw [e]; rfl, ?_, h2⟩
        intro u hu
        rcases List.mem_cons.1 hu with rfl | hu
        · simpa using hk
        · exact h1 u hu

theorem gathered_start {same : String → String → Bool} {b : Stream} {r : String}
    (h : Gathered same (r :: b)) : ∃ g b0, b = g ++ b0 ∧ (∀ v ∈ g, same r v = true) ∧ ∀ v ∈ b0, same r v = false := by
  induction b with
  | nil => exact ⟨[], [], rfl, by simp, by simp⟩
  | cons k b ih =>
      by_cases hk : same r k = true
      · obtain ⟨g, b0, e, h1, h2⟩ := ih (fun u v w hsub => h u v w (hsub.trans
          (List.Sublist.cons_cons r (List.sublist_cons_self ..))))
        refine ⟨k :: g, b0, by rw [e]; rfl, ?_, h2⟩
        intro v hv
        rcases List.mem_cons.1 hv with rfl | hv
        · exact hk
        · exact h1 v hv
      · refine ⟨[], k :: b, rfl, by simp, ?_⟩
        intro v hv
        rcases List.mem_cons.1 hv with rfl | hv
        · simpa using hk
        · cases hw : same r v with
          | false => rfl
          | true => exact absurd (h r k v (List.Sublist.cons_cons r (List.Sublist.cons_cons k (List.singleton_sublist.2 hv))) hw) hk

theorem loners_all {same : String → String → Bool} {l : String} {g : Stream}
    (h : ∀ u ∈ l :: g, ∀ v ∈ l :: g, same u v = true) : loners same (l :: g) = if g = [] then [l] else [] := by
  unfold loners
  rw [groups_all same l g h]
  cases g <;> simp

private theorem sub_front {a z : Stream} {u : String} {w : Stream} (hu : u ∈ a) (h : w.Sublist z) : (u :: w).Sublist (a ++ z) := by
  have : ([u] ++ w).Sublist (a ++ z) := (List.singleton_sublist.2 hu).append h
  exact this

theorem gathered_splice {same : String → String → Bool} (hs : SameLine same) {a b : Stream} {l r : String}
    (hg : Gathered same (a ++ l :: r :: b)) (hlr : same l r = true) :
    splice (loners same) (loners same (a ++ [l])) (loners same (r :: b)) = loners same (a ++ l :: r :: b) ↔
      ((∃ u ∈ a, same u l = true) ↔ ∃ v ∈ b, same r v = true) := by
  have sub1 : (a ++ [l]).Sublist (a ++ l :: r :: b) :=
    List.Sublist.append (List.Sublist.refl a) (List.Sublist.cons_cons l (List.nil_sublist _))
  have sub2 : (r :: b).Sublist (a ++ l :: r :: b) :=
    (List.sublist_cons_self l (r :: b)).trans (List.sublist_append_right a _)
  obtain ⟨a0, g, rfl, ha0, hgl⟩ := gathered_end hs (a := a) (l := l) (fun u v w h => hg u v w (h.trans sub1))
  obtain ⟨k, b0, rfl, hk, hb0⟩ := gathered_start (b := b) (r := r) (fun u v w h => hg u v w (h.trans sub2))
  have neg : ∀ {u v w}, same u v = false → same v w = true → same u w = false := by
    intro u v w h1 h2
    cases h : same u w with
    | false => rfl
    | true => rw [hs.trans _ _ _ h (hs.symm _ _ h2)] at h1; cases h1
  have neg' : ∀ {u v w}, same v w = false → same v u = true → same u w = false := by
    intro u v w h1 h2
    cases h : same u w with
    | false => rfl
    | true => rw [hs.trans _ _ _ h2 h] at h1; cases h1
  -- the pieces of the group that is cut
  have gl : ∀ u ∈ g ++ [l], same u l = true := by
    intro u hu
    rcases List.mem_append.1 hu with hu | hu
    · exact hgl u hu
    · rw [List.mem_singleton.1 hu]; exact hs.refl l
  have rk : ∀ v ∈ r :: k, same l v = true := by
    intro v hv
    rcases List.mem_cons.1 hv with rfl | hv
    · exact hlr
    · exact hs.trans _ _ _ hlr (hk v hv)
  have lb0 : ∀ v ∈ b0, same l v = false := fun v hv => neg' (hb0 v hv) (hs.symm _ _ hlr)
  -- what is shown of them
  have all : ∀ {z : Stream}, (∀ u ∈ z, same u l = true) → ∀ u ∈ z, ∀ v ∈ z, same u v = true :=
    fun h u hu v hv => hs.trans _ _ _ (h u hu) (hs.symm _ _ (h v hv))
  have hG : loners same (g ++ [l]) = if g = [] then [l] else [] := by
    cases g with
    | nil => rfl
    | cons u g =>
        rw [List.cons_append, loners_all (all (by simpa using gl))]
        simp
  have hK : loners same (r :: k) = if k = [] then [r] else [] :=
    loners_all (all (fun v hv => hs.symm _ _ (rk v hv)))
  have hGK : loners same (g ++ [l] ++ r :: k) = [] := by
    have : ∀ u ∈ g ++ [l] ++ r :: k, same u l = true := by
      intro u hu
      rcases List.mem_append.1 hu with hu | hu
      · exact gl u hu
      · exact hs.symm _ _ (rk u hu)
    cases g with
    | nil => 
        have e := loners_all (l := l) (g := r :: k) (all (by simpa using this))
        simpa using e
    | cons u g => rw [show (u :: g ++ [l] ++ r :: k : Stream) = u :: (g ++ [l] ++ r :: k) from by simp,
        loners_all (all (by simpa using this))]; simp
  have hA : loners same (a0 ++ g ++ [l]) = loners same a0 ++ loners same (g ++ [l]) := by
    rw [List.append_assoc, loners_append]
    exact fun u hu v hv => neg (ha0 u hu) (hs.symm _ _ (gl v hv))
  have hB : loners same (r :: (k ++ b0)) = loners same (r :: k) ++ loners same b0 := by
    rw [← List.cons_append, loners_append]
    exact fun u hu v hv => neg' (lb0 v hv) (rk u hu)
  have hAB : loners same (a0 ++ g ++ l :: r :: (k ++ b0)) = loners same a0 ++ loners same b0 := by
    rw [show a0 ++ g ++ l :: r :: (k ++ b0) = a0 ++ ((g ++ [l] ++ r :: k) ++ b0) by simp, loners_append, loners_append,
      hGK, List.nil_append]
    · intro u hu v hv
      rcases List.mem_append.1 hu with hu | hu
      · exact neg' (lb0 v hv) (hs.symm _ _ (gl u hu))
      · exact neg' (lb0 v hv) (rk u hu)
    · intro u hu v hv
      rcases List.mem_append.1 hv with hv | hv
      · rcases List.mem_append.1 hv with hv | hv
        · exact neg (ha0 u hu) (hs.symm _ _ (gl v hv))
        · exact neg (ha0 u hu) (rk v hv)
      · cases h : same u v with
        | false => rfl
        | true =>
            have := hg u l v ?_ h
            · rw [ha0 u hu] at this; cases this
            · rw [List.append_assoc]
              refine sub_front hu ?_
              refine (List.Sublist.cons_cons l ?_).trans (List.sublist_append_right g _)
              exact List.singleton_sublist.2 (by simp [hv])
  have apart0 : ∀ u ∈ loners same a0, ∀ v ∈ loners same b0, same u v = false := by
    intro u hu v hv
    have hu := loners_mem hu
    have hv := loners_mem hv
    cases h : same u v with
    | false => rfl
    | true =>
        have := hg u l v ?_ h
        · rw [ha0 u hu] at this; cases this
        · rw [List.append_assoc]
          refine sub_front hu ?_
          refine (List.Sublist.cons_cons l ?_).trans (List.sublist_append_right g _)
          exact List.singleton_sublist.2 (by simp [hv])
  have e1 : (∃ u ∈ a0 ++ g, same u l = true) ↔ g ≠ [] := by
    constructor
    · rintro ⟨u, hu, h⟩ rfl
      rw [List.append_nil] at hu
      rw [ha0 u hu] at h; cases h
    · intro h
      obtain ⟨u, hu⟩ := List.exists_mem_of_ne_nil g h
      exact ⟨u, List.mem_append_right _ hu, hgl u hu⟩
  have e2 : (∃ v ∈ k ++ b0, same r v = true) ↔ k ≠ [] := by
    constructor
    · rintro ⟨v, hv, h⟩ rfl
      rw [List.nil_append] at hv
      rw [hb0 v hv] at h; cases h
    · intro h
      obtain ⟨v, hv⟩ := List.exists_mem_of_ne_nil k h
      exact ⟨v, List.mem_append_left _ hv, hk v hv⟩
  rw [e1, e2, hA, hB, hAB, hG, hK]
  by_cases hg0 : g = [] <;> by_cases hk0 : k = [] <;> simp only [hg0, hk0, if_true, if_false, ne_eq, not_true_eq_false,
    not_false_eq_true, iff_true, iff_false, List.append_nil, List.nil_append]
  · have : splice (loners same) (loners same a0 ++ [l]) ([r] ++ loners same b0) =
        loners same a0 ++ loners same [l, r] ++ loners same b0 := by
      unfold splice; simp
    rw [this]
    simp [loners, groups, hlr]
  · rw [splice_apart]
    · intro h
      have := congrArg List.length h
      simp only [List.length_append, List.length_singleton] at this
      omega
    · intro u hu v hv
      rcases List.mem_append.1 hu with hu | hu
      · exact apart0 u hu v hv
      · rw [List.mem_singleton.1 hu]; exact lb0 v (loners_mem hv)
  · rw [splice_apart]
    · intro h
      have := congrArg List.length h
      simp only [List.length_append, List.length_singleton] at this
      omega
    · intro u hu v hv
      rcases List.mem_append.1 hv with hv | hv
      · rw [List.mem_singleton.1 hv]; exact neg (ha0 u (loners_mem hu)) hlr
      · exact apart0 u hu v hv
  · exact splice_apart apart0

/-- C56 for `-u`, exactly: if lines that compare equal are adjacent in the input, as after `sort`, then an execution on two
parts is right exactly if the cut is between lines that compare different, or both lines at the cut are alone in their
part, or neither is. -/
theorem C56_unique_exact (inv : CommandInvocationInitial) (c : CommandInvocationWithIOVars) (h : PlainUnique inv c)
    (p : Parallelizer) (hp : Offered inv p) (prog : Programs)
    (same : List FlagOptionWithIOVar → String → String → Bool) (hprog : UniqProgram prog same) (a b : Stream) (l r : String)
    (hg : ∀ u v w, [u, v, w].Sublist (a ++ l :: r :: b) → same c.flagOptionList u w = true → same c.flagOptionList u v = true)
    (y : Stream) (he : Executes prog p c [a ++ [l], r :: b] y) :
    y = sequential prog c (a ++ l :: r :: b) ↔
      (same c.flagOptionList l r = true →
        ((∃ u ∈ a, same c.flagOptionList u l = true) ↔ ∃ v ∈ b, same c.flagOptionList r v = true)) := by
  have hs := hprog.equivalence c.flagOptionList
  have hy := spliced_pair ((unique_executes h hp (x := [])).2 he)
  rw [unique_sequential h hprog] at hy ⊢
  rw [hy]
  cases hlr : same c.flagOptionList l r with
  | true => rw [gathered_splice hs hg hlr]; simp
  | false =>
      refine iff_of_true ?_ (by simp)
      have apart : ∀ u ∈ a ++ [l], ∀ v ∈ r :: b, same c.flagOptionList u v = false := by
        intro u hu v hv
        cases huv : same c.flagOptionList u v with
        | false => rfl
        | true =>
            have e1 : same c.flagOptionList u l = true := by
              rcases List.mem_append.1 hu with hu | hu
              · exact hg u l v (sub_front hu
                  (List.Sublist.cons_cons l (List.singleton_sublist.2 hv))) huv
              · rw [List.mem_singleton.1 hu]; exact hs.refl l
            have e2 : same c.flagOptionList l v = true := hs.trans _ _ _ (hs.symm _ _ e1) huv
            have e3 : same c.flagOptionList l r = true := by
              rcases List.mem_cons.1 hv with rfl | hv
              · exact e2
              · exact hg l r v ((List.Sublist.cons_cons l (List.Sublist.cons_cons r (List.singleton_sublist.2 hv))).trans
                  (List.sublist_append_right a _)) e2
            rw [e3] at hlr; cases hlr
      rw [splice_apart (fun u hu v hv => apart u (loners_mem hu) v (loners_mem hv)), ← loners_append _ _ _ apart]
      simp

/-- `uniq -u x` meets the hypotheses, and with parts that have no line in common it can be run and is right. -/
theorem uniqueSample_plain : PlainUnique ⟨"uniq", [.flag "-u"], ["x"]⟩ (uniqSample [.flag "-u"]) :=
  ⟨rfl, by simp [Has], by simp [Has], ⟨rfl, rfl⟩, by decide +kernel, uniqSample_ok _ (by simp [optionVar]), rfl⟩

example : parse "uniq -u x" = .ok ⟨"uniq", [.flag "-u"], ["x"]⟩ ∧
    ∃ y, Executes uniqProgs (plan .consecChunks (.nonFunc .adjLinesSeq false)) (uniqSample [.flag "-u"])
      [["a", "a", "b"], [], ["c", "c"]] y ∧ y = ["b"] := by
  refine ⟨by decide +kernel, ?_⟩
  obtain ⟨y, hy⟩ := C56_executable uniqProgs _ uniqueSample_plain.stream .consecChunks [["a", "a", "b"], [], ["c", "c"]] (by simp)
  refine ⟨y, hy, ?_⟩
  rw [C56_unique_partial _ _ uniqueSample_plain (plan .consecChunks (.nonFunc .adjLinesSeq false))
    ((uniq_offered rfl (by simp [Has]) (by simp [Has]) _).2 (by simp [bothPlans]))
    uniqProgs _ uniqProgs_ok ["a", "a", "b", "c", "c"] [["a", "a", "b"], [], ["c", "c"]] rfl (by simp) y hy]
  decide +kernel

/-- The cut of `a a | b` is right, that of `a | a` too, that of `a a | a` is not. -/
example : ∃ y z, Executes uniqProgs (plan .consecChunks (.nonFunc .adjLinesSeq false)) (uniqSample [.flag "-u"])
      [["b", "a"], ["a"]] y ∧ y = sequential uniqProgs (uniqSample [.flag "-u"]) ["b", "a", "a"] ∧
    Executes uniqProgs (plan .consecChunks (.nonFunc .adjLinesSeq false)) (uniqSample [.flag "-u"])
      [["a", "a"], ["a"]] z ∧ z ≠ sequential uniqProgs (uniqSample [.flag "-u"]) ["a", "a", "a"] := by
  have ho := (uniq_offered (inv := ⟨"uniq", [.flag "-u"], ["x"]⟩) rfl (by simp [Has]) (by simp [Has])
    (plan .consecChunks (.nonFunc .adjLinesSeq false))).2 (by simp [bothPlans])
  obtain ⟨y, hy⟩ := C56_executable uniqProgs _ uniqueSample_plain.stream .consecChunks [["b", "a"], ["a"]] (by simp)
  obtain ⟨z, hz⟩ := C56_executable uniqProgs _ uniqueSample_plain.stream .consecChunks [["a", "a"], ["a"]] (by simp)
  have g1 : ∀ u v w : String, [u, v, w].Sublist ["b", "a", "a"] → (u == w) = true → (u == v) = true := by
    intro u v w h
    have := h.eq_of_length rfl
    simp only [List.cons.injEq, and_true] at this
    obtain ⟨rfl, rfl, rfl⟩ := this
    decide
  have g2 : ∀ u v w : String, [u, v, w].Sublist ["a", "a", "a"] → (u == w) = true → (u == v) = true := by
    intro u v w h
    have := h.eq_of_length rfl
    simp only [List.cons.injEq, and_true] at this
    obtain ⟨rfl, rfl, rfl⟩ := this
    decide
  refine ⟨y, z, hy, ?_, hz, fun h => ?_⟩
  · exact (C56_unique_exact _ _ uniqueSample_plain _ ho uniqProgs _ uniqProgs_ok ["b"] [] "a" "a" g1 y hy).2 (by simp)
  · have := (C56_unique_exact _ _ uniqueSample_plain _ ho uniqProgs _ uniqProgs_ok ["a"] [] "a" "a" g2 z hz).1 h
    simp at this

end PashAnn
