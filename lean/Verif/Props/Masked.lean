import Verif.Props.Context

/-! C54 for the flags that let grep print something else than lines. They are offered nothing (C31), unless `-A`, `-B`, `-C` or
`-m` is given as well. Here it is said for which inputs and splits what is offered then is right. -/

namespace PashAnn
open Spec

/-- What an offered parallelizer of grep computes. -/
private theorem grep_runs {inv : CommandInvocationInitial} (hn : inv.cmdName = "grep") {p : Parallelizer} (hp : Offered inv p)
    (hz : ¬ Has inv "-z") {prog : Programs} (hcat : CatProgram prog) {g : GrepParameters} (hg : GrepProgram prog g)
    {c : CommandInvocationWithIOVars} (hb : Belongs inv c) (hcov : Covered "grep" c.flagOptionList) (hc : OneStream c)
    {x : Stream} {parts : List Stream} (hs : Split p.splitter x parts) {y : Stream} (h : Executes prog p c parts y) :
    ¬ Given c.flagOptionList "-q" ∧ parts.flatten = x ∧
      y = (parts.map (g.grep c.flagOptionList (strOperands c))).flatten ∧
      sequential prog c x = g.grep c.flagOptionList (strOperands c) x := by
  have hoff : p ∈ bothPlans concatenation ∧ ¬ Has inv "-q" := by
    obtain ⟨i, hi, hcom, h1, h2⟩ := C31_grep_decision inv hn
    obtain ⟨i', hi', hp⟩ := offered_iff.1 hp
    rw [hi] at hi'; cases hi'
    have hp : p ∈ i.parallelizerList := by
      rcases hp with hp | ⟨hc, _⟩
      · exact hp
      · rw [hcom] at hc; cases hc
    by_cases hcond : ¬ Has inv "-q" ∧ ((∃ n ∈ ["-A", "-B", "-C", "-m"], Has inv n) ∨
          ¬ ∃ n ∈ ["-L", "-l", "-c", "-n", "-b"], Has inv n)
    · exact ⟨by rw [h1 hcond] at hp; exact hp, hcond.1⟩
    · rw [h2 hcond] at hp; cases hp
  have hseq : sequential prog c = g.grep c.flagOptionList (strOperands c) := by
    funext z
    unfold sequential
    rw [hb.1, hn, hg _ _ _ hcov (fun hh => hz ((has_iff_given hb _).2 hh))]
  refine ⟨fun hh => hoff.2 ((has_iff_given hb _).2 hh), ?_, ?_, by rw [hseq]⟩
  · have := hoff.1
    simp only [bothPlans, List.mem_cons, List.not_mem_nil, or_false] at this
    rcases this with rfl | rfl <;> exact hs
  · rw [executes_concatenation hcat hc hoff.1 h, hseq]

variable {g : GrepParameters} {fl : List FlagOptionWithIOVar} {strs : List String}

/-- A line is selected exactly if one matches, unless the limit is zero. -/
private theorem found_iff (x : Stream) :
    (List.range x.length).any (g.selected fl strs x) = (!decide (g.limit fl = some 0) && x.any (g.matching fl strs)) := by
  rw [Bool.eq_iff_iff, List.any_eq_true, Bool.and_eq_true, List.any_eq_true]
  constructor
  · rintro ⟨k, hk, h⟩
    rw [List.mem_range] at hk
    unfold GrepParameters.selected at h
    rw [List.getElem?_eq_getElem hk, Bool.and_eq_true] at h
    refine ⟨?_, _, List.getElem_mem hk, h.1⟩
    cases hl : g.limit fl with
    | none => rfl
    | some m =>
        have := h.2
        rw [hl] at this
        simp only [Option.elim_some, decide_eq_true_eq] at this
        simp only [Option.some.injEq, Bool.not_eq_true', decide_eq_false_iff_not]
        omega
  · rintro ⟨hl, a, ha, hm⟩
    have hP : ∃ k : Nat, (x[k]?.elim false (g.matching fl strs)) = true := by
      obtain ⟨k, hk, rfl⟩ := List.getElem_of_mem ha
      exact ⟨k, by rw [List.getElem?_eq_getElem hk]; exact hm⟩
    obtain ⟨k, hk⟩ := hP
    obtain ⟨m, _, h1, h2⟩ := least_nat (P := fun k : Nat => (x[k]?.elim false (g.matching fl strs)) = true) hk
    have hlt : m < x.length := by
      by_cases hlt : m < x.length
      · exact hlt
      · rw [List.getElem?_eq_none (by omega)] at h1; cases h1
    refine ⟨m, List.mem_range.2 hlt, ?_⟩
    unfold GrepParameters.selected
    rw [h1, Bool.true_and]
    have hnil : (x.take m).filter (g.matching fl strs) = [] := by
      refine List.filter_eq_nil_iff.2 (fun b hb hbm => ?_)
      obtain ⟨j, hj, rfl⟩ := List.getElem_of_mem hb
      rw [List.length_take] at hj
      refine h2 j (by omega) ?_
      rw [List.getElem?_eq_getElem (by omega)]
      simpa using hbm
    rw [hnil]
    cases hl' : g.limit fl with
    | none => rfl
    | some n =>
        rw [hl'] at hl
        simp only [Option.some.injEq, Bool.not_eq_true', decide_eq_false_iff_not] at hl
        simp only [Option.elim_some, List.length_nil, decide_eq_true_eq]
        omega

private theorem listing_eq {a : String} (hab : a ∈ ["-l", "-L"]) (ha : Given fl a)
    (hb : ∀ n ∈ ["-l", "-L"], Given fl n → n = a) : GrepParameters.listing fl = some a := by
  unfold GrepParameters.listing
  cases h : ((fl.map FlagOptionWithIOVar.getName).filter fun n => decide (n ∈ ["-l", "-L"])).getLast? with
  | none =>
      rw [List.getLast?_eq_none_iff, List.filter_eq_nil_iff] at h
      obtain ⟨x, hx, e⟩ := ha
      exact absurd (decide_eq_true hab) (h a (List.mem_map.2 ⟨x, hx, e⟩))
  | some n =>
      obtain ⟨h1, h2⟩ := List.mem_filter.1 (List.mem_of_getLast? h)
      obtain ⟨x, hx, e⟩ := List.mem_map.1 h1
      rw [hb n (of_decide_eq_true h2) ⟨x, hx, e⟩]

/-- C54 for `-c`, exactly: an offered parallelizer gives the count exactly if there is one part or the limit is zero, for then
there is no count. -/
theorem C54_count_exact (inv : CommandInvocationInitial) (hn : inv.cmdName = "grep") (p : Parallelizer)
    (hp : Offered inv p) (hcnt : Has inv "-c") (hx : ¬ ∃ w ∈ ["-L", "-l", "-z"], Has inv w)
    (prog : Programs) (hcat : CatProgram prog) (g : GrepParameters) (hg : GrepProgram prog g)
    (c : CommandInvocationWithIOVars) (hb : Belongs inv c) (hcov : Covered "grep" c.flagOptionList) (hc : OneStream c)
    (x : Stream) (parts : List Stream) (hs : Split p.splitter x parts) (y : Stream) (h : Executes prog p c parts y) :
    y = sequential prog c x ↔ (g.limit c.flagOptionList = some 0 ∨ parts.length = 1) := by
  obtain ⟨hq, hflat, e1, e2⟩ := grep_runs hn hp (fun hh => hx ⟨_, by simp, hh⟩) hcat hg hb hcov hc hs h
  have hnone : ∀ w ∈ ["-L", "-l", "-z"], ¬ Given c.flagOptionList w :=
    fun w hw hh => hx ⟨w, hw, (has_iff_given hb _).2 hh⟩
  have hl := listing_none c.flagOptionList (hnone "-l" (by simp)) (hnone "-L" (by simp))
  rw [has_iff_given hb] at hcnt
  subst hflat
  rw [e1, e2]
  by_cases h0 : g.limit c.flagOptionList = some 0
  · have hgr : ∀ z, g.grep c.flagOptionList (strOperands c) z = [] := by
      intro z
      unfold GrepParameters.grep
      simp only [hq, hl, hcnt, h0, if_false, if_true, reduceCtorEq]
    simp only [hgr, h0, true_or, iff_true]
    rw [List.flatten_eq_nil_iff]
    intro a ha
    obtain ⟨b, _, rfl⟩ := List.mem_map.1 ha
    exact hgr b
  · have hgr : ∀ z, (g.grep c.flagOptionList (strOperands c) z).length = 1 := by
      intro z
      unfold GrepParameters.grep
      simp only [hq, hl, hcnt, h0, if_false, if_true, reduceCtorEq, List.length_cons, List.length_nil]
    simp only [h0, false_or]
    constructor
    · intro e
      have := congrArg List.length e
      rw [hgr, List.length_flatten, List.map_map] at this
      rw [← this]
      clear e this e1 e2 hs h
      induction parts with
      | nil => rfl
      | cons a parts ih =>
          have := hgr a
          simp only [List.map_cons, List.sum_cons, Function.comp_apply, List.length_cons] at ih ⊢
          omega
    · intro e
      obtain ⟨a, rfl⟩ := List.length_eq_one_iff.1 e
      simp

/-- C54 for `-l`, exactly: an offered parallelizer gives the name of the input as often as grep exactly if the limit is zero or at
most one part has a match. -/
theorem C54_listed_exact (inv : CommandInvocationInitial) (hn : inv.cmdName = "grep") (p : Parallelizer)
    (hp : Offered inv p) (hl : Has inv "-l") (hx : ¬ ∃ w ∈ ["-L", "-z"], Has inv w)
    (prog : Programs) (hcat : CatProgram prog) (g : GrepParameters) (hg : GrepProgram prog g)
    (c : CommandInvocationWithIOVars) (hb : Belongs inv c) (hcov : Covered "grep" c.flagOptionList) (hc : OneStream c)
    (x : Stream) (parts : List Stream) (hs : Split p.splitter x parts) (y : Stream) (h : Executes prog p c parts y) :
    y = sequential prog c x ↔ (g.limit c.flagOptionList = some 0 ∨
      (parts.filter fun part => part.any (g.matching c.flagOptionList (strOperands c))).length ≤ 1) := by
  obtain ⟨hq, hflat, e1, e2⟩ := grep_runs hn hp (fun hh => hx ⟨_, by simp, hh⟩) hcat hg hb hcov hc hs h
  have hli : GrepParameters.listing c.flagOptionList = some "-l" := by
    refine listing_eq (by simp) ((has_iff_given hb _).1 hl) (fun n hn hh => ?_)
    simp only [List.mem_cons, List.not_mem_nil, or_false] at hn
    rcases hn with rfl | rfl
    · rfl
    · exact absurd ⟨_, by simp, (has_iff_given hb _).2 hh⟩ hx
  subst hflat
  rw [e1, e2]
  have hgr : ∀ z, g.grep c.flagOptionList (strOperands c) z =
      if !decide (g.limit c.flagOptionList = some 0) && z.any (g.matching c.flagOptionList (strOperands c)) then [g.label] else [] := by
    intro z
    unfold GrepParameters.grep
    simp only [hq, hli, if_false, if_true, Option.some.injEq, String.reduceEq, found_iff]
  by_cases h0 : g.limit c.flagOptionList = some 0
  · simp only [hgr, h0, decide_true, Bool.not_true, Bool.false_and, Bool.false_eq_true, if_false, true_or, iff_true]
    rw [List.flatten_eq_nil_iff]
    intro a ha
    obtain ⟨b, _, rfl⟩ := List.mem_map.1 ha
    rw [hgr, h0]; rfl
  · simp only [h0, decide_false, Bool.not_false, Bool.true_and, false_or] at hgr ⊢
    generalize g.matching c.flagOptionList (strOperands c) = m at *
    have e : (parts.map (g.grep c.flagOptionList (strOperands c))).flatten =
        List.replicate (parts.filter fun part => part.any m).length g.label := by
      clear e1 e2 hs h
      induction parts with
      | nil => rfl
      | cons a parts ih =>
          rw [List.map_cons, List.flatten_cons, ih, hgr a, List.filter_cons]
          cases a.any m <;> simp [List.replicate_succ]
    rw [e, hgr]
    have hany : parts.flatten.any m = true ↔ 0 < (parts.filter fun part => part.any m).length := by
      rw [List.length_pos_iff_exists_mem]
      simp only [List.any_eq_true, List.mem_flatten, List.mem_filter]
      constructor
      · rintro ⟨a, ⟨q, hq, ha⟩, hm⟩; exact ⟨q, hq, a, ha, hm⟩
      · rintro ⟨q, hq, a, ha, hm⟩; exact ⟨a, ⟨q, hq, ha⟩, hm⟩
    generalize (parts.filter fun part => part.any m).length = n at *
    cases hw : parts.flatten.any m with
    | true =>
        have := hany.1 hw
        constructor
        · intro e
          have := congrArg List.length e
          simp at this
          omega
        · intro e
          obtain rfl : n = 1 := by omega
          rfl
    | false =>
        have : n = 0 := by
          rw [hw] at hany
          have := (not_congr hany).1 (by simp)
          omega
        subst this
        simp

/-- C54 for `-L`, exactly: an offered parallelizer gives the name of the input as often as grep exactly if there is one part, or
each of the parts has a match and the limit is not zero. -/
theorem C54_unlisted_exact (inv : CommandInvocationInitial) (hn : inv.cmdName = "grep") (p : Parallelizer)
    (hp : Offered inv p) (hl : Has inv "-L") (hx : ¬ ∃ w ∈ ["-l", "-z"], Has inv w)
    (prog : Programs) (hcat : CatProgram prog) (g : GrepParameters) (hg : GrepProgram prog g)
    (c : CommandInvocationWithIOVars) (hb : Belongs inv c) (hcov : Covered "grep" c.flagOptionList) (hc : OneStream c)
    (x : Stream) (parts : List Stream) (hs : Split p.splitter x parts) (y : Stream) (h : Executes prog p c parts y) :
    y = sequential prog c x ↔ (parts.length = 1 ∨ (g.limit c.flagOptionList ≠ some 0 ∧ parts ≠ [] ∧
      ∀ part ∈ parts, ∃ l ∈ part, g.matching c.flagOptionList (strOperands c) l = true)) := by
  obtain ⟨hq, hflat, e1, e2⟩ := grep_runs hn hp (fun hh => hx ⟨_, by simp, hh⟩) hcat hg hb hcov hc hs h
  have hli : GrepParameters.listing c.flagOptionList = some "-L" := by
    refine listing_eq (by simp) ((has_iff_given hb _).1 hl) (fun n hn hh => ?_)
    simp only [List.mem_cons, List.not_mem_nil, or_false] at hn
    rcases hn with rfl | rfl
    · exact absurd ⟨_, by simp, (has_iff_given hb _).2 hh⟩ hx
    · rfl
  subst hflat
  rw [e1, e2]
  have hgr : ∀ z, g.grep c.flagOptionList (strOperands c) z =
      if !decide (g.limit c.flagOptionList = some 0) && z.any (g.matching c.flagOptionList (strOperands c)) then [] else [g.label] := by
    intro z
    unfold GrepParameters.grep
    simp only [hq, hli, if_false, if_true, found_iff]
  have hm : ∀ part : Stream, (∃ l ∈ part, g.matching c.flagOptionList (strOperands c) l = true) ↔
      part.any (g.matching c.flagOptionList (strOperands c)) = true := fun part => List.any_eq_true.symm
  simp only [hm]
  generalize g.matching c.flagOptionList (strOperands c) = m at *
  match parts with
  | [] => simp [hgr]
  | [a] => simp
  | a :: b :: rest =>
      have hlen : ¬ (a :: b :: rest).length = 1 := by simp
      simp only [hlen, false_or]
      by_cases h0 : g.limit c.flagOptionList = some 0
      · simp only [hgr, h0, decide_true, Bool.not_true, Bool.false_and, Bool.false_eq_true, if_false, ne_eq, not_true, false_and,
          iff_false]
        intro e
        rw [List.map_cons, List.map_cons, hgr a, hgr b, h0] at e
        have := congrArg List.length e
        simp at this
      · simp only [h0, decide_false, Bool.not_false, Bool.true_and] at hgr
        constructor
        · intro e
          refine ⟨h0, by simp, ?_⟩
          have hw : (a :: b :: rest).flatten.any m = true := by
            cases hw : (a :: b :: rest).flatten.any m with
            | true => rfl
            | false =>
                have hno : ∀ q ∈ a :: b :: rest, q.any m = false := by
                  intro q hq
                  rw [List.any_eq_false] at hw ⊢
                  exact fun l hl => hw l (List.mem_flatten.2 ⟨q, hq, hl⟩)
                have := congrArg List.length e
                rw [hgr (List.flatten _), hw, List.map_cons, List.map_cons, hgr a, hgr b, hno a (by simp), hno b (by simp)] at this
                simp at this
          rw [hgr (List.flatten _), hw, if_pos rfl, List.flatten_eq_nil_iff] at e
          intro q hq
          have := e _ (List.mem_map_of_mem hq)
          rw [hgr] at this
          cases hqm : q.any m with
          | true => rfl
          | false => rw [hqm] at this; cases this
        · rintro ⟨_, _, hall⟩
          have hw : (a :: b :: rest).flatten.any m = true := by
            have := hall a (by simp)
            rw [List.any_eq_true] at this ⊢
            obtain ⟨l, hl, h⟩ := this
            exact ⟨l, by simp [hl], h⟩
          rw [hgr (List.flatten _), hw, if_pos rfl, List.flatten_eq_nil_iff]
          intro q hq
          obtain ⟨q', hq', rfl⟩ := List.mem_map.1 hq
          rw [hgr, hall q' hq', if_pos rfl]

/-! Line numbers and offsets. -/

private theorem sums_eq {ι : Type} (l : List ι) (f h : ι → Nat) (hle : ∀ i ∈ l, f i ≤ h i)
    (he : (l.map f).sum = (l.map h).sum) : ∀ i ∈ l, f i = h i := by
  have sum_le : ∀ l : List ι, (∀ i ∈ l, f i ≤ h i) → (l.map f).sum ≤ (l.map h).sum := by
    intro l
    induction l with
    | nil => simp
    | cons a l ih =>
        intro hle
        have := ih (fun i hi => hle i (List.mem_cons_of_mem _ hi))
        have := hle a List.mem_cons_self
        simp only [List.map_cons, List.sum_cons]
        omega
  induction l with
  | nil => simp
  | cons a l ih =>
      have h1 := sum_le l (fun i hi => hle i (List.mem_cons_of_mem _ hi))
      have h2 := hle a List.mem_cons_self
      simp only [List.map_cons, List.sum_cons] at he
      intro i hi
      rcases List.mem_cons.1 hi with rfl | hi
      · omega
      · exact ih (fun i hi => hle i (List.mem_cons_of_mem _ hi)) (by omega) i hi

private theorem flatMap_sum {ι : Type} (l : List ι) (f : ι → List Nat) : (l.flatMap f).sum = (l.map fun i => (f i).sum).sum := by
  induction l with
  | nil => rfl
  | cons a l ih => rw [List.flatMap_cons, List.sum_append, ih, List.map_cons, List.sum_cons]

private theorem flatMap_length {ι α : Type} (l : List ι) (f : ι → List α) :
    (l.flatMap f).length = (l.map fun i => (f i).length).sum := by
  induction l with
  | nil => rfl
  | cons a l ih => rw [List.flatMap_cons, List.length_append, ih, List.map_cons, List.sum_cons]

/-- At the beginning of an input the lines are selected that are selected without what follows. -/
private theorem selected_first (q v : Stream) {k : Nat} (hk : k < q.length) :
    g.selected fl strs (q ++ v) k = g.selected fl strs q k := by
  unfold GrepParameters.selected
  rw [List.getElem?_append_left hk, List.take_append_of_le_length (by omega)]

/-- What is selected in the whole is selected in its part. -/
private theorem selected_of_whole (u q v : Stream) {k : Nat} (hk : k < q.length)
    (h : g.selected fl strs (u ++ q ++ v) (u.length + k) = true) : g.selected fl strs q k = true := by
  unfold GrepParameters.selected at h ⊢
  rw [List.getElem?_append_left (by simp; omega), List.getElem?_append_right (by omega), Nat.add_sub_cancel_left,
    List.take_append_of_le_length (by simp; omega), List.take_length_add_append, List.filter_append, List.length_append] at h
  rw [Bool.and_eq_true] at h ⊢
  refine ⟨h.1, ?_⟩
  cases hl : g.limit fl with
  | none => rfl
  | some m =>
      rw [hl] at h
      have := h.2
      simp only [Option.elim_some, decide_eq_true_eq] at this ⊢
      omega

private theorem shown_noContext (hcx : ¬ GrepParameters.context fl) (x : Stream) (k : Nat) :
    g.shown fl strs x k = g.selected fl strs x k := by
  obtain ⟨hb, ha⟩ := noContext g fl hcx
  rw [Bool.eq_iff_iff]
  unfold GrepParameters.shown
  rw [List.any_eq_true]
  constructor
  · rintro ⟨j, _, h⟩
    simp only [Bool.and_eq_true, decide_eq_true_eq, hb, ha] at h
    have : j = k := by omega
    rw [← this]; exact h.1
  · intro h
    exact ⟨k, List.mem_range.2 (selected_lt g fl strs h), by simp [h]⟩

/-- The numbers that can be read off what is printed for a line. -/
private theorem tags (tag : String → Option Nat) (hsep : ∀ o ∈ g.separator fl, tag o = none) (x : Stream) (k : Nat) (n : Nat)
    (hpr : ∀ o ∈ g.print fl (g.selected fl strs x k) (if Given fl "-n" then some (k + 1) else none)
        (if Given fl "-b" then some (GrepParameters.offset x k) else none) (x[k]?.getD ""), tag o = some n) :
    (g.printed fl strs x k).filterMap tag = if g.shown fl strs x k then
      List.replicate (g.print fl (g.selected fl strs x k) (if Given fl "-n" then some (k + 1) else none)
        (if Given fl "-b" then some (GrepParameters.offset x k) else none) (x[k]?.getD "")).length n else [] := by
  unfold GrepParameters.printed
  cases g.shown fl strs x k with
  | false => rfl
  | true =>
      simp only [if_true]
      rw [List.filterMap_append]
      have h1 : List.filterMap tag (if GrepParameters.context fl ∧ 0 < k ∧ g.shown fl strs x (k - 1) = false ∧
          (List.range k).any (fun j => g.shown fl strs x j) = true then g.separator fl else []) = [] := by
        split
        · exact List.filterMap_eq_nil_iff.2 hsep
        · rfl
      rw [h1, List.nil_append]
      revert hpr
      generalize g.print fl _ _ _ _ = l
      intro hpr
      induction l with
      | nil => rfl
      | cons a l ih =>
          rw [List.filterMap_cons, hpr a List.mem_cons_self, ih (fun o ho => hpr o (List.mem_cons_of_mem _ ho))]
          rfl

private theorem shown_of_selected {x : Stream} {k : Nat} (h : g.selected fl strs x k = true) : g.shown fl strs x k = true := by
  unfold GrepParameters.shown
  rw [List.any_eq_true]
  exact ⟨k, List.mem_range.2 (selected_lt g fl strs h), by simp [h]⟩

/-- The numbers that can be read off what is printed for a line that is selected, if this can be read off as well. -/
private theorem tagsSelected (tag : String → Option Nat) (kind : String → Bool) (hsep : ∀ o ∈ g.separator fl, tag o = none)
    (x : Stream) (k : Nat) (n : Nat)
    (hpr : g.selected fl strs x k = true → ∀ o ∈ g.print fl true (if Given fl "-n" then some (k + 1) else none)
        (if Given fl "-b" then some (GrepParameters.offset x k) else none) (x[k]?.getD ""), tag o = some n)
    (hkind : g.shown fl strs x k = true → ∀ o ∈ g.print fl (g.selected fl strs x k) (if Given fl "-n" then some (k + 1) else none)
        (if Given fl "-b" then some (GrepParameters.offset x k) else none) (x[k]?.getD ""), kind o = g.selected fl strs x k) :
    (g.printed fl strs x k).filterMap (fun o => if kind o then tag o else none) = if g.selected fl strs x k then
      List.replicate (g.print fl true (if Given fl "-n" then some (k + 1) else none)
        (if Given fl "-b" then some (GrepParameters.offset x k) else none) (x[k]?.getD "")).length n else [] := by
  unfold GrepParameters.printed
  cases hs : g.shown fl strs x k with
  | false =>
      have : g.selected fl strs x k = false := by
        cases h : g.selected fl strs x k with
        | false => rfl
        | true => rw [shown_of_selected h] at hs; cases hs
      rw [this]; rfl
  | true =>
      simp only [if_true]
      rw [List.filterMap_append]
      have h1 : List.filterMap (fun o => if kind o then tag o else none) (if GrepParameters.context fl ∧ 0 < k ∧
          g.shown fl strs x (k - 1) = false ∧
          (List.range k).any (fun j => g.shown fl strs x j) = true then g.separator fl else []) = [] := by
        split
        · refine List.filterMap_eq_nil_iff.2 (fun o ho => ?_)
          rw [hsep o ho]; split <;> rfl
        · rfl
      rw [h1, List.nil_append]
      have hk := hkind hs
      cases hsel : g.selected fl strs x k with
      | false =>
          rw [hsel] at hk
          simp only [Bool.false_eq_true, if_false]
          exact List.filterMap_eq_nil_iff.2 (fun o ho => by rw [hk o ho]; rfl)
      | true =>
          rw [hsel] at hk
          have hpr := hpr hsel
          simp only [if_true]
          revert hpr hk
          generalize g.print fl _ _ _ _ = l
          intro hk hpr
          induction l with
          | nil => rfl
          | cons a l ih =>
              rw [List.filterMap_cons, hk a List.mem_cons_self, if_pos rfl, hpr a List.mem_cons_self,
                ih (fun o ho => hk o (List.mem_cons_of_mem _ ho)) (fun o ho => hpr o (List.mem_cons_of_mem _ ho))]
              rfl

private theorem offset_le (u q v : Stream) {k : Nat} (hk : k < q.length) :
    GrepParameters.offset q k + u.length ≤ GrepParameters.offset (u ++ q ++ v) (u.length + k) := by
  unfold GrepParameters.offset
  rw [List.take_append_of_le_length (by simp; omega), List.take_length_add_append, List.map_append, List.sum_append]
  have : u.length ≤ (u.map fun l => l.utf8ByteSize + 1).sum := by
    clear hk
    induction u with
    | nil => simp
    | cons a u ih => simp only [List.map_cons, List.sum_cons, List.length_cons]; omega
  omega

private theorem offset_first (q v : Stream) {k : Nat} (hk : k < q.length) :
    GrepParameters.offset (q ++ v) k = GrepParameters.offset q k := by
  unfold GrepParameters.offset
  rw [List.take_append_of_le_length (by omega)]

private theorem numbers_positions (parts : List Stream) (hboth : ¬ GrepParameters.context fl ∨ g.limit fl = none ∨
      ∃ kind : String → Bool, ∀ l ∈ parts.flatten, ∀ sel a b, ∀ o ∈ g.print fl sel a b l, kind o = sel)
    (hnb : Given fl "-n" ∨ Given fl "-b") (number offset : String → Option Nat)
    (hsep : ∀ o ∈ g.separator fl, number o = none ∧ offset o = none)
    (hpr : ∀ l ∈ parts.flatten, ∀ sel, sel = true ∨ GrepParameters.context fl → ∃ n, 0 < n ∧ ∀ a b,
      (g.print fl sel a b l).length = n ∧ ∀ o ∈ g.print fl sel a b l,
        (∀ k, a = some k → number o = some k) ∧ (∀ k, b = some k → offset o = some k)) :
    ((parts.map fun q => (List.range q.length).flatMap (g.printed fl strs q)).flatten =
      (List.range parts.flatten.length).flatMap (g.printed fl strs parts.flatten)) ↔ NumbersFit g fl strs parts := by
  have e1 := positions_parts (g.printed fl strs) parts 0
  have e2 := positions_whole (g.printed fl strs parts.flatten) parts 0
  simp only [Nat.zero_add] at e2
  rw [← e1, ← e2]
  unfold NumbersFit
  generalize hz : parts.flatten = z at *
  generalize hL : positions 0 parts = L at *
  have hmem : ∀ i ∈ L, ∃ pre post, parts = pre ++ i.2.1 :: post ∧ i.1 = pre.flatten.length ∧ i.2.2 < i.2.1.length ∧
      z = pre.flatten ++ i.2.1 ++ post.flatten := by
    intro i hi
    rw [← hL] at hi
    obtain ⟨pre, post, h1, h2, h3⟩ := mem_positions.1 hi
    exact ⟨pre, post, h1, by omega, h3, by rw [← hz, h1]; simp⟩
  have hmem' : ∀ pre q post k, parts = pre ++ q :: post → k < q.length → (pre.flatten.length, q, k) ∈ L := by
    intro pre q post k h1 h2
    rw [← hL]
    exact mem_positions.2 ⟨pre, post, h1, by simp, h2⟩
  have hline : ∀ i ∈ L, z[i.1 + i.2.2]?.getD "" = i.2.1[i.2.2]?.getD "" ∧ i.2.1[i.2.2]?.getD "" ∈ z := by
    intro i hi
    obtain ⟨pre, post, _, h2, h3, h4⟩ := hmem i hi
    have : z[i.1 + i.2.2]? = i.2.1[i.2.2]? := by
      rw [h4, h2, List.getElem?_append_left (by simp; omega), List.getElem?_append_right (by omega), Nat.add_sub_cancel_left]
    rw [this]
    refine ⟨rfl, ?_⟩
    rw [List.getElem?_eq_getElem h3, Option.getD_some, h4]
    simp
  constructor
  · intro he
    -- the number or offset read off an output
    let tag : String → Option Nat := if Given fl "-n" then number else offset
    let value : Stream → Nat → Nat := fun x k => if Given fl "-n" then k + 1 else GrepParameters.offset x k
    have hsep' : ∀ o ∈ g.separator fl, tag o = none := by
      intro o ho
      show (if Given fl "-n" then number else offset) o = none
      split
      · exact (hsep o ho).1
      · exact (hsep o ho).2
    -- whether a shown line is selected is the same for the part and the whole
    have hselp : ∀ i ∈ L, g.shown fl strs i.2.1 i.2.2 = true →
        g.selected fl strs i.2.1 i.2.2 = true ∨ GrepParameters.context fl := by
      intro i hi hs
      by_cases hcx : GrepParameters.context fl
      · exact .inr hcx
      · rw [shown_noContext hcx] at hs; exact .inl hs
    have hselw : ∀ i ∈ L, g.shown fl strs z (i.1 + i.2.2) = true →
        g.selected fl strs z (i.1 + i.2.2) = true ∨ GrepParameters.context fl := by
      intro i hi hs
      by_cases hcx : GrepParameters.context fl
      · exact .inr hcx
      · rw [shown_noContext hcx] at hs; exact .inl hs
    have hflat : ∀ f h : Nat × Stream × Nat → List Nat, (∀ i ∈ L, f i = h i) → L.flatMap f = L.flatMap h := by
      intro f h he
      unfold List.flatMap
      rw [List.map_congr_left he]
    -- numbers in the whole are larger
    have hvalue : ∀ i ∈ L, value i.2.1 i.2.2 + (if Given fl "-n" then i.1 else 0) ≤ value z (i.1 + i.2.2) ∧
        (value i.2.1 i.2.2 = value z (i.1 + i.2.2) → i.1 = 0) := by
      intro i hi
      obtain ⟨pre, post, _, e, h3, h4⟩ := hmem i hi
      show (if Given fl "-n" then _ else _) + _ ≤ (if Given fl "-n" then _ else _) ∧
        ((if Given fl "-n" then _ else _) = (if Given fl "-n" then _ else _) → _)
      by_cases hgn : Given fl "-n"
      · simp only [if_pos hgn]
        constructor <;> omega
      · simp only [if_neg hgn]
        have := offset_le pre.flatten i.2.1 post.flatten h3
        rw [← h4, ← e] at this
        constructor <;> omega
    -- if one can tell selected lines, then the same lines are selected, and all of them in the first part that is not empty
    have selected_kind : ∀ kind : String → Bool, (∀ l ∈ z, ∀ sel a b, ∀ o ∈ g.print fl sel a b l, kind o = sel) →
        (∀ i ∈ L, g.selected fl strs i.2.1 i.2.2 = g.selected fl strs z (i.1 + i.2.2)) ∧
          ∀ i ∈ L, g.shown fl strs i.2.1 i.2.2 = true → g.shown fl strs z (i.1 + i.2.2) = true := by
      intro kind hkind
      let num : Nat × Stream × Nat → Nat := fun i => (g.print fl true none none (i.2.1[i.2.2]?.getD "")).length
      have hnum : ∀ i ∈ L, 0 < num i ∧ ∀ a b, (g.print fl true a b (i.2.1[i.2.2]?.getD "")).length = num i := by
        intro i hi
        obtain ⟨n, hn, h⟩ := hpr _ (hline i hi).2 true (.inl rfl)
        have : num i = n := (h none none).1
        rw [this]
        exact ⟨hn, fun a b => (h a b).1⟩
      have hS : ∀ i ∈ L, (g.printed fl strs i.2.1 i.2.2).filterMap (fun o => if kind o then tag o else none) =
          if g.selected fl strs i.2.1 i.2.2 then List.replicate (num i) (value i.2.1 i.2.2) else [] := by
        intro i hi
        obtain ⟨n, _, h⟩ := hpr _ (hline i hi).2 true (.inl rfl)
        rw [tagsSelected tag kind hsep' i.2.1 i.2.2 (value i.2.1 i.2.2), (hnum i hi).2]
        · intro _ o ho
          obtain ⟨t1, t2⟩ := (h _ _).2 o ho
          show (if Given fl "-n" then number else offset) o = some (if Given fl "-n" then _ else _)
          by_cases hgn : Given fl "-n"
          · rw [if_pos hgn, if_pos hgn]; exact t1 _ (if_pos hgn)
          · rw [if_neg hgn, if_neg hgn]; exact t2 _ (if_pos (hnb.resolve_left hgn))
        · exact fun _ o ho => hkind _ (hline i hi).2 _ _ _ o ho
      have hT : ∀ i ∈ L, (g.printed fl strs z (i.1 + i.2.2)).filterMap (fun o => if kind o then tag o else none) =
          if g.selected fl strs z (i.1 + i.2.2) then List.replicate (num i) (value z (i.1 + i.2.2)) else [] := by
        intro i hi
        obtain ⟨n, _, h⟩ := hpr _ (hline i hi).2 true (.inl rfl)
        rw [tagsSelected tag kind hsep' z (i.1 + i.2.2) (value z (i.1 + i.2.2)), (hline i hi).1, (hnum i hi).2]
        · intro _ o ho
          rw [(hline i hi).1] at ho
          obtain ⟨t1, t2⟩ := (h _ _).2 o ho
          show (if Given fl "-n" then number else offset) o = some (if Given fl "-n" then _ else _)
          by_cases hgn : Given fl "-n"
          · rw [if_pos hgn, if_pos hgn]; exact t1 _ (if_pos hgn)
          · rw [if_neg hgn, if_neg hgn]; exact t2 _ (if_pos (hnb.resolve_left hgn))
        · intro _ o ho
          rw [(hline i hi).1] at ho
          exact hkind _ (hline i hi).2 _ _ _ o ho
      have hu : L.flatMap (fun i => if g.selected fl strs i.2.1 i.2.2 then List.replicate (num i) (value i.2.1 i.2.2) else []) =
          L.flatMap (fun i => if g.selected fl strs z (i.1 + i.2.2) then List.replicate (num i) (value z (i.1 + i.2.2)) else []) := by
        have := congrArg (List.filterMap (fun o => if kind o then tag o else none)) he
        rw [List.filterMap_flatMap, List.filterMap_flatMap, hflat _ _ hS, hflat _ _ hT] at this
        exact this
      have hsub : ∀ i ∈ L, g.selected fl strs z (i.1 + i.2.2) = true → g.selected fl strs i.2.1 i.2.2 = true := by
        intro i hi h
        obtain ⟨pre, post, _, e, h3, h4⟩ := hmem i hi
        rw [h4, e] at h
        exact selected_of_whole _ _ _ h3 h
      have hlen := congrArg List.length hu
      rw [flatMap_length, flatMap_length] at hlen
      have hsel : ∀ i ∈ L, g.selected fl strs i.2.1 i.2.2 = g.selected fl strs z (i.1 + i.2.2) := by
        have := sums_eq L _ _ (fun i hi => ?_) hlen.symm
        · intro i hi
          have := this i hi
          have hp := (hnum i hi).1
          cases hw : g.selected fl strs z (i.1 + i.2.2) with
          | true => exact hsub i hi hw
          | false =>
              cases hq : g.selected fl strs i.2.1 i.2.2 with
              | false => rfl
              | true =>
                  simp only [hw, hq, if_true, Bool.false_eq_true, if_false, List.length_nil, List.length_replicate] at this
                  omega
        · cases hw : g.selected fl strs z (i.1 + i.2.2) with
          | false => simp
          | true =>
              simp only [hsub i hi hw, if_true, List.length_replicate]
              exact Nat.le_refl _
      have hfirst : ∀ i ∈ L, g.selected fl strs i.2.1 i.2.2 = true → i.1 = 0 := by
        have hsum := congrArg List.sum hu
        rw [flatMap_sum, flatMap_sum] at hsum
        have := sums_eq L _ _ (fun i hi => ?_) hsum
        · intro i hi hs
          have hv := this i hi
          rw [← hsel i hi, hs] at hv
          simp only [if_true, List.sum_replicate_nat] at hv
          exact (hvalue i hi).2 (Nat.eq_of_mul_eq_mul_left (hnum i hi).1 hv)
        · rw [hsel i hi]
          cases g.selected fl strs z (i.1 + i.2.2) with
          | false => simp
          | true =>
              simp only [if_true, List.sum_replicate_nat]
              exact Nat.mul_le_mul_left _ (Nat.le_trans (Nat.le_add_right _ _) (hvalue i hi).1)
      refine ⟨hsel, fun i hi h => ?_⟩
      obtain ⟨pre, post, h1, h2, h3, h4⟩ := hmem i hi
      unfold GrepParameters.shown at h ⊢
      rw [List.any_eq_true] at h ⊢
      obtain ⟨j, hj, hc⟩ := h
      rw [Bool.and_eq_true, decide_eq_true_eq] at hc
      have hj := List.mem_range.1 hj
      have hij := hmem' pre i.2.1 post j h1 hj
      have e0 := hfirst _ hij hc.1
      have e1 := hsel _ hij
      simp only at e0 e1
      refine ⟨j, ?_, ?_⟩
      · rw [List.mem_range, h4]; simp; omega
      · rw [Bool.and_eq_true, decide_eq_true_eq, h2, e0, Nat.zero_add]
        rw [e0, Nat.zero_add] at e1
        exact ⟨e1 ▸ hc.1, hc.2⟩
    have hcases : ¬ GrepParameters.context fl ∨
        ((∀ i ∈ L, g.selected fl strs i.2.1 i.2.2 = g.selected fl strs z (i.1 + i.2.2)) ∧
          ∀ i ∈ L, g.shown fl strs i.2.1 i.2.2 = true → g.shown fl strs z (i.1 + i.2.2) = true) := by
      rcases hboth with hcx | hlim | ⟨kind, hkind⟩
      · exact .inl hcx
      · refine .inr ⟨fun i hi => ?_, fun i hi h => ?_⟩
        · obtain ⟨pre, post, _, e, h3, h4⟩ := hmem i hi
          rw [h4, e, selected_part hlim _ _ _ h3]
        · obtain ⟨pre, post, _, e, h3, h4⟩ := hmem i hi
          rw [h4, e]
          exact shown_whole hlim _ _ _ h
      · right
        exact selected_kind kind hkind
    have hsame : ∀ i ∈ L, g.shown fl strs i.2.1 i.2.2 = true → g.shown fl strs z (i.1 + i.2.2) = true →
        g.selected fl strs i.2.1 i.2.2 = g.selected fl strs z (i.1 + i.2.2) := by
      intro i hi h1 h2
      rcases hcases with hcx | ⟨h, _⟩
      · rw [shown_noContext hcx] at h1 h2
        rw [h1, h2]
      · exact h i hi
    -- how many lines are printed for a line
    let count : Nat × Stream × Nat → Nat := fun i =>
      (g.print fl (g.selected fl strs i.2.1 i.2.2) none none (i.2.1[i.2.2]?.getD "")).length
    have hA : ∀ i ∈ L, (g.printed fl strs i.2.1 i.2.2).filterMap tag =
        if g.shown fl strs i.2.1 i.2.2 then List.replicate (count i) (value i.2.1 i.2.2) else [] := by
      intro i hi
      cases hs : g.shown fl strs i.2.1 i.2.2 with
      | false => unfold GrepParameters.printed; rw [hs]; rfl
      | true =>
          obtain ⟨n, _, h⟩ := hpr _ (hline i hi).2 _ (hselp i hi hs)
          rw [tags tag hsep' i.2.1 i.2.2 (value i.2.1 i.2.2), hs]
          · show List.replicate _ _ = List.replicate _ _
            rw [(h _ _).1, show count i = n from (h _ _).1]
          · intro o ho
            obtain ⟨t1, t2⟩ := (h _ _).2 o ho
            show (if Given fl "-n" then number else offset) o = some (if Given fl "-n" then _ else _)
            by_cases hgn : Given fl "-n"
            · rw [if_pos hgn, if_pos hgn]; exact t1 _ (if_pos hgn)
            · rw [if_neg hgn, if_neg hgn]; exact t2 _ (if_pos (hnb.resolve_left hgn))
    have hposA : ∀ i ∈ L, g.shown fl strs i.2.1 i.2.2 = true → 0 < count i := by
      intro i hi hs
      obtain ⟨n, hn, h⟩ := hpr _ (hline i hi).2 _ (hselp i hi hs)
      rw [show count i = n from (h _ _).1]; exact hn
    let count' : Nat × Stream × Nat → Nat := fun i =>
      (g.print fl (g.selected fl strs z (i.1 + i.2.2)) none none (i.2.1[i.2.2]?.getD "")).length
    have hB : ∀ i ∈ L, (g.printed fl strs z (i.1 + i.2.2)).filterMap tag =
        if g.shown fl strs z (i.1 + i.2.2) then List.replicate (count' i) (value z (i.1 + i.2.2)) else [] := by
      intro i hi
      cases hs : g.shown fl strs z (i.1 + i.2.2) with
      | false => unfold GrepParameters.printed; rw [hs]; rfl
      | true =>
          obtain ⟨n, _, h⟩ := hpr _ (hline i hi).2 _ (hselw i hi hs)
          rw [tags tag hsep' z (i.1 + i.2.2) (value z (i.1 + i.2.2)), hs, (hline i hi).1]
          · show List.replicate _ _ = List.replicate _ _
            rw [(h _ _).1, show count' i = n from (h _ _).1]
          · intro o ho
            rw [(hline i hi).1] at ho
            obtain ⟨t1, t2⟩ := (h _ _).2 o ho
            show (if Given fl "-n" then number else offset) o = some (if Given fl "-n" then _ else _)
            by_cases hgn : Given fl "-n"
            · rw [if_pos hgn, if_pos hgn]; exact t1 _ (if_pos hgn)
            · rw [if_neg hgn, if_neg hgn]; exact t2 _ (if_pos (hnb.resolve_left hgn))
    have hposB : ∀ i ∈ L, g.shown fl strs z (i.1 + i.2.2) = true → 0 < count' i := by
      intro i hi hs
      obtain ⟨n, hn, h⟩ := hpr _ (hline i hi).2 _ (hselw i hi hs)
      rw [show count' i = n from (h _ _).1]; exact hn
    have hcount : ∀ i ∈ L, g.shown fl strs i.2.1 i.2.2 = true → g.shown fl strs z (i.1 + i.2.2) = true → count i = count' i := by
      intro i hi h1 h2
      show (g.print fl _ none none _).length = (g.print fl _ none none _).length
      rw [hsame i hi h1 h2]
    have ht : L.flatMap (fun i => if g.shown fl strs i.2.1 i.2.2 then List.replicate (count i) (value i.2.1 i.2.2) else []) =
        L.flatMap (fun i => if g.shown fl strs z (i.1 + i.2.2) then List.replicate (count' i) (value z (i.1 + i.2.2)) else []) := by
      have := congrArg (List.filterMap tag) he
      rw [List.filterMap_flatMap, List.filterMap_flatMap, hflat _ _ hA, hflat _ _ hB] at this
      exact this
    -- the same lines are shown
    have hshown : ∀ i ∈ L, g.shown fl strs i.2.1 i.2.2 = g.shown fl strs z (i.1 + i.2.2) := by
      have hlen := congrArg List.length ht
      rw [flatMap_length, flatMap_length] at hlen
      rcases hcases with hcx | ⟨_, hsub⟩
      · have hsub : ∀ i ∈ L, g.shown fl strs z (i.1 + i.2.2) = true → g.shown fl strs i.2.1 i.2.2 = true := by
          intro i hi h
          obtain ⟨pre, post, _, e, h3, h4⟩ := hmem i hi
          rw [shown_noContext hcx] at h ⊢
          rw [h4, e] at h
          exact selected_of_whole _ _ _ h3 h
        have := sums_eq L _ _ (fun i hi => ?_) hlen.symm
        · intro i hi
          have := this i hi
          cases hw : g.shown fl strs z (i.1 + i.2.2) with
          | true => exact hsub i hi hw
          | false =>
              cases hq : g.shown fl strs i.2.1 i.2.2 with
              | false => rfl
              | true =>
                  have hp := hposA i hi hq
                  simp only [hw, hq, if_true, Bool.false_eq_true, if_false, List.length_nil, List.length_replicate] at this
                  omega
        · cases hw : g.shown fl strs z (i.1 + i.2.2) with
          | false => simp
          | true =>
              have hq := hsub i hi hw
              simp only [hq, if_true, List.length_replicate, hcount i hi hq hw]
              exact Nat.le_refl _
      · have := sums_eq L _ _ (fun i hi => ?_) hlen
        · intro i hi
          have := this i hi
          cases hq : g.shown fl strs i.2.1 i.2.2 with
          | true => exact (hsub i hi hq).symm
          | false =>
              cases hw : g.shown fl strs z (i.1 + i.2.2) with
              | false => rfl
              | true =>
                  have hp := hposB i hi hw
                  simp only [hw, hq, if_true, Bool.false_eq_true, if_false, List.length_nil, List.length_replicate] at this
                  omega
        · cases hq : g.shown fl strs i.2.1 i.2.2 with
          | false => simp
          | true =>
              have hw := hsub i hi hq
              simp only [hw, if_true, List.length_replicate, hcount i hi hq hw]
              exact Nat.le_refl _
    -- their numbers are the same
    have hsum := congrArg List.sum ht
    rw [flatMap_sum, flatMap_sum] at hsum
    have hsums := sums_eq L _ _ (fun i hi => ?_) hsum
    · intro pre part post hparts k hk hs
      have hi := hmem' pre part post k hparts hk
      have hsh := hshown _ hi
      simp only at hsh
      rw [hsh, or_self] at hs
      rw [hs] at hsh
      have hv := hsums _ hi
      simp only [hs, hsh, if_true, List.sum_replicate_nat, hcount _ hi hsh hs] at hv
      have hpos := hposB _ hi hs
      have h0 := (hvalue _ hi).2 (Nat.eq_of_mul_eq_mul_left hpos hv)
      simp only [List.length_eq_zero_iff] at h0
      refine ⟨h0, hsh, ?_⟩
      rw [h0] at hs
      simpa using hs
    · rw [hshown i hi]
      cases hw : g.shown fl strs z (i.1 + i.2.2) with
      | false => simp
      | true =>
          have hq : g.shown fl strs i.2.1 i.2.2 = true := by rw [hshown i hi, hw]
          simp only [if_true, List.sum_replicate_nat, hcount i hi hq hw]
          exact Nat.mul_le_mul_left _ (Nat.le_trans (Nat.le_add_right _ _) (hvalue i hi).1)
  · intro hfit
    unfold List.flatMap
    congr 1
    refine List.map_congr_left (fun i hi => ?_)
    obtain ⟨pre, post, h1, h2, h3, h4⟩ := hmem i hi
    have hiff := hfit pre i.2.1 post h1
    cases hs : g.shown fl strs i.2.1 i.2.2 with
    | false =>
        have hw : g.shown fl strs z (i.1 + i.2.2) = false := by
          cases hw : g.shown fl strs z (i.1 + i.2.2) with
          | false => rfl
          | true =>
              rw [h2] at hw
              have := (hiff _ h3 (.inr hw)).2.1
              rw [hs] at this; cases this
        unfold GrepParameters.printed
        rw [hs, hw]; rfl
    | true =>
        obtain ⟨h5, _, h6⟩ := hiff _ h3 (.inl hs)
        have h0 : i.1 = 0 := by rw [h2, h5]; rfl
        rw [h5, List.nil_append] at h4
        rw [h5] at hiff
        have hj : ∀ j ≤ i.2.2, g.shown fl strs i.2.1 j = g.shown fl strs z j := by
          intro j hj
          rw [Bool.eq_iff_iff]
          constructor
          · intro h; exact (hiff j (by omega) (.inl h)).2.2
          · intro h; exact (hiff j (by omega) (.inr (by simpa using h))).2.1
        rw [h0, Nat.zero_add]
        unfold GrepParameters.printed
        rw [hs, h6]
        simp only [if_true]
        have hany : (List.range i.2.2).any (fun j => g.shown fl strs i.2.1 j) = (List.range i.2.2).any (fun j => g.shown fl strs z j) := by
          rw [Bool.eq_iff_iff, List.any_eq_true, List.any_eq_true]
          constructor
          · rintro ⟨j, hm, h⟩; exact ⟨j, hm, by rw [← hj j (Nat.le_of_lt (List.mem_range.1 hm))]; exact h⟩
          · rintro ⟨j, hm, h⟩; exact ⟨j, hm, by rw [hj j (Nat.le_of_lt (List.mem_range.1 hm))]; exact h⟩
        rw [hj (i.2.2 - 1) (by omega), hany, h4, selected_first _ _ h3, offset_first _ _ h3, List.getElem?_append_left h3]

/-- C54 for `-n` and `-b`, exactly: an offered parallelizer gives the output of grep for an input and a split exactly if the parts
fit the numbering. It is assumed that for each line that is shown as many lines are printed whatever its number and offset are, at
least one, and that the number or the offset can be read off them. If both context and a limit are given, it is also assumed that
one can tell what is printed for a selected line from what is printed for a line of context: grep prints `:` after the number of
the former and `-` after that of the latter. -/
theorem C54_numbers_exact (inv : CommandInvocationInitial) (hn : inv.cmdName = "grep") (p : Parallelizer)
    (hp : Offered inv p) (hnb : Has inv "-n" ∨ Has inv "-b") (hx : ¬ ∃ w ∈ ["-L", "-l", "-c", "-z"], Has inv w)
    (prog : Programs) (hcat : CatProgram prog) (g : GrepParameters) (hg : GrepProgram prog g)
    (c : CommandInvocationWithIOVars) (hb : Belongs inv c) (hcov : Covered "grep" c.flagOptionList) (hc : OneStream c)
    (number offset : String → Option Nat)
    (hsep : ∀ o ∈ g.separator c.flagOptionList, number o = none ∧ offset o = none) (x : Stream)
    (hboth : (∃ w ∈ ["-A", "--after-context", "-B", "--before-context", "-C", "--context"], Has inv w) →
      (∃ w ∈ ["-m", "--max-count"], Has inv w) →
      ∃ kind : String → Bool, ∀ l ∈ x, ∀ sel a b, ∀ o ∈ g.print c.flagOptionList sel a b l, kind o = sel)
    (hpr : ∀ l ∈ x, ∀ sel, sel = true ∨ GrepParameters.context c.flagOptionList → ∃ n, 0 < n ∧ ∀ a b,
      (g.print c.flagOptionList sel a b l).length = n ∧ ∀ o ∈ g.print c.flagOptionList sel a b l,
        (∀ k, a = some k → number o = some k) ∧ (∀ k, b = some k → offset o = some k))
    (parts : List Stream) (hs : Split p.splitter x parts) (y : Stream) (h : Executes prog p c parts y) :
    y = sequential prog c x ↔ NumbersFit g c.flagOptionList (strOperands c) parts := by
  obtain ⟨hq, hflat, e1, e2⟩ := grep_runs hn hp (fun hh => hx ⟨_, by simp, hh⟩) hcat hg hb hcov hc hs h
  have hnone : ∀ w ∈ ["-L", "-l", "-c", "-z"], ¬ Given c.flagOptionList w :=
    fun w hw hh => hx ⟨w, hw, (has_iff_given hb _).2 hh⟩
  have hl := listing_none c.flagOptionList (hnone "-l" (by simp)) (hnone "-L" (by simp))
  subst hflat
  have hgr : g.grep c.flagOptionList (strOperands c) =
      fun z => (List.range z.length).flatMap (g.printed c.flagOptionList (strOperands c) z) := by
    funext z
    unfold GrepParameters.grep
    simp only [hq, hl, hnone "-c" (by simp), if_false, reduceCtorEq]
  rw [e1, e2, hgr]
  refine numbers_positions parts ?_ (hnb.imp (has_iff_given hb _).1 (has_iff_given hb _).1) number offset hsep hpr
  by_cases hcx : ∃ w ∈ ["-A", "--after-context", "-B", "--before-context", "-C", "--context"], Has inv w
  · by_cases hm : ∃ w ∈ ["-m", "--max-count"], Has inv w
    · exact .inr (.inr (hboth hcx hm))
    · refine .inr (.inl ?_)
      unfold GrepParameters.limit
      rw [argAmong_none (fun w hw hh => hm ⟨w, hw, (has_iff_given hb _).2 hh⟩)]
      rfl
  · exact .inl (fun ⟨w, hw, hh⟩ => hcx ⟨w, hw, (has_iff_given hb _).2 hh⟩)

/-- The fit of given parts can be computed. -/
private theorem numbersFit_iff {parts : List Stream} : NumbersFit g fl strs parts ↔
    ∀ n < parts.length, ∀ k < (parts.getD n []).length,
      (g.shown fl strs (parts.getD n []) k = true ∨ g.shown fl strs parts.flatten ((parts.take n).flatten.length + k) = true) →
      (parts.take n).flatten = [] ∧ g.shown fl strs (parts.getD n []) k = true ∧ g.shown fl strs parts.flatten k = true := by
  constructor
  · intro h n hn
    refine h (parts.take n) (parts.getD n []) (parts.drop (n + 1)) ?_
    have e : parts.getD n [] = parts[n] := by simp [hn]
    rw [e, ← List.drop_eq_getElem_cons hn, List.take_append_drop]
  · rintro h pre part post rfl
    have := h pre.length (by simp)
    simpa using this

/-- A `grep` as in `sampleGrep` that prints numbers and offsets in unary before each line, and then `:` for selected lines and `=`
for context. -/
def tallyGrep : GrepParameters :=
  { sampleGrep with print := fun _ sel n b l =>
      [String.ofList (List.replicate (n.getD 0) 'n' ++ (List.replicate (b.getD 0) 'b' ++ (if sel then ':' else '=') :: l.toList))] }

def tallyProgs : Programs := fun n fl strs ins =>
  if n = "cat" then ins.flatten else tallyGrep.grep fl strs (ins.headD [])

theorem tallyProgs_ok : CatProgram tallyProgs ∧ GrepProgram tallyProgs tallyGrep := ⟨fun _ => rfl, fun _ _ _ _ _ => rfl⟩

/-- Reading the numbers and offsets. -/
def tallyNumber (o : String) : Option Nat :=
  if ':' ∈ o.toList ∨ '=' ∈ o.toList then some (o.toList.takeWhile (· == 'n')).length else none
def tallyOffset (o : String) : Option Nat :=
  if ':' ∈ o.toList ∨ '=' ∈ o.toList then some ((o.toList.dropWhile (· == 'n')).takeWhile (· == 'b')).length else none
/-- Telling selected lines from context. -/
def tallyKind (o : String) : Bool := ((o.toList.dropWhile (· == 'n')).dropWhile (· == 'b')).head? == some ':'

private theorem takeWhile_replicate (n : Nat) (c : Char) (l : List Char) (h : ∀ d ∈ l.head?, d ≠ c) :
    (List.replicate n c ++ l).takeWhile (· == c) = List.replicate n c ∧ (List.replicate n c ++ l).dropWhile (· == c) = l := by
  induction n with
  | zero =>
      cases l with
      | nil => simp
      | cons d l => have := h d (by simp); simp [this]
  | succ n ih => simp [List.replicate_succ, ih.1, ih.2]

theorem tally_reads (fl : List FlagOptionWithIOVar) (l : String) (sel : Bool) : ∃ n, 0 < n ∧ ∀ a b,
    (tallyGrep.print fl sel a b l).length = n ∧ ∀ o ∈ tallyGrep.print fl sel a b l,
      (∀ k, a = some k → tallyNumber o = some k) ∧ (∀ k, b = some k → tallyOffset o = some k) := by
  refine ⟨1, by decide, fun a b => ⟨rfl, fun o ho => ?_⟩⟩
  rw [List.mem_singleton.1 (show o ∈ [_] from ho)]
  have h1 := takeWhile_replicate (b.getD 0) 'b' ((if sel then ':' else '=') :: l.toList) (by cases sel <;> simp)
  have h2 := takeWhile_replicate (a.getD 0) 'n' (List.replicate (b.getD 0) 'b' ++ (if sel then ':' else '=') :: l.toList) (by
    cases b.getD 0 <;> cases sel <;> simp [List.replicate_succ])
  constructor
  · rintro k rfl
    unfold tallyNumber
    rw [String.toList_ofList, h2.1]
    cases sel <;> simp
  · rintro k rfl
    unfold tallyOffset
    rw [String.toList_ofList, h2.2, h1.1]
    cases sel <;> simp

theorem tally_kind (fl : List FlagOptionWithIOVar) (l : String) (sel : Bool) (a b : Option Nat) :
    ∀ o ∈ tallyGrep.print fl sel a b l, tallyKind o = sel := by
  intro o ho
  rw [List.mem_singleton.1 (show o ∈ [_] from ho)]
  have h1 := takeWhile_replicate (b.getD 0) 'b' ((if sel then ':' else '=') :: l.toList) (by cases sel <;> simp)
  have h2 := takeWhile_replicate (a.getD 0) 'n' (List.replicate (b.getD 0) 'b' ++ (if sel then ':' else '=') :: l.toList) (by
    cases b.getD 0 <;> cases sel <;> simp [List.replicate_succ])
  unfold tallyKind
  rw [String.toList_ofList, h2.2, h1.2]
  cases sel <;> rfl

/-- With context and a limit: the numbers are right if the limit is reached in the first part and the context ends there, but
not if another part has a match. -/
example : ∃ inv p, parse "grep -n -A 1 -m 1 a f" = .ok inv ∧ Offered inv p ∧ Has inv "-n" ∧ Has inv "-A" ∧ Has inv "-m" ∧
    (¬ ∃ w ∈ ["-L", "-l", "-c", "-z"], Has inv w) ∧
    Belongs inv (grepSample [.flag "-n", .optionVar 0 "-A" (.str "1"), .optionVar 0 "-m" (.str "1")]) ∧
    Covered "grep" (grepSample [.flag "-n", .optionVar 0 "-A" (.str "1"), .optionVar 0 "-m" (.str "1")]).flagOptionList ∧
    (∀ o ∈ tallyGrep.separator [.flag "-n", .optionVar 0 "-A" (.str "1"), .optionVar 0 "-m" (.str "1")],
      tallyNumber o = none ∧ tallyOffset o = none) ∧
    NumbersFit tallyGrep [.flag "-n", .optionVar 0 "-A" (.str "1"), .optionVar 0 "-m" (.str "1")] ["a"]
      [["c", "a", "b", "a"], ["b", "c"]] ∧
    ¬ NumbersFit tallyGrep [.flag "-n", .optionVar 0 "-A" (.str "1"), .optionVar 0 "-m" (.str "1")] ["a"]
      [["c", "a", "b"], ["a"]] ∧
    ¬ NumbersFit tallyGrep [.flag "-n", .optionVar 0 "-A" (.str "1"), .optionVar 0 "-m" (.str "1")] ["a"]
      [["c", "a"], ["b"]] := by
  refine ⟨⟨"grep", [.flag "-n", .option "-A" "1", .option "-m" "1"], ["a", "f"]⟩, plan .consecChunks concatenation,
    by decide +kernel, ?_, by simp [Has], by simp [Has], by simp [Has], by simp [Has], ⟨rfl, rfl⟩, by decide +kernel,
    by decide +kernel, ?_, ?_, ?_⟩
  · exact offered_iff.2 ⟨_, grep_offered rfl (by simp [Has, grepMasks]), .inl (by simp [bothPlans])⟩
  · rw [numbersFit_iff]; decide +kernel
  · rw [numbersFit_iff]; decide +kernel
  · rw [numbersFit_iff]; decide +kernel

example : ∃ inv p, parse "grep -n -A 1 a f" = .ok inv ∧ Offered inv p ∧ (Has inv "-n" ∨ Has inv "-b") ∧
    (¬ ∃ w ∈ ["-L", "-l", "-c", "-z"], Has inv w) ∧ (¬ ∃ w ∈ ["-m", "--max-count"], Has inv w) ∧
    Belongs inv (grepSample [.flag "-n", .optionVar 0 "-A" (.str "1")]) ∧
    Covered "grep" (grepSample [.flag "-n", .optionVar 0 "-A" (.str "1")]).flagOptionList ∧
    (∀ o ∈ tallyGrep.separator [.flag "-n", .optionVar 0 "-A" (.str "1")], tallyNumber o = none ∧ tallyOffset o = none) ∧
    -- the numbers are right if all that is shown is in the first part
    NumbersFit tallyGrep [.flag "-n", .optionVar 0 "-A" (.str "1")] ["a"] [["c", "a", "b"], ["b", "c"]] ∧
    -- but not if a later part shows something
    ¬ NumbersFit tallyGrep [.flag "-n", .optionVar 0 "-A" (.str "1")] ["a"] [["a", "b"], ["a", "b"]] ∧
    -- or should show something
    ¬ NumbersFit tallyGrep [.flag "-n", .optionVar 0 "-A" (.str "1")] ["a"] [["c", "a"], ["b", "c"]] := by
  refine ⟨⟨"grep", [.flag "-n", .option "-A" "1"], ["a", "f"]⟩, plan .consecChunks concatenation, by decide +kernel, ?_,
    by simp [Has], by simp [Has], by simp [Has], ⟨rfl, rfl⟩, by decide +kernel, by decide +kernel, ?_, ?_, ?_⟩
  · exact offered_iff.2 ⟨_, grep_offered rfl (by simp [Has, grepMasks]), .inl (by simp [bothPlans])⟩
  · rw [numbersFit_iff]; decide +kernel
  · rw [numbersFit_iff]; decide +kernel
  · rw [numbersFit_iff]; decide +kernel

/-- What the other flags are about: with `-A 1` the count, the names of inputs with a match and of those without are offered the
same, and the output of an execution on two parts is right or wrong as said. -/
example : ∀ w ∈ ["-c", "-l", "-L"], ∃ inv, parse ("grep " ++ w ++ " -A 1 a f") = .ok inv ∧ Has inv w ∧
    Offered inv (plan .consecChunks concatenation) ∧
    Belongs inv (grepSample [.flag w, .optionVar 0 "-A" (.str "1")]) ∧
    Covered "grep" (grepSample [.flag w, .optionVar 0 "-A" (.str "1")]).flagOptionList ∧
    OneStream (grepSample [.flag w, .optionVar 0 "-A" (.str "1")]) := by
  intro w hw
  refine ⟨⟨"grep", [.flag w, .option "-A" "1"], ["a", "f"]⟩, ?_, by simp [Has], ?_, ⟨rfl, rfl⟩, ?_,
    grepSample_ok _ (by simp [optionVar])⟩
  · simp only [List.mem_cons, List.not_mem_nil, or_false] at hw
    rcases hw with rfl | rfl | rfl <;> decide +kernel
  · simp only [List.mem_cons, List.not_mem_nil, or_false] at hw
    rcases hw with rfl | rfl | rfl <;>
      exact offered_iff.2 ⟨_, grep_offered rfl (by simp [Has, grepMasks]), .inl (by simp [bothPlans])⟩
  · simp only [List.mem_cons, List.not_mem_nil, or_false] at hw
    rcases hw with rfl | rfl | rfl <;> decide +kernel

end PashAnn
