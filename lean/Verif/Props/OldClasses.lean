import Verif.Spec.OldClasses
import Verif.Props.Old
import Verif.Props.Masked
import Verif.Props.TextPlans
import Verif.Props.Col

/-!
C121: whether what the older annotations call stateless treats each line by itself.
-/

namespace PashAnn
open Spec

section grep
variable {g : GrepParameters} {fl : List FlagOptionWithIOVar} {strs : List String}

theorem grep_selected_first (hl : g.limit fl ≠ some 0) {m : String} (hm : g.matching fl strs m = true) (x : Stream) :
    g.selected fl strs (m :: x) 0 = true := by
  unfold GrepParameters.selected
  simp only [List.getElem?_cons_zero, Option.elim_some, hm, List.take_zero, List.filter_nil, List.length_nil, Bool.true_and]
  cases h : g.limit fl with
  | none => rfl
  | some k =>
      have : 0 < k := Nat.pos_of_ne_zero fun e => hl (by rw [h, e])
      exact decide_eq_true (by simpa using this)

theorem grep_selected_not {x : Stream} {k : Nat} {l : String} (hx : x[k]? = some l) (hl : g.matching fl strs l = false) :
    g.selected fl strs x k = false := by
  unfold GrepParameters.selected
  rw [hx]; simp [hl]

theorem grep_selected_none (h : g.limit fl = some 0) (x : Stream) (k : Nat) : g.selected fl strs x k = false := by
  unfold GrepParameters.selected
  rw [h]; simp

theorem grep_shown_self {x : Stream} {k : Nat} (hk : k < x.length) (h : g.selected fl strs x k = true) : g.shown fl strs x k = true := by
  unfold GrepParameters.shown
  rw [List.any_eq_true]
  exact ⟨k, List.mem_range.2 hk, by simp [h]⟩

theorem grep_lines (hq : ¬ Given fl "-q") (hL : GrepParameters.listing fl ≠ some "-L") (hl : GrepParameters.listing fl ≠ some "-l")
    (hc : ¬ Given fl "-c") (x : Stream) : g.grep fl strs x = (List.range x.length).flatMap (g.printed fl strs x) := by
  unfold GrepParameters.grep
  simp only [hq, hL, hl, hc, if_false]

theorem grep_printed_first {m : String} (x : Stream) (h : g.shown fl strs (m :: x) 0 = true) :
    g.printed fl strs (m :: x) 0 = g.print fl (g.selected fl strs (m :: x) 0) (if Given fl "-n" then some 1 else none)
      (if Given fl "-b" then some 0 else none) m := by
  unfold GrepParameters.printed
  simp [h, GrepParameters.offset]

theorem listing_cases (fl : List FlagOptionWithIOVar) :
    GrepParameters.listing fl = none ∨ GrepParameters.listing fl = some "-l" ∨ GrepParameters.listing fl = some "-L" := by
  cases h : GrepParameters.listing fl with
  | none => exact .inl rfl
  | some n =>
      have := (List.mem_filter.1 (List.mem_of_getLast? h)).2
      simp only [List.mem_cons, List.not_mem_nil, or_false, decide_eq_true_eq] at this
      rcases this with rfl | rfl <;> simp

theorem grep_shown_iff (x : Stream) (k : Nat) : g.shown fl strs x k = true ↔
    ∃ j, j < x.length ∧ g.selected fl strs x j = true ∧ k ≤ j + g.after fl ∧ j ≤ k + g.before fl := by
  unfold GrepParameters.shown
  simp [List.any_eq_true]

theorem grep_printed_not {x : Stream} {k : Nat} (h : g.shown fl strs x k = false) : g.printed fl strs x k = [] := by
  unfold GrepParameters.printed
  simp [h]

theorem grep_printed_next {x : Stream} {k : Nat} (h : g.shown fl strs x k = true) (h' : g.shown fl strs x (k + 1) = true) :
    g.printed fl strs x (k + 1) = g.print fl (g.selected fl strs x (k + 1)) (if Given fl "-n" then some (k + 1 + 1) else none)
      (if Given fl "-b" then some (GrepParameters.offset x (k + 1)) else none) (x[k + 1]?.getD "") := by
  unfold GrepParameters.printed
  simp [h, h']

theorem selected_replicate {m : String} (hm : g.matching fl strs m = true) {k : Nat} (hl : g.limit fl = some (k + 1)) (M j : Nat) :
    g.selected fl strs (List.replicate M m) j = true ↔ j < M ∧ j < k + 1 := by
  unfold GrepParameters.selected
  rw [hl]
  by_cases hj : j < M
  · simp [hj, hm, List.take_replicate]; omega
  · simp [hj]

theorem shown_replicate {m : String} (hm : g.matching fl strs m = true) {k : Nat} (hl : g.limit fl = some (k + 1)) (M i : Nat)
    (hM : k + 1 ≤ M) : g.shown fl strs (List.replicate M m) i = true ↔ i ≤ k + g.after fl := by
  rw [grep_shown_iff]
  constructor
  · rintro ⟨j, -, hs, h1, h2⟩
    have := (selected_replicate hm hl M j).1 hs
    omega
  · intro h
    refine ⟨min i k, by simp; omega, (selected_replicate hm hl M _).2 (by omega), by omega, by omega⟩

theorem printed_replicate {m : String} (hm : g.matching fl strs m = true) {k : Nat} (hl : g.limit fl = some (k + 1)) (M i : Nat)
    (hM : k + 1 ≤ M) (hi : i < M) :
    g.printed fl strs (List.replicate (M + 1) m) i = g.printed fl strs (List.replicate M m) i := by
  have hs : ∀ j, g.shown fl strs (List.replicate (M + 1) m) j = g.shown fl strs (List.replicate M m) j := fun j =>
    Bool.eq_iff_iff.2 ((shown_replicate hm hl (M + 1) j (by omega)).trans (shown_replicate hm hl M j hM).symm)
  have hsel : g.selected fl strs (List.replicate (M + 1) m) i = g.selected fl strs (List.replicate M m) i :=
    Bool.eq_iff_iff.2 ((selected_replicate hm hl (M + 1) i).trans
      (Iff.trans (by omega) (selected_replicate hm hl M i).symm))
  unfold GrepParameters.printed GrepParameters.offset
  have e1 : min i (M + 1) = i := by omega
  have e2 : min i M = i := by omega
  have e3 : i < M + 1 := by omega
  simp only [hs, hsel, List.take_replicate, List.getElem?_replicate, e1, e2, e3, hi]

/-- What grep prints treats each line by itself exactly under `GrepByLines`. -/
theorem grep_lineWise {found other : String} (ht : Telling g fl strs found other) :
    LineWise (g.grep fl strs) ↔ GrepByLines g fl := by
  constructor
  · intro h
    by_cases hq : Given fl "-q"
    · exact .inl hq
    have h0 : g.grep fl strs [] = [] := by
      have := congrArg List.length (h [] [])
      simp only [List.append_nil, List.length_append] at this
      exact List.eq_nil_of_length_eq_zero (by omega)
    have hL : GrepParameters.listing fl ≠ some "-L" := by
      intro hL
      unfold GrepParameters.grep at h0
      simp [hq, hL] at h0
    by_cases hlim : g.limit fl = some 0
    · exact .inr (.inl ⟨hL, hlim⟩)
    have hsel := grep_selected_first hlim ht.succeeds
    have hl : GrepParameters.listing fl ≠ some "-l" := by
      intro hl
      have hh : ∀ x, g.grep fl strs (found :: x) = [g.label] := by
        intro x
        have : (List.range (found :: x).length).any (g.selected fl strs (found :: x)) = true :=
          List.any_eq_true.2 ⟨0, List.mem_range.2 (by simp), hsel x⟩
        unfold GrepParameters.grep
        rw [if_neg hq, if_neg hL, if_pos hl, if_pos this]
      have := h [found] [found]
      simp only [List.cons_append, List.nil_append, hh] at this
      simp at this
    have hc : ¬ Given fl "-c" := by
      intro hc
      unfold GrepParameters.grep at h0
      simp [hq, hL, hl, hc, hlim] at h0
    have hf := grep_lines (g := g) (strs := strs) hq hL hl hc
    have hs0 : ∀ x, g.shown fl strs (found :: x) 0 = true := fun x => grep_shown_self (by simp) (hsel x)
    have hp0 := fun x => grep_printed_first x (hs0 x)
    simp only [hsel] at hp0
    have h1 : g.grep fl strs [found] = g.print fl true (if Given fl "-n" then some 1 else none)
        (if Given fl "-b" then some 0 else none) found := by
      rw [hf]
      simp [List.range_succ, hp0]
    have hnb : ¬ Given fl "-n" ∧ ¬ Given fl "-b" := by
      have h2 := h [found] [found]
      rw [h1, List.singleton_append, hf] at h2
      simp only [List.length_cons, List.length_nil, List.range_succ, List.range_zero, List.nil_append, List.flatMap_append,
        List.flatMap_cons, List.flatMap_nil, List.append_nil, hp0] at h2
      have h3 := List.append_cancel_left h2
      cases hs1 : g.shown fl strs [found, found] 1 with
      | false =>
          rw [grep_printed_not hs1] at h3
          exact absurd h3.symm (ht.prints _ _)
      | true =>
          rw [grep_printed_next (hs0 _) hs1] at h3
          constructor
          · intro hn
            simp only [hn, if_true] at h3
            exact ht.numbers _ _ _ _ h3.symm
          · intro hn
            simp only [hn, if_true] at h3
            exact ht.offsets _ _ _ _ _ (by simp [GrepParameters.offset]) h3.symm
    have hlim' : g.limit fl = none := by
      cases hk : g.limit fl with
      | none => rfl
      | some k =>
          cases k with
          | zero => exact absurd hk hlim
          | succ k =>
              have h2 := h (List.replicate (k + 1 + g.after fl) found) [found]
              rw [show List.replicate (k + 1 + g.after fl) found ++ [found] = List.replicate (k + 1 + g.after fl + 1) found from
                (List.replicate_succ').symm, hf, hf, h1] at h2
              simp only [List.length_replicate] at h2
              rw [List.range_succ, List.flatMap_append] at h2
              have e : (List.range (k + 1 + g.after fl)).flatMap (g.printed fl strs (List.replicate (k + 1 + g.after fl + 1) found)) =
                  (List.range (k + 1 + g.after fl)).flatMap (g.printed fl strs (List.replicate (k + 1 + g.after fl) found)) := by
                rw [List.flatMap_def, List.flatMap_def]
                exact congrArg _ (List.map_congr_left fun i hi =>
                  printed_replicate ht.succeeds hk _ i (by omega) (List.mem_range.1 hi))
              rw [e] at h2
              have h3 := List.append_cancel_left h2
              have hns : g.shown fl strs (List.replicate (k + 1 + g.after fl + 1) found) (k + 1 + g.after fl) = false := by
                rw [Bool.eq_false_iff, ne_eq, shown_replicate ht.succeeds hk _ _ (by omega)]
                omega
              simp only [List.flatMap_cons, List.flatMap_nil, List.append_nil, grep_printed_not hns] at h3
              exact absurd h3.symm (ht.prints _ _)
    have hlist : GrepParameters.listing fl = none := by
      rcases listing_cases fl with e | e | e
      · exact e
      · exact absurd e hl
      · exact absurd e hL
    refine .inr (.inr ⟨hlist, hlim', by simp [hc, hnb], fun hcx => ?_⟩)
    have hn0 : g.grep fl strs [other] = [] := by
      rw [hf]
      have : g.shown fl strs [other] 0 = false := by
        rw [Bool.eq_false_iff, ne_eq, grep_shown_iff]
        rintro ⟨j, hj, hs, -⟩
        have : j = 0 := by simpa using hj
        subst this
        rw [grep_selected_not rfl ht.fails] at hs
        exact absurd hs (by simp)
      simp [List.range_succ, grep_printed_not this]
    have hselm : ∀ x k, x[k]? = some found → g.selected fl strs x k = true := by
      intro x k hx
      unfold GrepParameters.selected
      simp [hx, hlim', ht.succeeds]
    simp only [hnb.1, hnb.2, if_false] at h1 hp0
    have ha : g.after fl = 0 := by
      rcases Nat.eq_zero_or_pos (g.after fl) with e | hpos
      · exact e
      have h2 := h [found] [other]
      rw [h1, hn0, List.singleton_append, hf] at h2
      simp only [List.length_cons, List.length_nil, List.range_succ, List.range_zero, List.nil_append, List.flatMap_append,
        List.flatMap_cons, List.flatMap_nil, List.append_nil, hp0] at h2
      have hs1 : g.shown fl strs [found, other] 1 = true :=
        (grep_shown_iff _ _).2 ⟨0, by simp, hsel _, by omega, by omega⟩
      rw [grep_printed_next (hs0 _) hs1, grep_selected_not (l := other) rfl ht.fails] at h2
      exact absurd (List.append_right_eq_self.1 h2) (ht.beside _ _)
    have hb : g.before fl = 0 := by
      rcases Nat.eq_zero_or_pos (g.before fl) with e | hpos
      · exact e
      have h2 := h [other] [found]
      rw [h1, hn0, List.singleton_append, hf] at h2
      simp only [List.length_cons, List.length_nil, List.range_succ, List.range_zero, List.nil_append, List.flatMap_append,
        List.flatMap_cons, List.flatMap_nil, List.append_nil] at h2
      have hs1 : g.shown fl strs [other, found] 1 = true :=
        grep_shown_self (by simp) (hselm _ _ rfl)
      have hs0' : g.shown fl strs [other, found] 0 = true :=
        (grep_shown_iff _ _).2 ⟨1, by simp, hselm _ _ rfl, by omega, by omega⟩
      rw [grep_printed_next hs0' hs1, hselm _ (0 + 1) rfl, grep_printed_first _ hs0', grep_selected_not (l := other) rfl ht.fails] at h2
      simp only [hnb.1, hnb.2, if_false] at h2
      have h3 := List.append_left_eq_self.1 h2
      exact absurd h3 (ht.beside _ _)
    refine ⟨hb, ha, ?_⟩
    have h2 := h [found, other] [found]
    have h2' := h [found] [other]
    rw [List.singleton_append, h1, hn0, List.append_nil] at h2'
    rw [h1, h2', show [found, other] ++ [found] = [found, other, found] from rfl, hf] at h2
    have hs1 : g.shown fl strs [found, other, found] 1 = false := by
      rw [Bool.eq_false_iff, ne_eq, grep_shown_iff]
      rintro ⟨j, -, hs, h3, h4⟩
      have : j = 1 := by omega
      subst this
      rw [grep_selected_not (l := other) rfl ht.fails] at hs
      exact absurd hs (by simp)
    have hs2 : g.shown fl strs [found, other, found] 2 = true := grep_shown_self (by simp) (hselm _ _ rfl)
    simp only [List.length_cons, List.length_nil, List.range_succ, List.range_zero, List.nil_append, List.flatMap_append,
      List.flatMap_cons, List.flatMap_nil, List.append_nil, hp0, List.append_assoc] at h2
    have h3 := List.append_cancel_left h2
    rw [grep_printed_not hs1, List.nil_append] at h3
    have hany : (List.range 2).any (fun j => g.shown fl strs [found, other, found] j) = true :=
      List.any_eq_true.2 ⟨0, by simp, hs0 _⟩
    unfold GrepParameters.printed at h3
    simp only [Nat.reduceAdd] at h3
    rw [if_pos hs2, if_pos ⟨hcx, by omega, hs1, hany⟩, hselm _ 2 rfl] at h3
    simp only [hnb.1, hnb.2, if_false] at h3
    exact List.append_left_eq_self.1 h3
  · rintro (hq | ⟨hL, hlim⟩ | ⟨hlist, hlim, hn, hcx⟩)
    · intro x y
      unfold GrepParameters.grep
      simp [hq]
    · have : ∀ x, g.grep fl strs x = [] := by
        intro x
        have hnone := fun k => grep_selected_none (strs := strs) hlim x k
        have hsh : ∀ k, g.shown fl strs x k = false := by
          intro k
          rw [Bool.eq_false_iff, ne_eq, grep_shown_iff]
          rintro ⟨j, -, hs, -⟩
          rw [hnone] at hs; exact absurd hs (by simp)
        have hany : (List.range x.length).any (g.selected fl strs x) = false := by
          rw [Bool.eq_false_iff, ne_eq, List.any_eq_true]
          rintro ⟨j, -, hs⟩
          rw [hnone] at hs; exact absurd hs (by simp)
        unfold GrepParameters.grep
        simp only [hL, hany, hlim, if_true, if_false, Bool.false_eq_true]
        split
        · rfl
        split
        · rfl
        split
        · rfl
        exact List.flatMap_eq_nil_iff.2 fun k _ => grep_printed_not (hsh k)
      intro x y
      simp [this]
    · by_cases hq : Given fl "-q"
      · intro x y
        unfold GrepParameters.grep
        simp [hq]
      have hf := grep_lines (g := g) (strs := strs) hq (by simp [hlist]) (by simp [hlist]) (fun h => hn ⟨_, by simp, h⟩)
      have hab : g.before fl = 0 ∧ g.after fl = 0 := by
        by_cases hc : GrepParameters.context fl
        · exact ⟨(hcx hc).1, (hcx hc).2.1⟩
        · exact noContext g fl hc
      have : ∀ x, g.grep fl strs x = x.flatMap fun l => if g.matching fl strs l then g.print fl true none none l else [] := by
        intro x
        rw [hf, ← flatMap_range]
        rw [List.flatMap_def, List.flatMap_def]
        refine congrArg _ (List.map_congr_left fun k hk => ?_)
        have hk := List.mem_range.1 hk
        have hsel : ∀ j, g.selected fl strs x j = x[j]?.elim false (g.matching fl strs) := by
          intro j
          unfold GrepParameters.selected
          simp [hlim]
        have hsh : ∀ j, j < x.length → g.shown fl strs x j = g.selected fl strs x j := by
          intro j hj
          rw [Bool.eq_iff_iff, grep_shown_iff]
          constructor
          · rintro ⟨i, -, hs, h1, h2⟩
            have : i = j := by omega
            exact this ▸ hs
          · exact fun h => ⟨j, hj, h, by omega, by omega⟩
        have hn1 : ¬ Given fl "-n" := fun h => hn ⟨_, by simp, h⟩
        have hn2 : ¬ Given fl "-b" := fun h => hn ⟨_, by simp, h⟩
        unfold GrepParameters.printed
        rw [hsh k hk, hsel k, List.getElem?_eq_getElem hk]
        simp only [Option.elim_some, Option.getD_some, hn1, hn2, if_false]
        split
        · next hm =>
            rw [hm]
            split
            · next hc => rw [(hcx hc.1).2.2]; rfl
            · rfl
        · rfl
      intro x y
      simp [this]

end grep

/-- Names that are not covered are not given. -/
theorem covered_not {cmd n : String} {fl : List FlagOptionWithIOVar} (h : Covered cmd fl)
    (hn : (coveredNames.all fun q => q.1 != cmd || !q.2.contains n) = true) : ¬ Given fl n := by
  rintro ⟨o, ho, rfl⟩
  obtain ⟨q, hq, rfl, ha⟩ := h
  have := List.all_eq_true.1 hn q hq
  simp [ha o ho] at this

/-- C121 for grep, exactly: it is called stateless if `-c` is not given, and it treats each line by itself exactly under
`GrepByLines`. -/
theorem C121_grep_exact (inv : CommandInvocationInitial) (hn : inv.cmdName = "grep") (prog : Programs) (g : GrepParameters)
    (hg : GrepProgram prog g) (c : CommandInvocationWithIOVars) (hb : Belongs inv c) (hcov : Covered "grep" c.flagOptionList)
    (hz : ¬ Has inv "-z") (found other : String) (ht : Telling g c.flagOptionList (strOperands c) found other) :
    (OldSays inv .stateless ↔ ¬ Has inv "-c") ∧ (LineWise (sequential prog c) ↔ GrepByLines g c.flagOptionList) := by
  constructor
  · have hr : ¬ HasAny inv ["-r", "--recursive", "-R", "--dereference-recursive"] := by
      rintro ⟨n, hm, hh⟩
      refine covered_not hcov ?_ ((has_iff_given hb n).1 hh)
      simp only [List.mem_cons, List.not_mem_nil, or_false] at hm
      rcases hm with rfl | rfl | rfl | rfl <;> decide +kernel
    rw [(C110_classes inv .stateless).2.2.2.2.2.2 (by simp [hn])]
    have hc : HasAny inv ["-c"] ↔ Has inv "-c" := by simp [HasAny]
    rw [hc]
    by_cases h1 : inv.operandList.length = 1 <;> simp [h1, hr]
  · rw [← grep_lineWise ht]
    have : sequential prog c = g.grep c.flagOptionList (strOperands c) := by
      funext x
      unfold sequential
      rw [hb.1, hn, hg _ _ _ hcov fun h => hz ((has_iff_given hb _).2 h)]
    rw [this]

/-- C121 is false of the older data files: `grep -n` and `grep -b` are called stateless, but the numbers and offsets that they print
depend on the lines before. -/
theorem C121_grep_false (inv : CommandInvocationInitial) (hn : inv.cmdName = "grep") (prog : Programs) (g : GrepParameters)
    (hg : GrepProgram prog g) (c : CommandInvocationWithIOVars) (hb : Belongs inv c) (hcov : Covered "grep" c.flagOptionList)
    (hz : ¬ ∃ n ∈ ["-z", "-c", "-q", "-m", "--max-count"], Has inv n) (hx : Has inv "-n" ∨ Has inv "-b") (found other : String)
    (ht : Telling g c.flagOptionList (strOperands c) found other) :
    OldSays inv .stateless ∧ ¬ LineWise (sequential prog c) := by
  have h' : ∀ n ∈ ["-z", "-c", "-q", "-m", "--max-count"], ¬ Has inv n := fun n hm h => hz ⟨n, hm, h⟩
  obtain ⟨h1, h2⟩ := C121_grep_exact inv hn prog g hg c hb hcov (h' _ (by simp)) found other ht
  refine ⟨h1.2 (h' _ (by simp)), ?_⟩
  rw [h2]
  rintro (hq | ⟨-, hl⟩ | ⟨-, -, h, -⟩)
  · exact h' "-q" (by simp) ((has_iff_given hb _).2 hq)
  · unfold GrepParameters.limit at hl
    rw [argAmong_none (fun n hm hg => h' n (by
      simp only [List.mem_cons, List.not_mem_nil, or_false] at hm
      rcases hm with rfl | rfl <;> simp) ((has_iff_given hb _).2 hg))] at hl
    simp at hl
  · rcases hx with hx | hx
    · exact h ⟨_, by simp, (has_iff_given hb _).1 hx⟩
    · exact h ⟨_, by simp, (has_iff_given hb _).1 hx⟩

/-- C121 for cut: whenever it is called stateless it treats each line by itself. -/
theorem C121_cut (inv : CommandInvocationInitial) (hn : inv.cmdName = "cut") (prog : Programs)
    (select : List FlagOptionWithIOVar → String → List String) (listed : List FlagOptionWithIOVar → Nat → Bool)
    (hcut : CutProgram prog select listed) (c : CommandInvocationWithIOVars) (hb : Belongs inv c)
    (hcov : Covered "cut" c.flagOptionList) (hs : strOperands c = []) (hz : ¬ Has inv "-z")
    (hd : argOf c.flagOptionList "-d" = some "\n" → .option "-d" "\n" ∈ inv.flagOptionList) (h : OldSays inv .stateless) :
    LineWise (sequential prog c) := by
  rw [(C110_classes inv .stateless).2.2.2.2.1 (by simp [hn])] at h
  have hf : ¬ (Given c.flagOptionList "-f" ∧ argOf c.flagOptionList "-d" = some "\n") := by
    rintro ⟨h1, h2⟩
    rcases h with ⟨-, h⟩ | ⟨h, -⟩
    · cases h
    · exact h ⟨⟨_, by simp, hd h2⟩, _, by simp, (has_iff_given hb _).2 h1⟩
  intro x y
  unfold sequential
  simp only [hb.1, hn, hs, hcut.lines _ _ hcov (fun h => hz ((has_iff_given hb _).2 h)) hf, List.flatMap_append]

/-- C121 for tr, exactly: it is called stateless if `-d` is given or `-s` is not, and what follows the end of a line is treated by
itself exactly if nothing is squeezed across an end of line. -/
theorem C121_tr_exact (inv : CommandInvocationInitial) (hn : inv.cmdName = "tr") (prog : ProgramsOn Char) (t : TrParameters)
    (ht : TrProgram prog t) (c : CommandInvocationWithIOVars) (hb : Belongs inv c) (hcov : Covered "tr" c.flagOptionList)
    (hu : TrUsage c.flagOptionList (strOperands c)) :
    (OldSays inv .stateless ↔ Has inv "-d" ∨ ¬ Has inv "-s") ∧
      (LineWiseText (sequential prog c) ↔ t.SafeEnds c.flagOptionList (strOperands c)) := by
  constructor
  · rw [(C110_classes inv .stateless).2.2.2.2.2.1 (by simp [hn])]
    have h1 : ¬ Has inv "--delete" := fun h => covered_not hcov (by decide +kernel) ((has_iff_given hb _).1 h)
    have h2 : ¬ Has inv "--squeeze-repeats" := fun h => covered_not hcov (by decide +kernel) ((has_iff_given hb _).1 h)
    by_cases hd : Has inv "-d" <;> by_cases hs : Has inv "-s" <;> simp [HasAny, h1, h2, hd, hs]
  have hseq : sequential prog c = t.tr c.flagOptionList (strOperands c) := by
    funext z; unfold sequential; rw [hb.1, hn, ht.output _ _ _ hcov hu]
  rw [hseq]
  refine ⟨fun key hs => ?_, fun hs x y hx => tr_append hs x y hx⟩
  cases hi : t.image c.flagOptionList (strOperands c) '\n' with
  | some a =>
      cases hl : t.last c.flagOptionList (strOperands c) a with
      | false => exact hl
      | true =>
          have := key ['\n'] ['\n'] (.inr rfl)
          simp [TrParameters.tr, hs, hi, squeeze, hl] at this
  | none =>
      intro e d he
      cases hl : t.last c.flagOptionList (strOperands c) d with
      | false => rfl
      | true =>
          have := key [e, '\n'] [e] (.inr rfl)
          simp [TrParameters.tr, hs, hi, he, squeeze, hl] at this

/-- C121 for tr, when it is called stateless and does not both delete and squeeze. Missing: with both, squeezing across an end of line
makes it false (`C121_tr_exact`). -/
theorem C121_tr_partial (inv : CommandInvocationInitial) (hn : inv.cmdName = "tr") (prog : ProgramsOn Char) (t : TrParameters)
    (ht : TrProgram prog t) (c : CommandInvocationWithIOVars) (hb : Belongs inv c) (hcov : Covered "tr" c.flagOptionList)
    (hu : TrUsage c.flagOptionList (strOperands c)) (h : OldSays inv .stateless) (hx : ¬ (Has inv "-d" ∧ Has inv "-s")) :
    LineWiseText (sequential prog c) := by
  obtain ⟨h1, h2⟩ := C121_tr_exact inv hn prog t ht c hb hcov hu
  refine h2.2 fun hs => ?_
  have hs := (has_iff_given hb _).2 hs
  rcases h1.1 h with hd | hd
  · exact absurd ⟨hd, hs⟩ hx
  · exact absurd hs hd

/-- C121 for xargs that runs the command for each word, exactly: with `-r`, or if the command prints nothing without words. -/
theorem C121_xargs_exact (inv : CommandInvocationInitial) (hn : inv.cmdName = "xargs") (prog : Programs)
    (words : String → List String) (run : List FlagOptionWithIOVar → List String → List String → Stream)
    (hxa : XargsProgram prog words run) (c : CommandInvocationWithIOVars) (hb : Belongs inv c)
    (hcov : Covered "xargs" c.flagOptionList) (h1 : argOf c.flagOptionList "-n" = some "1")
    (hx : ¬ ∃ n ∈ ["--null", "--delimiter", "-E", "-I", "-L", "-a"], Has inv n) :
    OldSays inv .stateless ∧
      (LineWise (sequential prog c) ↔ Has inv "-r" ∨ run c.flagOptionList (strOperands c) [] = []) := by
  refine ⟨((C110_classes inv .stateless).1 (by simp [hn])).2 rfl, ?_⟩
  have hx' : ¬ ∃ n ∈ ["--null", "--delimiter", "-E", "-I", "-L", "-a"], Given c.flagOptionList n := by
    rintro ⟨n, hm, hh⟩; exact hx ⟨n, hm, (has_iff_given hb n).2 hh⟩
  have hseq : ∀ z : Stream, sequential prog c z = if z.flatMap words = [] then
      (if Given c.flagOptionList "-r" then [] else run c.flagOptionList (strOperands c) [])
      else (z.flatMap words).flatMap (fun w => run c.flagOptionList (strOperands c) [w]) := by
    intro z; unfold sequential; rw [hb.1, hn, hxa.single _ _ _ hcov h1 hx']
  rw [has_iff_given hb]
  constructor
  · intro h
    by_cases hr : Given c.flagOptionList "-r"
    · exact .inl hr
    · have := h [] []
      rw [List.append_nil, hseq, List.flatMap_nil, if_pos rfl, if_neg hr] at this
      exact .inr (List.append_right_eq_self.1 this.symm)
  · intro h
    have hseq' : ∀ z : Stream, sequential prog c z =
        (z.flatMap words).flatMap (fun w => run c.flagOptionList (strOperands c) [w]) := by
      intro z
      rw [hseq]
      split
      · next hz =>
          rw [hz, List.flatMap_nil]
          split
          · rfl
          · next hr => exact h.resolve_left hr
      · rfl
    intro x y
    simp only [hseq', List.flatMap_append]

/-- C121 is false of the older data files for xargs that runs the command once for many words, if that is not the same as running
it for one and then the other. -/
theorem C121_xargs_false (inv : CommandInvocationInitial) (hn : inv.cmdName = "xargs") (prog : Programs)
    (words : String → List String) (run : List FlagOptionWithIOVar → List String → List String → Stream)
    (hxa : XargsProgram prog words run) (c : CommandInvocationWithIOVars) (hb : Belongs inv c)
    (hcov : Covered "xargs" c.flagOptionList)
    (hx : ¬ ∃ n ∈ ["--null", "--delimiter", "-E", "-I", "-L", "-n", "-x", "-a"], Has inv n) (l l' a b : String)
    (hl : words l = [a]) (hl' : words l' = [b])
    (hrun : run c.flagOptionList (strOperands c) [a, b] ≠
      run c.flagOptionList (strOperands c) [a] ++ run c.flagOptionList (strOperands c) [b]) :
    OldSays inv .stateless ∧ ¬ LineWise (sequential prog c) := by
  refine ⟨((C110_classes inv .stateless).1 (by simp [hn])).2 rfl, fun h => hrun ?_⟩
  have hx' : ¬ ∃ n ∈ ["--null", "--delimiter", "-E", "-I", "-L", "-n", "-x", "-a"], Given c.flagOptionList n := by
    rintro ⟨n, hm, hh⟩; exact hx ⟨n, hm, (has_iff_given hb n).2 hh⟩
  have hseq : ∀ z : Stream, z.flatMap words ≠ [] → (z.flatMap words).length ≤ 2 →
      sequential prog c z = run c.flagOptionList (strOperands c) (z.flatMap words) := by
    intro z hz hlen
    unfold sequential
    rw [hb.1, hn, hxa.all _ _ _ hcov hx' hlen, if_neg (fun h => hz h.1)]
  have := h [l] [l']
  rw [hseq _ (by simp [hl]) (by simp [hl, hl']), hseq _ (by simp [hl]) (by simp [hl]), hseq _ (by simp [hl']) (by simp [hl'])] at this
  simpa [hl, hl'] using this

/-- C121 is false of the older data files for col, with all options: a vertical tab goes up into the lines before. -/
theorem C121_col_false (inv : CommandInvocationInitial) (hn : inv.cmdName = "col") (prog : ProgramsOn Char) (graphic : Char → Bool)
    (line : List FlagOptionWithIOVar → List (Nat × Char) → Text) (hcol : ColProgram prog graphic line)
    (c : CommandInvocationWithIOVars) (hb : Belongs inv c) (hs : strOperands c = [])
    (ho : ∀ n, Has inv n → n ∈ ["-b", "-f", "-h", "-x"]) :
    OldSays inv .stateless ∧ ¬ LineWiseText (sequential prog c) := by
  refine ⟨((C110_classes inv .stateless).1 (by simp [hn])).2 rfl, fun h => ?_⟩
  have hfl : ∀ o ∈ c.flagOptionList, o.getName ∈ ["-b", "-f", "-h", "-x"] :=
    fun o hm => ho _ ((has_iff_given hb _).2 ⟨o, hm, rfl⟩)
  have hcount : ∀ z : Text, NoEscapes z → z.getLast? = some '\n' →
      (sequential prog c z).count '\n' = (pageOf graphic z).rows := by
    intro z h1 h2
    unfold sequential
    rw [hb.1, hn, hs, hcol.output _ _ hfl h1 (.inr h2)]
    generalize (pageOf graphic z).rows = k
    induction k with
    | zero => rfl
    | succ k ih =>
        rw [List.range_succ, List.flatMap_append, List.count_append, ih]
        simp [List.count_append, List.count_eq_zero.2 (hcol.oneLine _ _)]
  have := congrArg (List.count '\n') (h ['a', '\n'] ['\x0b', 'b', '\n'] (.inr rfl))
  rw [List.count_append, hcount _ (by unfold NoEscapes; decide) rfl, hcount _ (by unfold NoEscapes; decide) rfl,
    hcount _ (by unfold NoEscapes; decide) rfl] at this
  simp [pageOf, Page.write, hcol.letters] at this

theorem numberLines_none {fl : List FlagOptionWithIOVar} (h1 : ¬ Given fl "-b") (h2 : ¬ Given fl "-n") (k : Nat) (x : Stream) :
    numberLines fl k x = x.map fun l => (none, l) := by
  induction x with
  | nil => rfl
  | cons l x ih => simp [numberLines, h1, h2, ih]

theorem numberLines_length (fl : List FlagOptionWithIOVar) (k : Nat) (x : Stream) : (numberLines fl k x).length = x.length := by
  induction x generalizing k with
  | nil => rfl
  | cons l x ih =>
      unfold numberLines
      split <;> simp [ih]

/-- C121 for cat, exactly: it is called stateless if `-n` is not given, and it treats each line by itself exactly if it neither numbers
lines nor squeezes empty ones. The older data file forgets `-b` and `-s`. -/
theorem C121_cat_exact (inv : CommandInvocationInitial) (hn : inv.cmdName = "cat") (prog : Programs)
    (shows : List FlagOptionWithIOVar → Option Nat → String → String) (hcat : CatLines prog shows)
    (c : CommandInvocationWithIOVars) (hb : Belongs inv c) (hs : strOperands c = [])
    (ho : ∀ n, Has inv n → n ∈ ["-A", "-b", "-e", "-E", "-n", "-s", "-t", "-T", "-u", "-v"]) :
    (OldSays inv .stateless ↔ ¬ Has inv "-n") ∧
      (LineWise (sequential prog c) ↔ ¬ ∃ n ∈ ["-n", "-b", "-s"], Has inv n) := by
  constructor
  · rw [oldSays_of (by rw [hn]; rfl), case_cons, case_cons, case_otherwise, given_holds, arguments_holds]
    have : HasAny inv ["-n"] ↔ Has inv "-n" := by simp [HasAny]
    rw [this]
    by_cases h : inv.operandList.length = 0 <;> simp [h]
  have hfl : ∀ o ∈ c.flagOptionList, o.getName ∈ ["-A", "-b", "-e", "-E", "-n", "-s", "-t", "-T", "-u", "-v"] :=
    fun o hm => ho _ ((has_iff_given hb _).2 ⟨o, hm, rfl⟩)
  have hseq : ∀ z : Stream, sequential prog c z = (numberLines c.flagOptionList 1
      (if Given c.flagOptionList "-s" then squeezeBlank z else z)).map fun q => shows c.flagOptionList q.1 q.2 := by
    intro z; unfold sequential; rw [hb.1, hn, hs, hcat.output _ _ hfl]
  simp only [has_iff_given hb]
  constructor
  · intro h hx
    by_cases hsq : Given c.flagOptionList "-s"
    · have := congrArg List.length (h [""] [""])
      rw [List.length_append, hseq, hseq, if_pos hsq, if_pos hsq, List.length_map, List.length_map, numberLines_length,
        numberLines_length] at this
      simp [squeezeBlank] at this
    · have hnum : Given c.flagOptionList "-b" ∨ (¬ Given c.flagOptionList "-b" ∧ Given c.flagOptionList "-n") := by
        obtain ⟨n, hm, hg⟩ := hx
        simp only [List.mem_cons, List.not_mem_nil, or_false] at hm
        rcases hm with rfl | rfl | rfl
        · by_cases hbb : Given c.flagOptionList "-b"
          · exact .inl hbb
          · exact .inr ⟨hbb, hg⟩
        · exact .inl hg
        · exact absurd hg hsq
      have := h ["a"] ["a"]
      rw [hseq, hseq, if_neg hsq, if_neg hsq] at this
      simp [numberLines, hnum] at this
      exact hcat.numbers _ _ _ _ (by omega) this
  · intro h
    have h1 : ∀ n ∈ ["-n", "-b", "-s"], ¬ Given c.flagOptionList n := fun n hm hg => h ⟨n, hm, hg⟩
    intro x y
    simp only [hseq, if_neg (h1 "-s" (by simp)), numberLines_none (h1 "-b" (by simp)) (h1 "-n" (by simp)), List.map_append]

/-- C121 is false of the older data files for `cat -b` and `cat -s`. -/
theorem C121_cat_false (inv : CommandInvocationInitial) (hn : inv.cmdName = "cat") (prog : Programs)
    (shows : List FlagOptionWithIOVar → Option Nat → String → String) (hcat : CatLines prog shows)
    (c : CommandInvocationWithIOVars) (hb : Belongs inv c) (hs : strOperands c = [])
    (ho : ∀ n, Has inv n → n ∈ ["-A", "-b", "-e", "-E", "-n", "-s", "-t", "-T", "-u", "-v"])
    (hx : ¬ Has inv "-n") (hx' : Has inv "-b" ∨ Has inv "-s") :
    OldSays inv .stateless ∧ ¬ LineWise (sequential prog c) := by
  obtain ⟨h1, h2⟩ := C121_cat_exact inv hn prog shows hcat c hb hs ho
  refine ⟨h1.2 hx, fun h => h2.1 h ?_⟩
  rcases hx' with h | h
  · exact ⟨_, by simp, h⟩
  · exact ⟨_, by simp, h⟩

/-! The hypotheses are met. -/

/-- A grep that prints numbers, in strokes, and offsets on lines of their own. -/
def tellingGrep : GrepParameters where
  matching _ strs l := strs.contains l
  print _ _ a b l := [String.ofList (List.replicate (a.getD 0) 'n'), String.ofList (List.replicate (b.getD 0) 'b'), l]
  label := "f"
  separator _ := ["--"]
  number s := s.length

def tellingProgs : Programs := fun n fl strs ins =>
  if n = "cat" then
    (numberLines fl 1 (if Given fl "-s" then squeezeBlank ins.flatten else ins.flatten)).map fun q =>
      String.ofList (List.replicate (q.1.getD 0) 'n' ++ ' ' :: q.2.toList)
  else tellingGrep.grep fl strs ins.flatten

theorem tellingProgs_ok : GrepProgram tellingProgs tellingGrep ∧
    CatLines tellingProgs (fun _ a l => String.ofList (List.replicate (a.getD 0) 'n' ++ ' ' :: l.toList)) := by
  refine ⟨fun fl strs x _ _ => by simp [tellingProgs], ⟨fun fl x _ => by simp [tellingProgs], ?_⟩⟩
  intro _ l a b hne e
  have e := congrArg (fun s => s.toList.length) e
  simp at e
  exact hne e

example : Telling tellingGrep [.flag "-n"] ["a"] "a" "b" where
  succeeds := by decide +kernel
  fails := by decide +kernel
  prints := by simp [tellingGrep]
  beside := by simp [tellingGrep]
  numbers := by
    intro _ _ b b' e
    have e := congrArg (fun s => (s.headD "").toList.length) e
    simp [tellingGrep] at e
  offsets := by
    intro _ _ a a' k hk e
    have e := congrArg (fun s => ((s.drop 1).headD "").toList.length) e
    simp [tellingGrep] at e
    omega

example : ∃ inv, parse "grep -n a f" = .ok inv ∧ Belongs inv (grepSample [.flag "-n"]) ∧
    Covered "grep" (grepSample [.flag "-n"]).flagOptionList ∧ strOperands (grepSample [.flag "-n"]) = ["a"] ∧
    (¬ ∃ n ∈ ["-z", "-c", "-q", "-m", "--max-count"], Has inv n) ∧ Has inv "-n" :=
  ⟨⟨"grep", [.flag "-n"], ["a", "f"]⟩, by decide +kernel, ⟨rfl, rfl⟩, by decide +kernel, rfl, by simp [Has], by simp [Has]⟩

/-- Both sides of the exact condition occur. -/
example : GrepByLines tellingGrep [.flag "-i"] ∧ ¬ GrepByLines tellingGrep [.flag "-n"] := by
  refine ⟨.inr (.inr ⟨by decide +kernel, by decide +kernel, by decide +kernel, by decide +kernel⟩), ?_⟩
  rintro (h | ⟨-, h⟩ | ⟨-, -, h, -⟩)
  · revert h; decide +kernel
  · revert h; decide +kernel
  · exact h ⟨"-n", by simp, by decide +kernel⟩

example : ∃ inv, parse "cut -f 1 f" = .ok inv ∧ Belongs inv cutSample ∧ Covered "cut" cutSample.flagOptionList ∧
    strOperands cutSample = [] ∧ ¬ Has inv "-z" ∧ (argOf cutSample.flagOptionList "-d" = some "\n" → .option "-d" "\n" ∈ inv.flagOptionList) ∧
    OldSays inv .stateless := by
  refine ⟨⟨"cut", [.option "-f" "1"], ["f"]⟩, by decide +kernel, ⟨rfl, rfl⟩, by decide +kernel, rfl, by simp [Has],
    fun h => by revert h; decide +kernel, ?_⟩
  rw [(C110_classes _ .stateless).2.2.2.2.1 (by simp)]
  exact .inr ⟨by simp, rfl⟩

example : ∃ inv, parse "tr -d -s a b" = .ok inv ∧ Belongs inv (trSample ["-d", "-s"] ["a", "b"]) ∧
    Covered "tr" (trSample ["-d", "-s"] ["a", "b"]).flagOptionList ∧
    TrUsage (trSample ["-d", "-s"] ["a", "b"]).flagOptionList (strOperands (trSample ["-d", "-s"] ["a", "b"])) ∧
    Has inv "-d" ∧ Has inv "-s" :=
  ⟨⟨"tr", [.flag "-d", .flag "-s"], ["a", "b"]⟩, by decide +kernel, ⟨rfl, rfl⟩, by decide +kernel, by decide +kernel, by simp [Has],
    by simp [Has]⟩

example : ∃ inv, parse "tr -d a" = .ok inv ∧ Belongs inv (trSample ["-d"] ["a"]) ∧ OldSays inv .stateless ∧
    ¬ (Has inv "-d" ∧ Has inv "-s") := by
  refine ⟨⟨"tr", [.flag "-d"], ["a"]⟩, by decide +kernel, ⟨rfl, rfl⟩, ?_, by simp [Has]⟩
  rw [(C110_classes _ .stateless).2.2.2.2.2.1 (by simp)]
  exact .inl ⟨⟨"-d", by simp, by simp [Has]⟩, rfl⟩

example : ∃ inv, parse "xargs echo" = .ok inv ∧ Belongs inv (xargsSample []) ∧ Covered "xargs" (xargsSample []).flagOptionList ∧
    (¬ ∃ n ∈ ["--null", "--delimiter", "-E", "-I", "-L", "-n", "-x", "-a"], Has inv n) ∧
    [toString ["a", "b"].length] ≠ [toString ["a"].length] ++ [toString ["b"].length] :=
  ⟨⟨"xargs", [], ["echo"]⟩, by decide +kernel, ⟨rfl, rfl⟩, by decide +kernel, by simp [Has], by simp⟩

example : ∃ inv, parse "col -b" = .ok inv ∧ Belongs inv colSample ∧ strOperands colSample = [] ∧
    ∀ n, Has inv n → n ∈ ["-b", "-f", "-h", "-x"] :=
  ⟨⟨"col", [.flag "-b"], []⟩, by decide +kernel, ⟨rfl, rfl⟩, rfl, by simp [Has]⟩

/-- `cat -s f` as a command. -/
def catSqueezeSample : CommandInvocationWithIOVars :=
  ⟨"cat", [.flag "-s"], [.var 1], none, some 2, [(1, .streamInput), (2, .streamOutput)]⟩

example : ∃ inv, parse "cat -s f" = .ok inv ∧ Belongs inv catSqueezeSample ∧ strOperands catSqueezeSample = [] ∧
    (∀ n, Has inv n → n ∈ ["-A", "-b", "-e", "-E", "-n", "-s", "-t", "-T", "-u", "-v"]) ∧ ¬ Has inv "-n" ∧ Has inv "-s" ∧
    sequential tellingProgs catSqueezeSample ["a", "", "", "b"] = [" a", " ", " b"] :=
  ⟨⟨"cat", [.flag "-s"], ["f"]⟩, by decide +kernel, ⟨rfl, rfl⟩, rfl, by simp [Has], by simp [Has], by simp [Has], by decide +kernel⟩

end PashAnn
