import Verif.Props.Plans

/-! C54 for `grep -m`: for which inputs and splits an offered parallelizer is right although it is not for all. -/

namespace PashAnn
open Spec

/-- Selecting at most `n` elements, by position. -/
private theorem chosen_take {α : Type} (m : α → Bool) (f : α → List α) (d : α) (x : List α) (n : Nat) :
    ((List.range x.length).flatMap fun k =>
      if (x[k]?.elim false m && decide (((x.take k).filter m).length < n)) = true then f (x[k]?.getD d) else []) =
      ((x.filter m).take n).flatMap f := by
  induction x generalizing n with
  | nil => simp
  | cons a x ih =>
      rw [List.length_cons, List.range_succ_eq_map, List.flatMap_cons, List.flatMap_map]
      by_cases ha : m a = true
      · cases n with
        | zero => simp
        | succ n =>
            have := ih n
            simp only [List.getElem?_cons_zero, Option.elim_some, ha, List.take_zero, List.filter_nil, List.length_nil,
              Nat.zero_lt_succ, decide_true, Bool.and_self, if_true, Option.getD_some, List.getElem?_cons_succ,
              List.take_succ_cons, List.filter_cons_of_pos, List.length_cons, Nat.add_lt_add_iff_right, List.flatMap_cons]
            rw [this]
      · have := ih n
        simp only [List.getElem?_cons_zero, Option.elim_some, ha, Bool.false_and, Bool.false_eq_true, if_false,
          List.nil_append, List.getElem?_cons_succ, List.take_succ_cons]
        rw [List.filter_cons_of_neg ha, ← this]
        simp only [List.filter_cons_of_neg ha]

/-- `grep -m` without context and line numbers prints the first matching lines. -/
theorem grep_limit (g : GrepParameters) (fl : List FlagOptionWithIOVar) (strs : List String) (n : Nat)
    (hn : g.limit fl = some n)
    (h : ¬ ∃ w ∈ ["-q", "-L", "-l", "-c", "-n", "-b"] ++ contextNames, Given fl w) (x : Stream) :
    g.grep fl strs x = ((x.filter (g.matching fl strs)).take n).flatMap (g.print fl true none none) := by
  have h' : ∀ w, w ∈ ["-q", "-L", "-l", "-c", "-n", "-b"] ++ contextNames → ¬ Given fl w := fun w hw hg => h ⟨w, hw, hg⟩
  have hcx : ¬ ∃ n ∈ contextNames, Given fl n := fun ⟨w, hw, hg⟩ => h' w (List.mem_append_right _ hw) hg
  unfold GrepParameters.grep
  simp only [h' "-q" (by simp), listing_none fl (h' "-l" (by simp)) (h' "-L" (by simp)), h' "-c" (by simp), if_false,
    reduceCtorEq]
  rw [← chosen_take (g.matching fl strs) (g.print fl true none none) "" x n]
  unfold List.flatMap
  congr 1
  refine List.map_congr_left (fun k _ => ?_)
  rw [printed_noContext g fl strs hcx]
  simp only [h' "-n" (by simp), h' "-b" (by simp), if_false, GrepParameters.selected, hn, Option.elim_some]

/-- The first `n` elements of a concatenation are at the start of what is left when each list is cut. -/
private theorem take_flatten_prefix {α : Type} (n : Nat) (l : List (List α)) (m : Nat) (hm : m ≤ n) :
    l.flatten.take m <+: (l.map (List.take n)).flatten := by
  induction l generalizing m with
  | nil => simp
  | cons a l ih =>
      rw [List.flatten_cons, List.map_cons, List.flatten_cons, List.take_append]
      by_cases h : a.length ≤ m
      · rw [List.take_of_length_le (l := a) h, List.take_of_length_le (l := a) (i := n) (by omega)]
        exact (List.prefix_append_right_inj a).2 (ih _ (by omega))
      · rw [show m - a.length = 0 by omega, List.take_zero, List.append_nil]
        exact (List.take_prefix_take_left hm).trans (List.prefix_append _ _)

/-- Cutting each list keeps as much as cutting their concatenation exactly if nothing is kept, nothing is cut, or at most
one list has elements. -/
private theorem cut_length {α : Type} (n : Nat) (l : List (List α)) :
    ((l.map (List.take n)).flatten.length = (l.flatten.take n).length) ↔
      (n = 0 ∨ l.flatten.length ≤ n ∨ (l.filter (fun a => !a.isEmpty)).length ≤ 1) := by
  have hle : ∀ l : List (List α), min n l.flatten.length ≤ (l.map (List.take n)).flatten.length := by
    intro l
    rw [← List.length_take]
    exact (take_flatten_prefix n l n (Nat.le_refl _)).length_le
  have hnil : ∀ l : List (List α), (l.filter (fun a => !a.isEmpty)) = [] → l.flatten = [] := by
    intro l h
    rw [List.flatten_eq_nil_iff]
    intro a ha
    have := List.filter_eq_nil_iff.1 h a ha
    simpa using this
  have hpos : ∀ l : List (List α), 0 < (l.filter (fun a => !a.isEmpty)).length → 0 < l.flatten.length := by
    intro l h
    obtain ⟨a, ha⟩ := List.exists_mem_of_length_pos h
    obtain ⟨ha, hne⟩ := List.mem_filter.1 ha
    have hne : a ≠ [] := by simpa using hne
    have := (List.sublist_flatten_of_mem ha).length_le
    have := List.length_pos_iff.2 hne
    omega
  rw [List.length_take]
  by_cases h0 : n = 0
  · subst h0
    have : (l.map (List.take 0)).flatten = [] := by
      rw [List.flatten_eq_nil_iff]
      intro b hb
      obtain ⟨c, _, rfl⟩ := List.mem_map.1 hb
      rfl
    rw [this]; simp
  simp only [h0, false_or]
  induction l with
  | nil => simp
  | cons a l ih =>
      by_cases ha : a = []
      · subst ha; simpa using ih
      have hal := List.length_pos_iff.2 ha
      have hae : a.isEmpty = false := by simpa using ha
      simp only [List.map_cons, List.flatten_cons, List.length_append, List.length_take, List.filter_cons, hae,
        Bool.not_false, if_true, List.length_cons]
      have h1 := hle l
      by_cases hl : (l.filter (fun a => !a.isEmpty)).length = 0
      · have e := hnil l (List.length_eq_zero_iff.1 hl)
        have e' : (l.map (List.take n)).flatten.length = 0 := by
          rw [List.length_eq_zero_iff, List.flatten_eq_nil_iff]
          intro b hb
          obtain ⟨c, hc, rfl⟩ := List.mem_map.1 hb
          rw [(List.flatten_eq_nil_iff.1 e) c hc]; simp
        rw [e, e', hl]
        simp
      · have h2 := hpos l (by omega)
        constructor
        · intro h
          left
          by_cases hfit : a.length ≤ n
          · by_cases hf : l.flatten.length ≤ n
            · omega
            · omega
          · omega
        · rintro (h | h)
          · have : (l.map (List.take n)).flatten.length ≤ l.flatten.length := by
              clear ih h1 h2 hl h
              induction l with
              | nil => simp
              | cons b l ih => 
                  simp only [List.map_cons, List.flatten_cons, List.length_append, List.length_take]
                  omega
            omega
          · omega

/-- C54 for `-m`, exactly: an offered parallelizer gives the output of grep for an input and a split exactly if the limit
is zero, or no more lines match than the limit allows, or all matching lines are in the same part. -/
theorem C54_limit_exact (inv : CommandInvocationInitial) (hn : inv.cmdName = "grep") (p : Parallelizer)
    (hp : Offered inv p)
    (hx : ¬ ∃ w ∈ ["-A", "--after-context", "-B", "--before-context", "-C", "--context", "-L", "-l", "-c", "-n", "-b", "-z"],
      Has inv w) (prog : Programs) (hcat : CatProgram prog) (g : GrepParameters) (hg : GrepProgram prog g)
    (c : CommandInvocationWithIOVars) (hb : Belongs inv c) (hcov : Covered "grep" c.flagOptionList) (hc : OneStream c)
    (a : String) (hm : argAmong c.flagOptionList ["-m", "--max-count"] = some a)
    (hpr : ∀ l, g.matching c.flagOptionList (strOperands c) l = true → g.print c.flagOptionList true none none l ≠ [])
    (x : Stream) (parts : List Stream) (hs : Split p.splitter x parts) (y : Stream) (h : Executes prog p c parts y) :
    y = sequential prog c x ↔
      (g.number a = 0 ∨ (x.filter (g.matching c.flagOptionList (strOperands c))).length ≤ g.number a ∨
        (parts.filter (fun part => part.any (g.matching c.flagOptionList (strOperands c)))).length ≤ 1) := by
  have hoff : p ∈ bothPlans concatenation ∧ ¬ Has inv "-q" := by
    obtain ⟨i, hi, hcom, h1, h2⟩ := C31_grep_decision inv hn
    obtain ⟨i', hi', hp⟩ := offered_iff.1 hp
    rw [hi] at hi'; cases hi'
    have hp : p ∈ i.parallelizerList := by
      rcases hp with hp | ⟨hc, _⟩
      · exact hp
      · rw [hcom] at hc; cases hc
    by_cases hcond : ¬ Has inv "-q" ∧ ((∃ n ∈ ["-A", "-B", "-C", "-m"], Has inv n) ∨
          ¬ ∃ n ∈ ["-L", "-l", "-c", "-n", "-b"], Has inv n)
    · exact ⟨by rw [h1 hcond] at hp; exact hp, hcond.1⟩
    · rw [h2 hcond] at hp; cases hp
  have hnone : ¬ ∃ w ∈ ["-q", "-L", "-l", "-c", "-n", "-b"] ++ contextNames, Given c.flagOptionList w := by
    rintro ⟨w, hw, hh⟩
    rw [← has_iff_given hb] at hh
    by_cases hq : w = "-q"
    · subst hq; exact hoff.2 hh
    · refine hx ⟨w, ?_, hh⟩
      simp only [contextNames, List.mem_append, List.mem_cons, List.not_mem_nil, or_false, hq, false_or] at hw ⊢
      rcases hw with (hw | hw | hw | hw | hw) | hw | hw | hw | hw | hw | hw <;> simp [hw]
  have hz : ¬ Given c.flagOptionList "-z" := fun hh => hx ⟨"-z", by simp, (has_iff_given hb _).2 hh⟩
  have hlim : g.limit c.flagOptionList = some (g.number a) := by unfold GrepParameters.limit; rw [hm]; rfl
  have hseq : sequential prog c = fun z => ((z.filter (g.matching c.flagOptionList (strOperands c))).take (g.number a)).flatMap
      (g.print c.flagOptionList true none none) := by
    funext z
    unfold sequential
    rw [hb.1, hn, hg _ _ _ hcov hz, grep_limit g _ _ _ hlim hnone]
  have hx' : parts.flatten = x := by
    have := hoff.1
    simp only [bothPlans, List.mem_cons, List.not_mem_nil, or_false] at this
    rcases this with rfl | rfl <;> exact hs
  rw [executes_concatenation hcat hc hoff.1 h, hseq, ← hx']
  generalize hM : g.matching c.flagOptionList (strOperands c) = M at *
  generalize g.number a = n at *
  generalize hP : g.print c.flagOptionList true none none = P at *
  have e1 : (parts.map fun z => ((z.filter M).take n).flatMap P).flatten =
      (((parts.map (List.filter M)).map (List.take n)).flatten).flatMap P := by
    clear hs h hx' 
    induction parts with
    | nil => rfl
    | cons b parts ih => simp only [List.map_cons, List.flatten_cons, List.flatMap_append, ih]
  have e2 : parts.flatten.filter M = (parts.map (List.filter M)).flatten := by rw [List.filter_flatten]
  obtain ⟨r, hr⟩ := take_flatten_prefix n (parts.map (List.filter M)) n (Nat.le_refl _)
  have e3 : (parts.filter (fun part => part.any M)).length =
      ((parts.map (List.filter M)).filter (fun a => !a.isEmpty)).length := by
    rw [List.filter_map, List.length_map]
    congr 1
    apply List.filter_congr
    intro b _
    simp only [Function.comp]
    rw [Bool.eq_iff_iff]
    simp [List.filter_eq_nil_iff]
  rw [e3]
  simp only [e1, e2]
  rw [← cut_length, ← hr, List.flatMap_append, List.length_append]
  constructor
  · intro he
    have : r.flatMap P = [] := List.append_right_eq_self.1 he
    cases r with
    | nil => simp
    | cons b r =>
        rw [List.flatMap_cons] at this
        refine absurd (List.append_eq_nil_iff.1 this).1 (hpr b ?_)
        have hb' : b ∈ ((parts.map (List.filter M)).map (List.take n)).flatten := by rw [← hr]; simp
        obtain ⟨u, hu, hbu⟩ := List.mem_flatten.1 hb'
        obtain ⟨v, hv, rfl⟩ := List.mem_map.1 hu
        obtain ⟨w, _, rfl⟩ := List.mem_map.1 hv
        exact (List.mem_filter.1 (List.mem_of_mem_take hbu)).2
  · intro he
    have : r = [] := List.length_eq_zero_iff.1 (by omega)
    rw [this]; simp

example : ∃ inv p, parse "grep --max-count 1 a f" = .ok inv ∧ Offered inv p ∧
    (¬ ∃ w ∈ ["-A", "--after-context", "-B", "--before-context", "-C", "--context", "-L", "-l", "-c", "-n", "-b", "-z"], Has inv w) ∧
    Belongs inv (grepSample [.optionVar 0 "--max-count" (.str "1")]) ∧
    Covered "grep" (grepSample [.optionVar 0 "--max-count" (.str "1")]).flagOptionList ∧
    argAmong (grepSample [.optionVar 0 "--max-count" (.str "1")]).flagOptionList ["-m", "--max-count"] = some "1" ∧
    (([["a", "b", "a"], ["b"]] : List Stream).filter (fun part => part.any (sampleGrep.matching [] ["a"]))).length ≤ 1 ∧
    ¬ (([["a", "b"], ["a"]] : List Stream).filter (fun part => part.any (sampleGrep.matching [] ["a"]))).length ≤ 1 := by
  refine ⟨⟨"grep", [.option "--max-count" "1"], ["a", "f"]⟩, plan .consecChunks concatenation, by decide +kernel, ?_,
    by simp [Has], ⟨rfl, rfl⟩, by decide +kernel, by decide +kernel, by decide +kernel, by decide +kernel⟩
  exact offered_iff.2 ⟨_, grep_offered rfl (by simp [Has, grepSpecial]), .inl (by simp [bothPlans])⟩

end PashAnn
