import Verif.Props.PlanTextBase
import Verif.Props.ParTable
import Verif.Props.Cli

/-! Property C87: whether the printed text of a plan, and of the script's report, tells which plan it is. -/

namespace PashAnn
open Spec Text

/-- C87 (refuted). The text of a plan does not tell how many extra pipes it needs, nor what the splitter tells the
mapper: plans that differ there print the same text. -/
theorem C87_plans_differ_false (other : FlagOptionWithIOVar → String) (p : Parallelizer) (n : Nat)
    (a : AdditionalInfoSplitterToMapper) :
    parallelizer other { p with infoMapperAggregator := n, infoSplitterMapper := a } = parallelizer other p := by
  delta parallelizer
  simp only

/-- C87 (refuted, for mappers). A mapper whose command is called `None` prints like one that keeps the command. -/
theorem C87_no_name_false (other : FlagOptionWithIOVar → String) :
    ∃ m m' : MapperSpec, m.specMapperCmdName ≠ m'.specMapperCmdName ∧ mapperSpec other m = mapperSpec other m' :=
  ⟨⟨.custom, none, .empty, true⟩, ⟨.custom, some "None", .empty, true⟩, by simp, rfl⟩

/-- C87 (part: names on one line, flags only, no mapper called `None`). Two plans print the same text exactly if they
have the same splitter, the same mapper and the same aggregator. -/
theorem C87_plans_differ_partial (other : FlagOptionWithIOVar → String) (p q : Parallelizer) (hp : PlainPlan p)
    (hq : PlainPlan q) : parallelizer other p = parallelizer other q ↔ ShownAlike p q := by
  constructor
  · intro h
    have e := parallelizer_apart other (shown p) (shown q) [] [] ⟨⟨hp.mapper, hp.aggregator⟩, rfl⟩
      ⟨⟨hq.mapper, hq.aggregator⟩, rfl⟩ (by rw [shown_text, shown_text, h])
    have e := e.1
    simp only [shown, Parallelizer.mk.injEq, and_true] at e
    exact ⟨e.1, e.2.1, e.2.2⟩
  · intro h
    rw [← shown_text, ← shown_text other q, shown, shown, h.splitter, h.mapper, h.aggregator]

theorem threeAttributes_apart {a b c a' b' c' : String} {x y : List Char}
    (h : (attributesText [("parallelizer_list", a), ("round_robin_compatible_with_cat", b), ("is_commutative", c)]).toList ++ x =
      (attributesText [("parallelizer_list", a'), ("round_robin_compatible_with_cat", b'), ("is_commutative", c')]).toList ++ y) :
    ∃ u v u' v' : List Char, a.toList ++ '\n' :: '\t' :: ' ' :: (u ++ (b.toList ++ '\n' :: '\t' :: ' ' :: (v ++ (c.toList ++ '\n' :: x)))) =
      a'.toList ++ '\n' :: '\t' :: ' ' :: (u' ++ (b'.toList ++ '\n' :: '\t' :: ' ' :: (v' ++ (c'.toList ++ '\n' :: y)))) ∧ u = u' ∧ v = v' := by
  refine ⟨"round_robin_compatible_with_cat: ".toList, "is_commutative: ".toList, _, _, ?_, rfl, rfl⟩
  simpa [attributesText, addAttribute] using h

theorem infoIn_eq (path : String) (other : FlagOptionWithIOVar → String) (i : ParallelizabilityInfo) :
    infoIn path other i = classRepr (path ++ "annotation_generation.datatypes.ParallelizabilityInfo.ParallelizabilityInfo")
    [("parallelizer_list", listRepr (i.parallelizerList.map (parallelizer other))),
     ("round_robin_compatible_with_cat", truth i.roundRobinCompatibleWithCat),
     ("is_commutative", truth i.isCommutative)] := by delta infoIn; with_reducible rfl

theorem info_apart {path path' : String} {other : FlagOptionWithIOVar → String} {i j : ParallelizabilityInfo}
    (hp : '\'' ∉ path.toList) (hp' : '\'' ∉ path'.toList)
    (hi : ∀ p ∈ i.parallelizerList, PlainPlan p) (hj : ∀ p ∈ j.parallelizerList, PlainPlan p)
    (h : infoIn path other i = infoIn path' other j) :
    path = path' ∧ i.parallelizerList.map shown = j.parallelizerList.map shown ∧
      i.roundRobinCompatibleWithCat = j.roundRobinCompatibleWithCat ∧ i.isCommutative = j.isCommutative := by
  obtain ⟨l, a, b⟩ := i
  obtain ⟨l', a', b'⟩ := j
  rw [infoIn_eq, infoIn_eq] at h
  have h := congrArg (fun x : String => x.toList ++ []) h
  have hq : ∀ x : String, '\'' ∉ x.toList →
      '\'' ∉ (x ++ "annotation_generation.datatypes.ParallelizabilityInfo.ParallelizabilityInfo").toList := by
    intro x hx
    simp [hx]
  obtain ⟨h0, h⟩ := class_apart (hq _ hp) (hq _ hp') h
  have h0 : path = path' := by
    have := congrArg String.toList h0
    simp only [String.toList_append, List.append_cancel_right_eq] at this
    exact String.toList_inj.mp this
  obtain ⟨u, v, _, _, h, rfl, rfl⟩ := threeAttributes_apart h
  have hm : ∀ l : List Parallelizer, l.map (parallelizer other) = (l.map shown).map (parallelizer other) := by
    intro l
    simp only [List.map_map]
    apply List.map_congr_left
    intro p _
    exact (shown_text other p).symm
  rw [hm l, hm l'] at h
  obtain ⟨h1, h⟩ := started_apart (parallelizer_apart other) (parallelizer_started other) (l.map shown) (l'.map shown) _ _
    (by
      intro p m
      obtain ⟨q, hq, rfl⟩ := List.mem_map.1 m
      exact ⟨⟨(hi q hq).mapper, (hi q hq).aggregator⟩, rfl⟩)
    (by
      intro p m
      obtain ⟨q, hq, rfl⟩ := List.mem_map.1 m
      exact ⟨⟨(hj q hq).mapper, (hj q hq).aggregator⟩, rfl⟩) h
  simp at h
  obtain ⟨h2, h⟩ := name_inj (truth_line a) (truth_line a') h
  simp at h
  exact ⟨h0, h1, truth_inj h2, truth_inj (String.toList_inj.mp h)⟩

/-- C87 (part: plain plans). The text of the information about a command tells the flags, how many plans there are,
and of each its splitter, mapper and aggregator. -/
theorem C87_infos_differ_partial (other : FlagOptionWithIOVar → String) (i j : ParallelizabilityInfo)
    (hi : ∀ p ∈ i.parallelizerList, PlainPlan p) (hj : ∀ p ∈ j.parallelizerList, PlainPlan p)
    (h : info other i = info other j) :
    i.roundRobinCompatibleWithCat = j.roundRobinCompatibleWithCat ∧ i.isCommutative = j.isCommutative ∧
      i.parallelizerList.length = j.parallelizerList.length ∧
      ∀ (k : Nat) (p q : Parallelizer), i.parallelizerList[k]? = some p → j.parallelizerList[k]? = some q →
        ShownAlike p q := by
  delta info at h
  obtain ⟨-, h1, h2, h3⟩ := info_apart (by decide +kernel) (by decide +kernel) hi hj h
  refine ⟨h2, h3, by simpa using congrArg List.length h1, ?_⟩
  intro k p q hp hq
  have := congrArg (·[k]?) h1
  simp only [List.getElem?_map, hp, hq, Option.map_some, Option.some.injEq, shown, Parallelizer.mk.injEq, and_true] at this
  exact ⟨this.1, this.2.1, this.2.2⟩

/-- The plans of the library are plain, and what is not shown of them follows from the mapper. -/
def UsualPlan (p : Parallelizer) : Prop :=
  PlainPlan p ∧ p.infoSplitterMapper = .noAddInput ∧
    p.infoMapperAggregator = if p.coreMapperSpec.specMapperCmdName = some "bigram_aux_map" then 2 else 0

theorem ordinary_plan (s : Splitter) (a : AggregatorSpec) (h : PlainAggregator a) : UsualPlan (plan s a) :=
  ⟨⟨⟨by simp [plan, sameCommand], .seq⟩, h⟩, rfl, rfl⟩

theorem ordinary_both (a : AggregatorSpec) (h : PlainAggregator a) : ∀ p ∈ bothPlans a, UsualPlan p := by
  intro p m
  simp only [bothPlans, List.mem_cons, List.not_mem_nil, or_false] at m
  rcases m with rfl | rfl <;> exact ordinary_plan _ _ h

theorem ordinary_one (q : Parallelizer) (h : UsualPlan q) : ∀ p ∈ [q], UsualPlan p := by
  intro p m
  simp only [List.mem_cons, List.not_mem_nil, or_false] at m
  rw [m]; exact h

theorem offers_ordinary {inv : CommandInvocationInitial} {l : List Parallelizer} {b : Bool} (h : Offers inv l b) :
    ∀ p ∈ l, UsualPlan p := by
  cases h with
  | conc => exact ordinary_both _ trivial
  | setDiff => exact ordinary_one _ (ordinary_plan _ _ trivial)
  | test => exact ordinary_one _ (ordinary_plan _ _ (by unfold PlainAggregator OneLine; decide +kernel))
  | altBigrams =>
      refine ordinary_one _ ⟨⟨⟨?_, .custom (by simp [FlagsOnOneLine])⟩, ?_⟩, rfl, rfl⟩
      · intro n h; cases h; exact ⟨by unfold OneLine; decide +kernel, by decide⟩
      · show OneLine _; unfold OneLine; decide +kernel
  | bigrams =>
      refine ordinary_one _ ⟨⟨⟨?_, .custom (by simp [FlagsOnOneLine])⟩, ?_⟩, rfl, rfl⟩
      · intro n h; cases h; exact ⟨by unfold OneLine; decide +kernel, by decide⟩
      · show OneLine _; unfold OneLine; decide +kernel
  | sort =>
      refine ordinary_one _ (ordinary_plan _ _ ?_)
      refine .chain ?_
      intro t m
      simp only [List.mem_cons, List.not_mem_nil, or_false] at m
      rcases m with rfl | rfl
      · exact .filter _
      · refine .add ?_
        intro x m
        simp only [List.mem_cons, List.not_mem_nil, or_false] at m
        exact ⟨"-m", m, by unfold OneLine; decide +kernel⟩
  | grep => exact ordinary_both _ trivial
  | sed => exact ordinary_both _ trivial
  | tr => exact ordinary_both _ trivial
  | trSets => exact ordinary_both _ trivial
  | trDelete => exact ordinary_both _ trivial
  | trSqueeze => exact ordinary_both _ (by unfold PlainAggregator OneLine; decide +kernel)
  | uniq => exact ordinary_both _ trivial
  | uniqCount => exact ordinary_both _ (by unfold PlainAggregator OneLine; decide +kernel)
  | sortStop => simp
  | grepStop => simp
  | sedStop => simp
  | uniqStop => simp

theorem ordinary_shown {p q : Parallelizer} (hp : UsualPlan p) (hq : UsualPlan q) (h : shown p = shown q) : p = q := by
  obtain ⟨s, m, a, i, n⟩ := p
  obtain ⟨s', m', a', i', n'⟩ := q
  obtain ⟨-, hp1, hp2⟩ := hp
  obtain ⟨-, hq1, hq2⟩ := hq
  simp only [shown, Parallelizer.mk.injEq, and_true] at h hp1 hp2 hq1 hq2
  obtain ⟨rfl, rfl, rfl⟩ := h
  rw [hp1, hq1, hp2, hq2]

theorem map_shown_inj : ∀ (l l' : List Parallelizer), (∀ p ∈ l, UsualPlan p) → (∀ p ∈ l', UsualPlan p) →
    l.map shown = l'.map shown → l = l' := by
  intro l
  induction l with
  | nil => intro l' _ _ h; cases l' with
      | nil => rfl
      | cons => simp at h
  | cons x xs ih =>
      intro l' hl hl' h
      cases l' with
      | nil => simp at h
      | cons y ys =>
          simp only [List.map_cons, List.cons.injEq] at h
          rw [ordinary_shown (hl x (by simp)) (hl' y (by simp)) h.1,
            ih ys (fun p m => hl p (List.mem_cons_of_mem _ m)) (fun p m => hl' p (List.mem_cons_of_mem _ m)) h.2]

theorem paraText_none (other : FlagOptionWithIOVar → String) : Cli.paraText other none = infoIn "" other {} := by
  delta Cli.paraText; with_reducible rfl

theorem paraText_some (other : FlagOptionWithIOVar → String) (i : ParallelizabilityInfo) :
    Cli.paraText other (some i) = infoIn "pash_annotations." other i := by
  delta Cli.paraText info; with_reducible rfl

open Cli in
/-- C87. Among the annotated commands nothing is lost: if the script shows the same about parallelizability for two
commands, the library says the same about them, and a command without information is never shown like one with. -/
theorem C87_commands (other : FlagOptionWithIOVar → String) (c d : CommandInvocationInitial)
    (h : paraText other (getParallelizabilityInfo c) = paraText other (getParallelizabilityInfo d)) :
    getParallelizabilityInfo c = getParallelizabilityInfo d := by
  have ord : ∀ e i, getParallelizabilityInfo e = some i → ∀ p ∈ i.parallelizerList, UsualPlan p := by
    intro e i he
    obtain ⟨l, b, ho, hl, -⟩ := (C64_table e i).1 he
    rw [hl]
    exact offers_ordinary ho
  cases hc : getParallelizabilityInfo c with
  | none =>
      cases hd : getParallelizabilityInfo d with
      | none => rfl
      | some j =>
          rw [hc, hd, paraText_none, paraText_some] at h
          have := (info_apart (by decide) (by decide +kernel) (by simp) (fun p m => (ord d j hd p m).1) h).1
          exact absurd this (by decide +kernel)
  | some i =>
      cases hd : getParallelizabilityInfo d with
      | none =>
          rw [hc, hd, paraText_none, paraText_some] at h
          have := (info_apart (by decide +kernel) (by decide) (fun p m => (ord c i hc p m).1) (by simp) h).1
          exact absurd this (by decide +kernel)
      | some j =>
          rw [hc, hd, paraText_some, paraText_some] at h
          obtain ⟨-, h1, h2, h3⟩ := info_apart (by decide +kernel) (by decide +kernel) (fun p m => (ord c i hc p m).1)
            (fun p m => (ord d j hd p m).1) h
          have := map_shown_inj _ _ (ord c i hc) (ord d j hd) h1
          obtain ⟨l, a, b⟩ := i
          obtain ⟨l', a', b'⟩ := j
          simp only at this h2 h3
          rw [this, h2, h3]

/-- The conditions of C87 are met by the plans of the library, and the texts of two such plans differ. -/
example (other : FlagOptionWithIOVar → String) : PlainPlan (plan .consecChunks mergeSorted) ∧
    PlainPlan (plan .consecChunks concatenation) ∧
    parallelizer other (plan .consecChunks mergeSorted) ≠ parallelizer other (plan .consecChunks concatenation) := by
  have h1 : PlainPlan (plan .consecChunks mergeSorted) :=
    (offers_ordinary (inv := ⟨"sort", [], []⟩) (Offers.sort (by simp) (by simp [HasAny, Has, sortStops])) _
      (by simp)).1
  have h2 : PlainPlan (plan .consecChunks concatenation) := (ordinary_plan .consecChunks concatenation trivial).1
  refine ⟨h1, h2, fun h => ?_⟩
  have := ((C87_plans_differ_partial other _ _ h1 h2).1 h).aggregator
  simp [plan, mergeSorted, concatenation] at this

theorem commas_line (l : List String) (h : ∀ x ∈ l, OneLine x) : OneLine (commas l) := by
  induction l with
  | nil => simp [OneLine, commas]
  | cons x xs ih =>
      have hx := h x (by simp)
      have hxs := ih (fun y m => h y (List.mem_cons_of_mem _ m))
      unfold OneLine at *
      rw [commas_cons]
      split
      · exact hx
      · simp [hx, hxs]

theorem initial_apart : TellsApart initial PlainInvocation := by
  intro c d r s hc hd h
  obtain ⟨cn, cf, co⟩ := c
  obtain ⟨dn, df, dop⟩ := d
  simp [initial, standardRepr, addAttribute] at h
  obtain ⟨h1, h⟩ := name_inj hc.command hd.command h
  simp at h
  obtain ⟨h3, h⟩ := list_apart flagOption_apart flagOption_bracketed cf df _ _ hc.flagsAndOptions hd.flagsAndOptions h
  simp [listRepr] at h
  have hl := commas_line co fun x m => (hc.operands x m).1
  have hl' := commas_line dop fun x m => (hd.operands x m).1
  have h : ((commas co).toList ++ [']']) ++ '\n' :: r = ((commas dop).toList ++ [']']) ++ '\n' :: s := by simpa using h
  obtain ⟨h4, h5⟩ := line_inj (by simpa [OneLine] using hl) (by simpa [OneLine] using hl') h
  have := commas_inj co dop (fun x m => (hc.operands x m).2) (fun x m => (hd.operands x m).2) hc.notEmpty hd.notEmpty
    (String.toList_inj.mp (by simpa using h4))
  simp at h1
  rw [h1, h3, this]
  exact ⟨rfl, h5⟩

open Cli in
/-- C87 (part: all words on one line, no word with a comma and a space, not just one empty operand). If the script
prints the same report for two commands except for the first lines, which repeat the command, then both were parsed
alike, so the library says the same about them. -/
theorem C87_reports_partial (other : FlagOptionWithIOVar → String) (command command' : String) (q r : Report)
    (hq : report command = .ok q) (hr : report command' = .ok r)
    (nq : PlainInvocation q.parsed) (nr : PlainInvocation r.parsed)
    (h : bodyText other q = bodyText other r) : ∃ c, parse command = .ok c ∧ parse command' = .ok c := by
  have back : ∀ cmd (x : Report), report cmd = .ok x → parse cmd = .ok x.parsed := by
    intro cmd x hx
    unfold report at hx
    cases hp : parse cmd with
    | error e => rw [hp] at hx; cases hx
    | ok c =>
        rw [hp] at hx
        cases hi : ioReport c with
        | error e => simp only [bind, Except.bind, hi] at hx; cases hx
        | ok io => simp only [bind, Except.bind, hi] at hx; cases hx; rfl
  delta bodyText at h
  have h := congrArg String.toList h
  simp only [String.toList_append, List.append_assoc, List.append_cancel_left_eq] at h
  obtain ⟨e, -⟩ := initial_apart _ _ _ _ nq nr h
  exact ⟨_, back _ _ hq, e ▸ back _ _ hr⟩

open Cli in
/-- The conditions are met: the long and the short spelling of an option give the same body. -/
example : ∃ q r, report "sort --reverse -k 2 f" = .ok q ∧ report "sort -r -k 2 f" = .ok r ∧ PlainInvocation q.parsed ∧
    PlainInvocation r.parsed ∧ ∀ other, bodyText other q = bodyText other r := by
  have h : ∀ s, parse s = .ok ⟨"sort", [.flag "-r", .option "-k" "2"], ["f"]⟩ → ∃ q, report s = .ok q ∧
      q = { command := s, parsed := ⟨"sort", [.flag "-r", .option "-k" "2"], ["f"]⟩, io := q.io, para := q.para } ∧
      ioReport ⟨"sort", [.flag "-r", .option "-k" "2"], ["f"]⟩ = .ok q.io := by
    intro s hs
    obtain ⟨io, hio, -⟩ := ioReport_right ⟨"sort", [.flag "-r", .option "-k" "2"], ["f"]⟩
    refine ⟨⟨s, _, io, (getParallelizabilityInfo ⟨"sort", [.flag "-r", .option "-k" "2"], ["f"]⟩).getD {}⟩, ?_, rfl, hio⟩
    unfold report
    rw [hs]
    simp only [bind, Except.bind, hio]
  obtain ⟨q, hq, eq, iq⟩ := h "sort --reverse -k 2 f" (by decide +kernel)
  obtain ⟨r, hr, er, ir⟩ := h "sort -r -k 2 f" (by decide +kernel)
  have plain : PlainInvocation ⟨"sort", [.flag "-r", .option "-k" "2"], ["f"]⟩ := by
    refine ⟨?_, ?_, ?_, ?_⟩ <;> simp [OneLine, OneLineFlag, NoSeparator]
    simp [List.infix_cons_iff]
  refine ⟨q, r, hq, hr, by rw [eq]; exact plain, by rw [er]; exact plain, fun other => ?_⟩
  rw [iq] at ir
  have e := Except.ok.inj ir
  rw [eq, er, e]
  delta bodyText
  simp only

end PashAnn
