import Verif.Props.AuxPlans
import Verif.Props.Paths
import Verif.Props.IOTable

/-! Property C104: what the plans need whose programs are not standard ones. -/

namespace PashAnn
open Spec

/-- A plan with a tree of aggregators that compute `g`, and mappers that compute `f`. -/
theorem tree_exact {α : Type} {prog : ProgramsOn α} {p : Parallelizer} {c : CommandInvocationWithIOVars} {f : List α → List α}
    {g : List α → List α → List α} (hk : p.coreAggregatorSpec.kind = .custom2Ary)
    (hmap : ∀ part out, MapperRun prog p c part out ↔ out = f part)
    (hagg : ∀ x y o, Unused c x → Unused c y → (x ≠ y ∧ o ≠ x ∧ o ≠ y) → ∃ agg, p.getActualAggregator c [x, y] o = .ok (some agg) ∧
      ∀ env, output prog env agg.cmd = g (env x) (env y)) :
    ((∀ a b, g (f a) (f b) = f (a ++ b)) → ∀ parts y, Executes prog p c parts y → y = f parts.flatten) ∧
    (∀ a b, Executes prog p c [a, b] (g (f a) (f b))) ∧ ∀ parts, parts ≠ [] → ∃ y, Executes prog p c parts y := by
  have node : ∀ {l r a b}, Joined prog p c l a → Joined prog p c r b → Joined prog p c (l ++ r) (g a b) := by
    intro l r a b hl hr
    obtain ⟨x, hx, _⟩ := exists_unused c []
    obtain ⟨y, hy, hyx⟩ := exists_unused c [x]
    obtain ⟨o, ho, hoxy⟩ := exists_unused c [x, y]
    simp only [List.mem_cons, List.not_mem_nil, or_false, not_or] at hyx hoxy
    have hxy : x ≠ y ∧ o ≠ x ∧ o ≠ y := ⟨fun h => hyx h.symm, hoxy⟩
    obtain ⟨agg, ha, hout⟩ := hagg x y o hx hy hxy
    have := Joined.node (env := fun v => if v = x then a else b) hl hr hx hy ho hxy ha (by simp) (by simp [hyx])
    rw [hout] at this
    simpa [hyx] using this
  refine ⟨?_, ?_, ?_⟩
  · rintro hom parts y ⟨runs, rfl, hr, hrec⟩
    have hj : Joined prog p c (runs.map Prod.snd) y := by
      generalize runs.map Prod.snd = outs at hrec
      cases hrec with
      | concatenate hk' _ _ => rw [hk] at hk'; cases hk'
      | tree _ h => exact h
      | adjacent hk' _ => rw [hk] at hk'; cases hk'
    generalize hq : runs.map Prod.snd = outs at hj
    clear hrec
    induction hj generalizing runs with
    | leaf s =>
        obtain ⟨r, rfl⟩ : ∃ r, runs = [r] := List.length_eq_one_iff.1 (by rw [← List.length_map (f := Prod.snd), hq]; rfl)
        cases hq
        simpa using (hmap _ _).1 (hr r (by simp))
    | @node l r a b x y o agg env hl hr' hx hy ho hxy h ha hb ihl ihr =>
        obtain ⟨runs₁, runs₂, rfl, q1, q2⟩ := List.map_eq_append_iff.1 hq
        obtain ⟨agg', ha', hout⟩ := hagg x y o hx hy hxy
        rw [h] at ha'
        cases ha'
        rw [hout, ha, hb, ihl runs₁ (fun r h => hr r (by simp [h])) q1, ihr runs₂ (fun r h => hr r (by simp [h])) q2, hom,
          List.map_append, List.flatten_append]
  · intro a b
    refine ⟨[(a, f a), (b, f b)], rfl, ?_, .tree hk (node (.leaf _) (.leaf _))⟩
    intro r hr
    simp only [List.mem_cons, List.not_mem_nil, or_false] at hr
    rcases hr with rfl | rfl <;> exact (hmap _ _).2 rfl
  · intro parts hne
    have hj : ∀ outs : List (List α), outs ≠ [] → ∃ y, Joined prog p c outs y := by
      intro outs
      induction outs with
      | nil => intro h; exact absurd rfl h
      | cons a l ih =>
          intro _
          by_cases hl : l = []
          · subst hl; exact ⟨a, .leaf a⟩
          · obtain ⟨b, hb⟩ := ih hl
            exact ⟨_, node (.leaf a) hb⟩
    obtain ⟨y, hy⟩ := hj (parts.map f) (by simpa using hne)
    refine ⟨y, parts.map fun x => (x, f x), by simp [Function.comp_def], ?_, .tree hk (by rw [List.map_map]; exact hy)⟩
    intro r hr
    obtain ⟨x, _, rfl⟩ := List.mem_map.1 hr
    exact (hmap _ _).2 rfl

/-- What is offered for `alt_bigrams_aux`. -/
def altPlan : Parallelizer :=
  ⟨.consecChunks, ⟨.custom, some "alt_bigrams_aux", .custom [], true⟩, .funcString .custom2Ary "alt_bigram_aux_reduce" true,
    .noAddInput, 0⟩

theorem offered_alt {inv : CommandInvocationInitial} (hn : inv.cmdName = "alt_bigrams_aux") (p : Parallelizer) :
    Offered inv p ↔ p = altPlan := by
  have hi : getParallelizabilityInfo inv = some (offers [altPlan]) :=
    (getPar_gen hn (show ("alt_bigrams_aux", ParGen.altBigramsAux) ∈ parTable by simp [parTable]) _).2 (par_altBigramsAux inv)
  rw [offered_iff]
  constructor
  · rintro ⟨i, h, hp⟩
    rw [hi] at h; cases h
    rcases hp with hp | ⟨hp, _⟩
    · simpa using hp
    · cases hp
  · rintro rfl
    exact ⟨_, hi, .inl (by simp)⟩

/-- C104. `alt_bigrams_aux`: executing the offered plan is right for all splits exactly if the aggregator's program computes
the output for a concatenation from the outputs for its parts. -/
theorem C104_alt_bigrams_exact {α : Type} (inv : CommandInvocationInitial) (hn : inv.cmdName = "alt_bigrams_aux") (prog : ProgramsOn α)
    (c : CommandInvocationWithIOVars) (hb : Belongs inv c) (hf : c.flagOptionList = []) (hc : OneStream c) :
    (∃ p, Offered inv p) ∧ ∀ p, Offered inv p →
      ((∀ x parts y, Split p.splitter x parts → Executes prog p c parts y → y = sequential prog c x) ↔
        ∀ a b, prog "alt_bigram_aux_reduce" [] [] [sequential prog c a, sequential prog c b] = sequential prog c (a ++ b)) := by
  refine ⟨⟨altPlan, (offered_alt hn _).2 rfl⟩, ?_⟩
  intro p hp
  rw [(offered_alt hn p).1 hp]
  have hinit : altPlan.coreMapperSpec.initialMapper c = c := by
    obtain ⟨n, fl, ops, i, o, m⟩ := c
    simp only at hf
    subst hf
    have : n = "alt_bigrams_aux" := hb.1.trans hn
    subst this
    rfl
  have hsame : ∀ i o, altPlan.getActualMapper c i o [] = (plan .consecChunks concatenation).getActualMapper c i o [] := by
    intro i o
    unfold Parallelizer.getActualMapper MapperSpec.getMapper
    rw [hinit]
    rfl
  have hmap : ∀ part out, MapperRun prog altPlan c part out ↔ out = sequential prog c part := by
    intro part out
    have e : MapperRun prog altPlan c part out ↔ MapperRun prog (plan .consecChunks concatenation) c part out := by
      unfold MapperRun
      simp only [hsame]
    rw [e]
    constructor
    · exact mapperRun_eq hc rfl rfl
    · rintro rfl
      exact mapperRun_exists prog hc rfl rfl part
  obtain ⟨h1, h2, _⟩ := tree_exact (prog := prog) (p := altPlan) (c := c) (f := sequential prog c)
    (g := fun a b => prog "alt_bigram_aux_reduce" [] [] [a, b]) rfl hmap (by
      intro x y o _ _ hxy
      have hpar : parse "alt_bigram_aux_reduce" = .ok ⟨"alt_bigram_aux_reduce", [], []⟩ := by decide +kernel
      refine ⟨_, by
        unfold Parallelizer.getActualAggregator AggregatorSpec.getAggregator
        simp only [altPlan, hpar, onlyFlags, bind, Except.bind, Bool.not_true, Bool.false_eq_true, if_false, pyAssert, List.length_cons,
          List.length_nil, decide_true, if_true]
        rfl, ?_⟩
      intro env
      unfold output
      show prog "alt_bigram_aux_reduce" [] [] ((withAccess _ .streamInput).map env) = _
      have hacc := accessOf_ofKeys "alt_bigram_aux_reduce" [] [.var x, .var y] none (some o) [x, y] .streamInput o .streamOutput
      have hw : withAccess (⟨"alt_bigram_aux_reduce", [], [.var x, .var y], none, some o,
          (AccessMap.ofKeys [x, y] .streamInput).set o .streamOutput⟩ : CommandInvocationWithIOVars) .streamInput = [x, y] := by
        unfold withAccess
        have : occurrences (⟨"alt_bigram_aux_reduce", [], [.var x, .var y], none, some o,
          (AccessMap.ofKeys [x, y] .streamInput).set o .streamOutput⟩ : CommandInvocationWithIOVars) = [x, y, o] := by
          unfold occurrences
          simp only [List.flatMap_cons, varOf_var, List.flatMap_nil]; rfl
        rw [this]
        simp [hacc, hxy.2.1.symm, hxy.2.2.symm]
      exact congrArg (fun l => prog "alt_bigram_aux_reduce" [] [] (List.map env l)) hw)
  constructor
  · intro h a b
    exact h (a ++ b) [a, b] _ (by simp [altPlan, Split]) (h2 a b)
  · intro hom x parts y hs h
    have hs : parts.flatten = x := hs
    rw [h1 hom parts y h, hs]

/-- A command of that kind. -/
def altSample : CommandInvocationWithIOVars :=
  ⟨"alt_bigrams_aux", [], [], some 0, some 1, [(0, .streamInput), (1, .streamOutput)]⟩

theorem altSample_oneStream : OneStream altSample := by
  refine ⟨?_, by decide +kernel, ⟨0, by decide +kernel⟩, ⟨1, by decide +kernel, rfl⟩, by simp [altSample], ?_⟩
  · intro v hv
    have : v ∈ [(0 : IOVar), 1] := hv
    simp only [List.mem_cons, List.not_mem_nil, or_false] at this
    rcases this with rfl | rfl <;> decide +kernel
  · intro i hi; cases hi; decide +kernel

/-- A program and a reducer for which the plan is right: the number of lines as so many ticks. -/
example : ∃ inv, parse "alt_bigrams_aux" = .ok inv ∧ inv.cmdName = "alt_bigrams_aux" ∧ Belongs inv altSample ∧ OneStream altSample ∧
    ∃ prog : Programs, (∀ a b, prog "alt_bigram_aux_reduce" [] [] [sequential prog altSample a, sequential prog altSample b] =
      sequential prog altSample (a ++ b)) ∧ sequential prog altSample ["x", "y"] = ["tick", "tick"] := by
  refine ⟨⟨"alt_bigrams_aux", [], []⟩, by decide +kernel, rfl, ⟨rfl, rfl⟩, altSample_oneStream,
    fun n _ _ ins => if n = "alt_bigrams_aux" then ins.flatten.map fun _ => "tick" else ins.flatten, ?_, by decide +kernel⟩
  intro a b
  simp [sequential, altSample]

/-- C104. A single line has no pairs of adjacent lines. So if `alt_bigrams_aux` gives the pairs of adjacent lines, as its name
says, then the plan is wrong whatever program the aggregator is: the two lines where the parts meet cannot be recovered. -/
theorem C104_alt_bigrams_false (inv : CommandInvocationInitial) (hn : inv.cmdName = "alt_bigrams_aux") (prog : Programs)
    (c : CommandInvocationWithIOVars) (hb : Belongs inv c) (hf : c.flagOptionList = []) (hc : OneStream c)
    (pair : String → String → String) (hpair : ∃ a b d, pair a d ≠ pair b d)
    (hbig : ∀ x, sequential prog c x = x.zipWith pair x.tail) :
    ∃ p x parts y, Offered inv p ∧ Split p.splitter x parts ∧ Executes prog p c parts y ∧ y ≠ sequential prog c x := by
  obtain ⟨⟨p, hp⟩, h⟩ := C104_alt_bigrams_exact inv hn prog c hb hf hc
  by_cases hall : ∀ x parts y, Split p.splitter x parts → Executes prog p c parts y → y = sequential prog c x
  · have hom := (h p hp).1 hall
    obtain ⟨a, b, d, hne⟩ := hpair
    have h1 := hom [a] [d]
    have h2 := hom [b] [d]
    simp only [hbig, List.tail_cons, List.zipWith_nil_right, List.cons_append, List.nil_append, List.zipWith_cons_cons] at h1 h2
    rw [h1] at h2
    simp at h2
    exact absurd h2 hne
  · simp only [Classical.not_forall] at hall
    obtain ⟨x, parts, y, hs, he, hne⟩ := hall
    exact ⟨p, x, parts, y, hp, hs, he, hne⟩

example : ∃ prog : Programs, ∀ x, sequential prog altSample x = x.zipWith (fun a b => a ++ " " ++ b) x.tail :=
  ⟨fun _ _ _ ins => ins.flatten.zipWith (fun a b => a ++ " " ++ b) ins.flatten.tail, by
    intro x; simp [sequential]⟩

/-! Sorting with a program that need not sort. -/

/-- If the output on a concatenation is determined by the outputs, and does not depend on the order of the two, then it does not
depend on the order of the lines. -/
theorem perm_invariant {α : Type} {f : List α → List α} {g : List α → List α → List α} (hom : ∀ a b, g (f a) (f b) = f (a ++ b))
    (hswap : ∀ a b, f (a ++ b) = f (b ++ a)) {x y : List α} (h : x.Perm y) : f x = f y := by
  induction h with
  | nil => rfl
  | cons a _ ih =>
      have e : ∀ l, g (f [a]) (f l) = f (a :: l) := fun l => hom [a] l
      rw [← e, ih, e]
  | swap a b l =>
      have e : ∀ u v, f (u :: v :: l) = g (f [u, v]) (f l) := fun u v => (hom [u, v] l).symm
      rw [e, e, show f [b, a] = f [a, b] from hswap [b] [a]]
  | trans _ _ ih1 ih2 => exact ih1.trans ih2

/-- C104. `custom_sort`, and `sort`: executing the plan for consecutive parts is right for all splits exactly if the program run
with the ordering flags and `-m` computes the output for a concatenation from the outputs; executing the round-robin plan is right
for all splits exactly if, besides, the output does not depend on the order of the lines. -/
theorem C104_sort_exact (inv : CommandInvocationInitial) (hn : inv.cmdName = "sort" ∨ inv.cmdName = "custom_sort")
    (p : Parallelizer) (hp : Offered inv p) (prog : Programs) (c : CommandInvocationWithIOVars) (hc : OneStream c) :
    (∀ x parts y, Split p.splitter x parts → Executes prog p c parts y → y = sequential prog c x) ↔
      (∀ a b, prog c.cmdName (c.flagOptionList.filter (fun x => x.getName ∈ orderingNames) ++ [.flag "-m"]) []
        [sequential prog c a, sequential prog c b] = sequential prog c (a ++ b)) ∧
      (p.splitter = .roundRobinUnwrapFlag → ∀ x y, x.Perm y → sequential prog c x = sequential prog c y) := by
  have main : ∀ s, p = plan s sortMerge →
      ((∀ a b, prog c.cmdName (mergeOf c.flagOptionList) [] [sequential prog c a, sequential prog c b] = sequential prog c (a ++ b)) →
        ∀ parts y, Executes prog p c parts y → y = sequential prog c parts.flatten) ∧
      (∀ a b, Executes prog p c [a, b] (prog c.cmdName (mergeOf c.flagOptionList) [] [sequential prog c a, sequential prog c b])) := by
    rintro s rfl
    obtain ⟨h1, h2, _⟩ := tree_exact (prog := prog) (p := plan s sortMerge) (c := c) (f := sequential prog c)
      (g := fun a b => prog c.cmdName (mergeOf c.flagOptionList) [] [a, b]) rfl
      (fun part out => ⟨mapperRun_eq hc rfl rfl, by rintro rfl; exact mapperRun_exists prog hc rfl rfl part⟩)
      (fun x y o hx hy hxy => sort_aggregator prog rfl hc hx hy hxy)
    exact ⟨h1, h2⟩
  show _ ↔ (∀ a b, prog c.cmdName (mergeOf c.flagOptionList) [] _ = _) ∧ _
  rcases (sort_offered hn hp).2 with rfl | rfl
  · obtain ⟨h1, h2⟩ := main _ rfl
    constructor
    · intro h
      refine ⟨fun a b => h (a ++ b) [a, b] _ (by simp [plan, Split]) (h2 a b), by intro hs; cases hs⟩
    · rintro ⟨hom, _⟩ x parts y hs h
      have hs : parts.flatten = x := hs
      rw [h1 hom parts y h, hs]
  · obtain ⟨h1, h2⟩ := main _ rfl
    constructor
    · intro h
      have d1 : ∀ a b : Stream, Dealt (a ++ b) [a, b] := by
        intro a b
        have h0 : Dealt ([] : Stream) ([] ++ [] :: [[]]) := Dealt.start 2
        have h1 : Dealt ([] ++ a) ([a] ++ [] :: []) := Dealt.block (block := a) h0
        exact Dealt.block (block := b) h1
      have d2 : ∀ a b : Stream, Dealt (b ++ a) [a, b] := by
        intro a b
        have h0 : Dealt ([] : Stream) ([[]] ++ [] :: []) := Dealt.start 2
        have h1 : Dealt ([] ++ b) ([] ++ [] :: [b]) := Dealt.block (block := b) h0
        exact Dealt.block (block := a) h1
      have hom := fun a b => h (a ++ b) [a, b] _ (d1 a b) (h2 a b)
      have hswap := fun a b => (hom a b).symm.trans (h (b ++ a) [a, b] _ (d2 a b) (h2 a b))
      exact ⟨hom, fun _ x y hxy => perm_invariant (g := fun a b => prog c.cmdName (mergeOf c.flagOptionList) [] [a, b]) hom hswap hxy⟩
    · rintro ⟨hom, hperm⟩ x parts y hs h
      rw [h1 hom parts y h, hperm rfl _ _ (dealt_perm hs)]

/-- A command of that kind. -/
def customSortSample : CommandInvocationWithIOVars := { altSample with cmdName := "custom_sort" }

theorem customSortSample_oneStream : OneStream customSortSample := by
  obtain ⟨a, b, c, d, e, f⟩ := altSample_oneStream
  exact ⟨a, b, c, d, e, f⟩

/-- `custom_sort` with a program that gives its input unsorted: the plan for consecutive parts is right,
the round-robin plan is not. -/
example : ∃ inv, parse "custom_sort" = .ok inv ∧ inv.cmdName = "custom_sort" ∧ Belongs inv customSortSample ∧
    Offered inv (plan .consecChunks sortMerge) ∧ Offered inv (plan .roundRobinUnwrapFlag sortMerge) ∧
    (∀ (x : Stream) parts y, parts.flatten = x → Executes (fun _ _ _ ins => ins.flatten) (plan .consecChunks sortMerge) customSortSample parts y →
      y = sequential (fun _ _ _ ins => ins.flatten) customSortSample x) ∧
    ¬ ∀ (x : Stream) parts y, Dealt x parts → Executes (fun _ _ _ ins => ins.flatten) (plan .roundRobinUnwrapFlag sortMerge) customSortSample parts y →
      y = sequential (fun _ _ _ ins => ins.flatten) customSortSample x := by
  have hi := (getPar_gen (c := ⟨"custom_sort", [], []⟩) rfl (show ("custom_sort", ParGen.sort) ∈ parTable by simp [parTable])
    _).2 (par_sort _ (by simp [Has, ParGen.sortBlockers]))
  have h1 : Offered ⟨"custom_sort", [], []⟩ (plan .consecChunks sortMerge) := offered_iff.2 ⟨_, hi, .inl (by simp)⟩
  have h2 : Offered ⟨"custom_sort", [], []⟩ (plan .roundRobinUnwrapFlag sortMerge) :=
    offered_iff.2 ⟨_, hi, .inr ⟨rfl, plan .consecChunks sortMerge, by simp, rfl, rfl⟩⟩
  refine ⟨_, by decide +kernel, rfl, ⟨rfl, rfl⟩, h1, h2, ?_, ?_⟩
  · refine (C104_sort_exact _ (.inr rfl) _ h1 _ customSortSample customSortSample_oneStream).2 ⟨?_, by intro h; cases h⟩
    intro a b; simp [sequential]
  · intro h
    have := ((C104_sort_exact _ (.inr rfl) _ h2 _ customSortSample customSortSample_oneStream).1 h).2 rfl ["a", "b"] ["b", "a"]
      (List.Perm.swap _ _ _)
    simp [sequential] at this

/-- C104. `set_diff` and `custom_tr`: executing what is offered is right for all splits exactly if the program's output for a
concatenation is the concatenation of its outputs. -/
theorem C104_line_wise (inv : CommandInvocationInitial) (hn : inv.cmdName = "set_diff" ∨ inv.cmdName = "custom_tr") {α : Type}
    (prog : ProgramsOn α) (hcat : CatProgram prog) (c : CommandInvocationWithIOVars) (hc : OneStream c) :
    (∃ p, Offered inv p) ∧ ((∀ p x parts y, Offered inv p → Split p.splitter x parts → Executes prog p c parts y →
      y = sequential prog c x) ↔ LineWise (sequential prog c)) := by
  have hf : Offered inv (plan .consecChunks concatenation) ∧
      ∀ p, Offered inv p → ∃ s, s ≠ .roundRobinUnwrapFlag ∧ p = plan s concatenation := by
    rcases hn with hn | hn
    · have hi : getParallelizabilityInfo inv = some (offers [plan .consecChunks concatenation]) :=
        (getPar_gen hn (show ("set_diff", ParGen.setDiff) ∈ parTable by simp [parTable]) _).2 (par_setDiff inv)
      refine ⟨offered_iff.2 ⟨_, hi, .inl (by simp)⟩, fun p hp => ?_⟩
      obtain ⟨i, h, hp⟩ := offered_iff.1 hp
      rw [hi] at h; cases h
      rcases hp with hp | ⟨hp, _⟩
      · exact ⟨.consecChunks, by simp, by simpa using hp⟩
      · cases hp
    · have hi : getParallelizabilityInfo inv = some (offers (bothPlans concatenation)) :=
        (getPar_gen hn (show ("custom_tr", ParGen.customTr) ∈ parTable by simp [parTable]) _).2 (par_conc inv _ (by simp))
      refine ⟨offered_iff.2 ⟨_, hi, .inl (by simp [bothPlans])⟩, fun p hp => ?_⟩
      obtain ⟨i, h, hp⟩ := offered_iff.1 hp
      rw [hi] at h; cases h
      rcases hp with hp | ⟨hp, _⟩
      · simp only [bothPlans, List.mem_cons, List.not_mem_nil, or_false] at hp
        rcases hp with rfl | rfl
        · exact ⟨.consecChunks, by simp, rfl⟩
        · exact ⟨.roundRobinPlain, by simp, rfl⟩
      · cases hp
  refine ⟨⟨_, hf.1⟩, ?_, ?_⟩
  · intro h
    exact C53_necessary prog hcat c hc .consecChunks (by simp) fun x parts y hs he => h _ x parts y hf.1 hs he
  · intro hl p x parts y hp hs he
    exact C53_chunks prog hcat c hc p (hf.2 p hp) hl x parts hs y he

example : ∃ inv, parse "set_diff f" = .ok inv ∧ inv.cmdName = "set_diff" ∧ CatProgram sampleProgs ∧
    OneStream { altSample with cmdName := "set_diff" } ∧ LineWise (sequential sampleProgs { altSample with cmdName := "set_diff" }) ∧
    sequential sampleProgs { altSample with cmdName := "set_diff" } ["a", "bb"] = ["bb"] := by
  have ho : OneStream { altSample with cmdName := "set_diff" } := by
    obtain ⟨a, b, c, d, e, f⟩ := altSample_oneStream
    exact ⟨a, b, c, d, e, f⟩
  refine ⟨⟨"set_diff", [], ["f"]⟩, by decide +kernel, rfl, fun ins => by simp [sampleProgs], ho, ?_, by decide +kernel⟩
  intro x y
  simp [sequential, sampleProgs]

/-- C104. `test_one` and `test_two`: one plan is offered, its aggregator cannot be built, and nothing executes it. -/
theorem C104_tests_false (inv : CommandInvocationInitial) (hn : inv.cmdName = "test_one" ∨ inv.cmdName = "test_two") :
    ∃ p, (∀ q, Offered inv q ↔ q = p) ∧ (∀ c ins out, p.getActualAggregator c ins out = .ok none) ∧
      ∀ {α : Type} (prog : ProgramsOn α) c parts y, ¬ Executes prog p c parts y := by
  have hi : getParallelizabilityInfo inv = some (offers [plan .consecChunks (.funcString .customNAry "runtime/agg/opt/concat.sh" false)]) := by
    rcases hn with hn | hn
    · exact (getPar_gen hn (show ("test_one", ParGen.testOne) ∈ parTable by simp [parTable]) _).2 (par_test inv _ (.inl rfl))
    · exact (getPar_gen hn (show ("test_two", ParGen.testTwo) ∈ parTable by simp [parTable]) _).2 (par_test inv _ (.inr rfl))
  refine ⟨plan .consecChunks (.funcString .customNAry "runtime/agg/opt/concat.sh" false), ?_, fun _ _ _ => rfl, ?_⟩
  · intro q
    rw [offered_iff]
    constructor
    · rintro ⟨i, h, hp⟩
      rw [hi] at h; cases h
      rcases hp with hp | ⟨hp, _⟩
      · simpa using hp
      · cases hp
    · rintro rfl
      exact ⟨_, hi, .inl (by simp)⟩
  · rintro α prog c parts y ⟨runs, _, _, hrec⟩
    generalize runs.map Prod.snd = outs at hrec
    cases hrec with
    | concatenate hk _ _ => cases hk
    | tree hk _ => cases hk
    | adjacent hk _ => cases hk

example : ∃ inv, parse "test_one -p x" = .ok inv ∧ inv.cmdName = "test_one" :=
  ⟨⟨"test_one", [], ["-p", "x"]⟩, by decide +kernel, rfl⟩

/-! How their command lines are read. -/

/-- The commands that are no standard programs. -/
def ownNames : List String :=
  ["alt_bigrams_aux", "alt_bigram_aux_reduce", "bigrams_aux", "bigram_aux_map", "bigram_aux_reduce", "custom_sort", "custom_tr",
    "set_diff", "test_one", "test_two"]

/-- C104. No word of a command line of such a command is read as an option, whatever it looks like. -/
theorem C104_words (name : String) (hn : name ∈ ownNames) (args : List String) :
    parse (Shlex.join (name :: args)) = .ok ⟨name, [], args⟩ := by
  have hr : ∀ n ∈ ownNames, Readable n := by
    intro n hn
    have h1 : ∀ n ∈ ownNames, Char.ofNat 0 ∉ n.toList ∧ n.utf8ByteSize ≤ 250 ∧ (pathParts n.toList).1.head? = none := by decide +kernel
    obtain ⟨a, b, c⟩ := h1 n hn
    exact ⟨a, b, fun dir hd => by rw [goesThrough_iff, c] at hd; cases hd⟩
  have hd : DatabaseFor name Data.d_default_data_for_commands := by
    obtain ⟨d, hd⟩ := databaseFor_exists name
    have hs : ∀ n ∈ ownNames, '/' ∉ n.toList := by decide +kernel
    have ht : ∀ n ∈ ownNames, ∀ e ∈ Data.table, e.1 = n → n = "custom_sort" ∨ n = "custom_tr" := by decide +kernel
    rcases databaseFor_plain (hs _ hn) hd with h | ⟨_, rfl⟩
    · rcases ht _ hn _ h rfl with rfl | rfl
      · exact databaseFor_table (show ("custom_sort", Data.d_custom_sort) ∈ Data.table by simp [Data.table])
      · exact databaseFor_table (show ("custom_tr", Data.d_custom_tr) ∈ Data.table by simp [Data.table])
    · exact hd
  rw [parse_join (hr _ hn) hd, parseLoop_default]

/-- C104. So a `custom_sort` that is told how to sort, say by `-r`, is described as one that reads a file `-r`, and the aggregator
of its plan merges without being told how to sort. -/
theorem C104_custom_sort_false (args : List String) (h : args ≠ []) :
    ∃ inv c, parse (Shlex.join ("custom_sort" :: args)) = .ok inv ∧ Typed inv c ∧ c.flagOptionList = [] ∧
      c.operandList = files .streamInput args ∧ c.implicitInput = none ∧
      ∀ p, Offered inv p → ∀ orig ins out agg, Belongs inv orig → p.getActualAggregator orig ins out = .ok (some agg) →
        agg.cmd.cmdName = "custom_sort" ∧ agg.cmd.flagOptionList = [.flag "-m"] := by
  have hr : Reads ⟨"custom_sort", [], args⟩ (files .streamInput args) _ _ := .sort (by simp)
  obtain ⟨c, hc⟩ := (C63_complete ⟨"custom_sort", [], args⟩ (by simp [OptionsKnown])).2 ⟨_, _, _, hr⟩
  obtain ⟨_, hf, i, o, hrd, hi, ho⟩ := C63_table _ c hc
  obtain ⟨e, rfl, rfl⟩ := C63_unambiguous _ _ _ _ _ _ _ hr hrd
  refine ⟨_, c, C104_words "custom_sort" (by simp [ownNames]) args, hc, ?_, e.symm, ?_, ?_⟩
  · exact List.length_eq_zero_iff.1 hf.1
  · rcases hi with ⟨⟨h', _⟩, _⟩ | ⟨_, hi⟩
    · exact absurd h' h
    · exact hi
  · intro p hp orig ins out agg hb ha
    have hfl : orig.flagOptionList = [] := by simpa using hb.2
    obtain ⟨h1, h2⟩ := C34_merge_flags _ (.inr rfl) p hp orig ins out agg (by rw [hfl]; intro n v hm; cases hm) ha
    rw [hfl] at h2
    exact ⟨h1.trans hb.1, h2⟩

example : Shlex.join ["custom_sort", "-r", "f"] = "custom_sort -r f" := by decide +kernel

end PashAnn
