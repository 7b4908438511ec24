import Verif.Lemmas.Streams

/-! Properties C53 to C56: executing what is offered gives the output of the sequential command. Specification:
`Spec/Streams.lean`. The theorems hold for all programs that meet the stated assumptions, all inputs, all ways of
splitting, all choices of new variables and all arrangements of aggregators. -/

namespace PashAnn
open Spec

/-! A concrete case that meets the hypotheses. -/

/-- `cut -f 1` from a file to the standard output. -/
def cutSample : CommandInvocationWithIOVars :=
  ⟨"cut", [.optionVar 0 "-f" (.str "1")], [.var 1], none, some 2, [(1, .streamInput), (2, .streamOutput)]⟩

theorem cutSample_ok : OneStream cutSample where
  described := by unfold Described; decide +kernel
  distinct := by decide +kernel
  input := ⟨1, by decide +kernel⟩
  out := ⟨2, by decide +kernel, rfl⟩
  options := by intro n v; simp [cutSample]
  implicit := by intro i h; cases h

/-- Programs with `cat`, and `cut` keeping the lines with more than one character. -/
def sampleProgs : Programs := fun n _ _ ins =>
  if n = "cat" then ins.flatten else ins.flatten.filter (fun l => 1 < l.length)

/-- C53. If the output of the command on a concatenation is the concatenation of the outputs, then executing a
parallelizer that runs the unchanged command on consecutive parts and concatenates gives the output of the command,
whatever the parts are. -/
theorem C53_chunks {α : Type} (prog : ProgramsOn α) (hcat : CatProgram prog) (c : CommandInvocationWithIOVars) (hc : OneStream c)
    (p : Parallelizer) (hp : ∃ s, s ≠ .roundRobinUnwrapFlag ∧ p = plan s concatenation)
    (hl : LineWise (sequential prog c)) (x : List α) (parts : List (List α)) (hs : Split p.splitter x parts) (y : List α)
    (h : Executes prog p c parts y) : y = sequential prog c x := by
  obtain ⟨s, hne, rfl⟩ := hp
  obtain ⟨runs, rfl, hr, hrec⟩ := h
  have hs' : (runs.map Prod.fst).flatten = x := by
    cases s
    case roundRobinUnwrapFlag => exact absurd rfl hne
    all_goals exact hs
  rw [recombined_concatenate hcat rfl hrec, runs_outputs hc rfl rfl hr, lineWise_flatten hl, hs']

/-- C53, the theorem is not about nothing: every split can be executed. -/
theorem C53_executable {α : Type} (prog : ProgramsOn α) (c : CommandInvocationWithIOVars) (hc : OneStream c) (s : Splitter)
    (parts : List (List α)) : ∃ y, Executes prog (plan s concatenation) c parts y :=
  executes_exists_concatenate prog hc rfl rfl rfl parts

/-- C53, the condition is needed: a command for which the parallelizer is right for all splits is line-wise. -/
theorem C53_necessary {α : Type} (prog : ProgramsOn α) (hcat : CatProgram prog) (c : CommandInvocationWithIOVars) (hc : OneStream c)
    (s : Splitter) (hs : s ≠ .roundRobinUnwrapFlag)
    (h : ∀ x parts y, Split s x parts → Executes prog (plan s concatenation) c parts y → y = sequential prog c x) :
    LineWise (sequential prog c) := by
  intro a b
  obtain ⟨y, hy⟩ := C53_executable prog c hc s [a, b]
  have hsplit : Split s (a ++ b) [a, b] := by
    cases s
    case roundRobinUnwrapFlag => exact absurd rfl hs
    all_goals show [a, b].flatten = a ++ b; simp
  have e := h (a ++ b) [a, b] y hsplit hy
  obtain ⟨runs, hp, hr, hrec⟩ := hy
  rw [recombined_concatenate hcat rfl hrec, runs_outputs hc rfl rfl hr, ← hp] at e
  rw [← e]; simp

/-- C53, filters and other commands that work line by line are line-wise. -/
theorem C53_filters (keep : String → Bool) (f : String → List String) :
    LineWise (fun x => x.filter keep) ∧ LineWise (fun x => x.flatMap f) :=
  ⟨fun _ _ => List.filter_append .., fun _ _ => List.flatMap_append ..⟩

/-- C53, for what is offered: whenever an invocation is line-wise, executing any parallelizer that is offered for it
and concatenates gives its output. -/
theorem C53_offered (inv : CommandInvocationInitial) (p : Parallelizer) (hp : Offered inv p)
    (hk : p.coreAggregatorSpec.kind = .concatenate) {α : Type} (prog : ProgramsOn α) (hcat : CatProgram prog)
    (c : CommandInvocationWithIOVars) (hc : OneStream c) (hl : LineWise (sequential prog c)) (x : List α)
    (parts : List (List α)) (hs : Split p.splitter x parts) (y : List α) (h : Executes prog p c parts y) :
    y = sequential prog c x := by
  refine C53_chunks prog hcat c hc p ?_ hl x parts hs y h
  have := offered_concatenate hp hk
  simp only [bothPlans, List.mem_cons, List.not_mem_nil, or_false] at this
  rcases this with rfl | rfl
  · exact ⟨.consecChunks, by simp, rfl⟩
  · exact ⟨.roundRobinPlain, by simp, rfl⟩

/-- C53, exactly, for what is offered: a parallelizer that is offered for an invocation and concatenates is right for all splits if
and only if the output for a concatenation is the concatenation of the outputs. -/
theorem C53_exact (inv : CommandInvocationInitial) (p : Parallelizer) (hp : Offered inv p)
    (hk : p.coreAggregatorSpec.kind = .concatenate) {α : Type} (prog : ProgramsOn α) (hcat : CatProgram prog)
    (c : CommandInvocationWithIOVars) (hc : OneStream c) :
    (∀ x parts y, Split p.splitter x parts → Executes prog p c parts y → y = sequential prog c x) ↔
      ∀ x y, sequential prog c (x ++ y) = sequential prog c x ++ sequential prog c y := by
  refine ⟨fun h => ?_, fun hl x parts y hs h => C53_offered inv p hp hk prog hcat c hc hl x parts hs y h⟩
  have := offered_concatenate hp hk
  simp only [bothPlans, List.mem_cons, List.not_mem_nil, or_false] at this
  rcases this with rfl | rfl
  · exact C53_necessary prog hcat c hc .consecChunks (by simp) h
  · exact C53_necessary prog hcat c hc .roundRobinPlain (by simp) h

example : ∃ inv p, parse "cut -f 1 f" = .ok inv ∧ Offered inv p ∧ Belongs inv cutSample ∧ OneStream cutSample ∧
    CatProgram sampleProgs ∧ LineWise (sequential sampleProgs cutSample) ∧
    Split p.splitter ["a", "bb", "cc"] [["a", "bb"], ["cc"]] ∧ sequential sampleProgs cutSample ["a", "bb", "cc"] = ["bb", "cc"] := by
  refine ⟨⟨"cut", [.option "-f" "1"], ["f"]⟩, plan .roundRobinPlain concatenation, by decide +kernel, ?_, ?_,
    cutSample_ok, ?_, ?_, rfl, by decide +kernel⟩
  · exact offered_iff.2 ⟨_, (getPar_gen rfl (show ("cut", ParGen.cut) ∈ parTable by simp [parTable]) _).2
      (par_conc _ _ (.inr (.inr (.inl rfl)))), .inl (by simp [bothPlans])⟩
  · exact ⟨rfl, rfl⟩
  · intro ins; rfl
  · intro x y
    show ([x ++ y].flatten.filter _) = [x].flatten.filter _ ++ [y].flatten.filter _
    simp [List.filter_append]

/-- C54. Executing a parallelizer offered for a grep invocation gives the output of grep, if none of `-A`, `-B`, `-C`,
`-m` is given, in any spelling. Missing: these options, for which it is false (below); `-z`, which makes lines end at null
characters, so that the parts do not consist of whole lines any more (C70); and options that the specification of grep
does not cover, such as those that print the names of files. -/
theorem C54_grep_partial (inv : CommandInvocationInitial) (hn : inv.cmdName = "grep") (p : Parallelizer)
    (hp : Offered inv p) (hx : ¬ ∃ n ∈ ["-A", "--after-context", "-B", "--before-context", "-C", "--context", "-m", "--max-count", "-z"],
      Has inv n) (prog : Programs) (hcat : CatProgram prog) (g : GrepParameters) (hg : GrepProgram prog g)
    (c : CommandInvocationWithIOVars) (hb : Belongs inv c) (hcov : Covered "grep" c.flagOptionList) (hc : OneStream c) (x : Stream) (parts : List Stream) (hs : Split p.splitter x parts)
    (y : Stream) (h : Executes prog p c parts y) : y = sequential prog c x := by
  have hoff : p ∈ bothPlans concatenation ∧ ¬ Has inv "-q" ∧ ¬ ∃ n ∈ ["-L", "-l", "-c", "-n", "-b"], Has inv n := by
    obtain ⟨i, hi, hcom, h1, h2⟩ := C31_grep_decision inv hn
    obtain ⟨i', hi', hp⟩ := offered_iff.1 hp
    rw [hi] at hi'; cases hi'
    have hp : p ∈ i.parallelizerList := by
      rcases hp with hp | ⟨hc, _⟩
      · exact hp
      · rw [hcom] at hc; cases hc
    by_cases hcond : ¬ Has inv "-q" ∧ ((∃ n ∈ ["-A", "-B", "-C", "-m"], Has inv n) ∨
          ¬ ∃ n ∈ ["-L", "-l", "-c", "-n", "-b"], Has inv n)
    · refine ⟨by rw [h1 hcond] at hp; exact hp, hcond.1, hcond.2.resolve_left ?_⟩
      rintro ⟨n, hn, hh⟩
      refine hx ⟨n, ?_, hh⟩
      simp only [List.mem_cons, List.not_mem_nil, or_false] at hn ⊢
      rcases hn with rfl | rfl | rfl | rfl <;> simp
    · rw [h2 hcond] at hp; cases hp
  have hplan : ∃ s, s ≠ .roundRobinUnwrapFlag ∧ p = plan s concatenation := by
    have := hoff.1
    simp only [bothPlans, List.mem_cons, List.not_mem_nil, or_false] at this
    rcases this with rfl | rfl
    · exact ⟨.consecChunks, by simp, rfl⟩
    · exact ⟨.roundRobinPlain, by simp, rfl⟩
  refine C53_chunks prog hcat c hc p hplan ?_ x parts hs y h
  have hnone : ¬ ∃ n ∈ ["-q", "-L", "-l", "-c", "-n", "-b"] ++ (contextNames ++ limitNames), Given c.flagOptionList n := by
    rintro ⟨n, hn, hh⟩
    rw [← has_iff_given hb] at hh
    have h3 := hoff.2.2
    simp only [contextNames, limitNames, List.mem_append, List.mem_cons, List.not_mem_nil, or_false, not_exists,
      not_and] at hn h3 hx
    rcases hn with (rfl | hn) | hn
    · exact hoff.2.1 hh
    · exact h3 n hn hh
    · refine hx n ?_ hh
      rcases hn with (hn | hn | hn | hn | hn | hn) | hn | hn <;> simp [hn]
  have hz : ¬ Given c.flagOptionList "-z" := fun hh => hx ⟨"-z", by simp, (has_iff_given hb _).2 hh⟩
  intro a b
  unfold sequential
  rw [hb.1, hn, hg _ _ _ hcov hz, hg _ _ _ hcov hz, hg _ _ _ hcov hz, grep_plain _ _ _ hnone, grep_plain _ _ _ hnone,
    grep_plain _ _ _ hnone, List.flatMap_append]

/-- Programs with `cat` and a `grep` that finds the lines that are the pattern, prints lines as they are and reads
numbers in unary. -/
def sampleGrep : GrepParameters where
  matching _ strs l := strs.contains l
  print _ _ _ _ l := [l]
  label := "f"
  separator _ := ["--"]
  number s := s.length
def grepProgs : Programs := fun n fl strs ins =>
  if n = "cat" then ins.flatten else sampleGrep.grep fl strs (ins.headD [])

theorem grepProgs_ok : CatProgram grepProgs ∧ GrepProgram grepProgs sampleGrep :=
  ⟨fun _ => rfl, fun _ _ _ _ _ => rfl⟩

/-- `grep … a f` with the given options. -/
def grepSample (fl : List FlagOptionWithIOVar) : CommandInvocationWithIOVars :=
  ⟨"grep", fl, [.str "a", .var 1], none, some 2, [(1, .streamInput), (2, .streamOutput)]⟩

theorem grepSample_ok (fl : List FlagOptionWithIOVar) (h : ∀ x ∈ fl, optionVar x = []) : OneStream (grepSample fl) := by
  have ho : occurrences (grepSample fl) = [1, 2] := by
    unfold occurrences
    rw [show (grepSample fl).flagOptionList.flatMap optionVar = [] from List.flatMap_eq_nil_iff.2 h]
    rfl
  have ha : ∀ v, accessOf (grepSample fl) v = accessOf cutSample v := fun v => rfl
  refine ⟨?_, by rw [ho]; decide, ⟨1, ?_⟩, ⟨2, ?_, rfl⟩, ?_, fun i h => by cases h⟩
  · intro v hv; rw [ho] at hv; rw [ha]; revert v; decide +kernel
  · unfold withAccess; rw [ho]; simp only [ha]; decide +kernel
  · unfold withAccess; rw [ho]; simp only [ha]; decide +kernel
  · intro n v hm
    have := h _ hm
    cases this

example : ∃ inv p, parse "grep -i a f" = .ok inv ∧ inv.cmdName = "grep" ∧ Offered inv p ∧
    (¬ ∃ n ∈ ["-A", "--after-context", "-B", "--before-context", "-C", "--context", "-m", "--max-count", "-z"], Has inv n) ∧
    Belongs inv (grepSample [.flag "-i"]) ∧ Covered "grep" (grepSample [.flag "-i"]).flagOptionList ∧
    Split p.splitter ["a", "b", "a"] [["a"], ["b", "a"]] ∧
    sequential grepProgs (grepSample [.flag "-i"]) ["a", "b", "a"] = ["a", "a"] := by
  refine ⟨⟨"grep", [.flag "-i"], ["a", "f"]⟩, plan .consecChunks concatenation, by decide +kernel, rfl, ?_, ?_,
    ⟨rfl, rfl⟩, by decide +kernel, rfl, by decide +kernel⟩
  · exact offered_iff.2 ⟨_, grep_offered rfl (by simp [Has, grepSpecial]), .inl (by simp [bothPlans])⟩
  · simp [Has]

/-- C54 is false of the code for context options: each of `-A`, `-B`, `-C`, in either spelling, is offered chunks with concatenation, and
an execution with programs as in the manual loses context lines. -/
theorem C54_context_false (n : String) (hn : n ∈ ["-A", "--after-context", "-B", "--before-context", "-C", "--context"]) :
    ∃ inv p c x parts y, parse ("grep " ++ n ++ " 1 a f") = .ok inv ∧ Offered inv p ∧ Belongs inv c ∧
      Covered "grep" c.flagOptionList ∧ OneStream c ∧ Split p.splitter x parts ∧ Executes grepProgs p c parts y ∧ y ≠ sequential grepProgs c x := by
  have hoff : Offered ⟨"grep", [.option n "1"], ["a", "f"]⟩ (plan .consecChunks concatenation) := by
    refine offered_iff.2 ⟨_, grep_offered rfl ?_, .inl (by simp [bothPlans])⟩
    simp only [List.mem_cons, List.not_mem_nil, or_false] at hn
    rcases hn with rfl | rfl | rfl | rfl | rfl | rfl <;> simp [Has, grepMasks, grepSpecial]
  have hc : OneStream (grepSample [.optionVar 0 n (.str "1")]) := grepSample_ok _ (by simp [optionVar])
  have run : ∀ parts y, Executes grepProgs (plan .consecChunks concatenation)
      (grepSample [.optionVar 0 n (.str "1")]) parts y →
      y = (parts.map (sequential grepProgs (grepSample [.optionVar 0 n (.str "1")]))).flatten := by
    rintro parts y ⟨runs, rfl, hr, hrec⟩
    rw [recombined_concatenate grepProgs_ok.1 rfl hrec, runs_outputs hc rfl rfl hr]
  obtain ⟨y, hy⟩ := C53_executable grepProgs _ hc .consecChunks [["b"], ["a"], ["b"]]
  refine ⟨⟨"grep", [.option n "1"], ["a", "f"]⟩, _, _, ["b", "a", "b"], [["b"], ["a"], ["b"]], y, ?_, hoff,
    ⟨rfl, rfl⟩, ?_, hc, rfl, hy, ?_⟩
  · simp only [List.mem_cons, List.not_mem_nil, or_false] at hn
    rcases hn with rfl | rfl | rfl | rfl | rfl | rfl <;> decide +kernel
  · simp only [List.mem_cons, List.not_mem_nil, or_false] at hn
    rcases hn with rfl | rfl | rfl | rfl | rfl | rfl <;> decide +kernel
  · rw [run _ _ hy]
    simp only [List.mem_cons, List.not_mem_nil, or_false] at hn
    rcases hn with rfl | rfl | rfl | rfl | rfl | rfl <;> decide +kernel

/-- C54 is false of the code for `-m`: whatever the limit is (at least one), and for all programs as in the manual,
there is an input and a split for which every offered parallelizer gives a wrong output, whenever some line matches and
matching lines are printed. Parallelizers are offered unless `-n` or `-b` is given with the long spelling. -/
theorem C54_limit_false (inv : CommandInvocationInitial) (hn : inv.cmdName = "grep")
    (hx : ¬ ∃ n ∈ ["-A", "--after-context", "-B", "--before-context", "-C", "--context"] ++ ["-q", "-L", "-l", "-c", "-z"], Has inv n)
    (prog : Programs) (hcat : CatProgram prog) (g : GrepParameters) (hg : GrepProgram prog g)
    (c : CommandInvocationWithIOVars) (hb : Belongs inv c) (hcov : Covered "grep" c.flagOptionList) (hc : OneStream c)
    (a : String) (hm : argAmong c.flagOptionList ["-m", "--max-count"] = some a)
    (ha : 1 ≤ g.number a) (l : String) (hl : g.matching c.flagOptionList (strOperands c) l = true)
    (hpr : ∀ k o, g.print c.flagOptionList true k o l ≠ []) :
    (Has inv "-m" ∨ (¬ Has inv "-n" ∧ ¬ Has inv "-b") → ∃ p, Offered inv p) ∧ ∀ p, Offered inv p → ∃ x parts, Split p.splitter x parts ∧
      (∃ y, Executes prog p c parts y) ∧ ∀ y, Executes prog p c parts y → y ≠ sequential prog c x := by
  have hg' : ∀ n, n ∈ ["-A", "--after-context", "-B", "--before-context", "-C", "--context"] ++ ["-q", "-L", "-l", "-c", "-z"] →
      ¬ Given c.flagOptionList n := fun n hn hh => hx ⟨n, hn, (has_iff_given hb n).2 hh⟩
  have hq : ¬ Has inv "-q" := fun h => hx ⟨"-q", by simp, h⟩
  refine ⟨fun hoff => ⟨plan .consecChunks concatenation,
    offered_iff.2 ⟨_, grep_offered hn ⟨hq, hoff.imp (fun h => ⟨"-m", by simp [grepMasks], h⟩) ?_⟩,
      .inl (by simp [bothPlans])⟩⟩, ?_⟩
  · rintro ⟨h1, h2⟩ ⟨n, hm, hh⟩
    simp only [grepSpecial, List.mem_cons, List.not_mem_nil, or_false] at hm
    rcases hm with rfl | rfl | rfl | rfl | rfl
    · exact hx ⟨_, by simp, hh⟩
    · exact hx ⟨_, by simp, hh⟩
    · exact hx ⟨_, by simp, hh⟩
    · exact h1 hh
    · exact h2 hh
  intro p hp
  have hplan : ∃ s, s ≠ .roundRobinUnwrapFlag ∧ p = plan s concatenation := by
    obtain ⟨i, hi, hcom, h1, h2⟩ := C31_grep_decision inv hn
    obtain ⟨i', hi', hp⟩ := offered_iff.1 hp
    rw [hi] at hi'; cases hi'
    rcases hp with hp | ⟨hc, _⟩
    · by_cases hcond : ¬ Has inv "-q" ∧ ((∃ n ∈ ["-A", "-B", "-C", "-m"], Has inv n) ∨
          ¬ ∃ n ∈ ["-L", "-l", "-c", "-n", "-b"], Has inv n)
      case neg => rw [h2 hcond] at hp; cases hp
      rw [h1 hcond] at hp
      simp only [List.mem_cons, List.not_mem_nil, or_false] at hp
      rcases hp with rfl | rfl
      · exact ⟨.consecChunks, by simp, rfl⟩
      · exact ⟨.roundRobinPlain, by simp, rfl⟩
    · rw [hcom] at hc; cases hc
  obtain ⟨s, hs, rfl⟩ := hplan
  obtain ⟨k, hk⟩ : ∃ k, g.number a = k := ⟨_, rfl⟩
  obtain ⟨x, hxd⟩ : ∃ x : Stream, x = List.replicate k l := ⟨_, rfl⟩
  have hcx : ¬ ∃ n ∈ contextNames, Given c.flagOptionList n := fun ⟨n, hn, hh⟩ => hg' n (List.mem_append_left _ hn) hh
  have hlim : g.limit c.flagOptionList = some k := by unfold GrepParameters.limit; rw [hm, ← hk]; rfl
  have hseq : ∀ z, sequential prog c z = (List.range z.length).flatMap (g.printed c.flagOptionList (strOperands c) z) := by
    intro z
    unfold sequential
    rw [hb.1, hn, hg _ _ _ hcov (hg' "-z" (by simp))]
    unfold GrepParameters.grep
    simp only [hg' "-q" (by simp), listing_none c.flagOptionList (hg' "-l" (by simp)) (hg' "-L" (by simp)), hg' "-c" (by simp),
      if_false, reduceCtorEq]
  -- selection in a stream of matching lines only
  have hsel : ∀ n j, g.selected c.flagOptionList (strOperands c) (List.replicate n l) j = decide (j < n ∧ j < k) := by
    intro n j
    unfold GrepParameters.selected
    rw [hlim]
    by_cases hj : j < n
    · simp only [Option.elim_some, List.take_replicate, List.filter_replicate, hl, if_true, List.length_replicate]
      rw [List.getElem?_replicate]
      simp only [hj, if_true, Option.elim_some, hl, Bool.true_and, true_and]
      rw [Nat.min_eq_left (by omega)]
    · rw [List.getElem?_eq_none (by simp; omega)]
      simp [hj]
  have hprinted : ∀ n j, g.printed c.flagOptionList (strOperands c) (List.replicate n l) j =
      if j < n ∧ j < k then g.print c.flagOptionList true (if Given c.flagOptionList "-n" then some (j + 1) else none)
        (if Given c.flagOptionList "-b" then some (GrepParameters.offset (List.replicate n l) j) else none) l else [] := by
    intro n j
    rw [printed_noContext g _ _ hcx, hsel]
    by_cases hj : j < n ∧ j < k
    · simp only [hj, and_self, decide_true, if_true]
      rw [List.getElem?_replicate, if_pos hj.1]; rfl
    · simp [hj]
  have hF : sequential prog c (x ++ x) = sequential prog c x := by
    rw [hseq, hseq]
    have hxx : x ++ x = List.replicate (k + k) l := by simp [hxd, List.replicate_append_replicate]
    rw [hxx, List.length_replicate]
    rw [show (List.range (k + k)) = List.range k ++ (List.range k).map (k + ·) from List.range_add .., List.flatMap_append]
    have h2 : ((List.range k).map (k + ·)).flatMap
        (g.printed c.flagOptionList (strOperands c) (List.replicate (k + k) l)) = [] := by
      rw [List.flatMap_eq_nil_iff]
      intro j hj
      obtain ⟨i, _, rfl⟩ := List.mem_map.1 hj
      rw [hprinted, if_neg (by omega)]
    rw [h2, List.append_nil, hxd, List.length_replicate]
    unfold List.flatMap
    congr 1
    apply List.map_congr_left
    intro j hj
    have hj := List.mem_range.1 hj
    have hj2 : j < k + k ∧ j < k := ⟨by omega, hj⟩
    have hj1 : j < k ∧ j < k := ⟨hj, hj⟩
    rw [hprinted, hprinted]
    simp only [hj1, hj2, and_self, if_true]
    congr 2
    unfold GrepParameters.offset
    rw [List.take_replicate, List.take_replicate, Nat.min_eq_left (by omega), Nat.min_eq_left (by omega)]
  have hne : sequential prog c x ≠ [] := by
    rw [hseq, hxd]
    intro h
    rw [List.flatMap_eq_nil_iff] at h
    have := h 0 (List.mem_range.2 (by simp; omega))
    rw [hprinted, if_pos (by omega)] at this
    exact hpr _ _ this
  refine ⟨x ++ x, [x, x], ?_, C53_executable prog c hc s [x, x], ?_⟩
  · cases s
    case roundRobinUnwrapFlag => exact absurd rfl hs
    all_goals show [x, x].flatten = x ++ x; simp
  · rintro y ⟨runs, hparts, hr, hrec⟩
    rw [recombined_concatenate hcat rfl hrec, runs_outputs hc rfl rfl hr, ← hparts, hF]
    simp only [List.map_cons, List.map_nil, List.flatten_cons, List.flatten_nil, List.append_nil]
    intro h
    exact hne (by simpa using h)

example : ∃ inv, parse "grep --max-count 1 a f" = .ok inv ∧
    (¬ ∃ n ∈ ["-A", "--after-context", "-B", "--before-context", "-C", "--context"] ++ ["-q", "-L", "-l", "-c", "-z"], Has inv n) ∧
    Belongs inv (grepSample [.optionVar 0 "--max-count" (.str "1")]) ∧
    Covered "grep" (grepSample [.optionVar 0 "--max-count" (.str "1")]).flagOptionList ∧
    OneStream (grepSample [.optionVar 0 "--max-count" (.str "1")]) ∧ ¬ Has inv "-n" ∧ ¬ Has inv "-b" ∧
    argAmong (grepSample [.optionVar 0 "--max-count" (.str "1")]).flagOptionList ["-m", "--max-count"] = some "1" ∧ sampleGrep.number "1" = 1 ∧
    sampleGrep.matching [] ["a"] "a" = true :=
  ⟨⟨"grep", [.option "--max-count" "1"], ["a", "f"]⟩, by decide +kernel, by simp [Has], ⟨rfl, rfl⟩, by decide +kernel,
    grepSample_ok _ (by simp [optionVar]), by simp [Has], by simp [Has], by decide +kernel, by decide +kernel, by decide +kernel⟩

/-- C55. Executing a parallelizer offered for a sort invocation gives the output of sort: for consecutive chunks and for
lines dealt to workers in any way, and for every binary tree of merges, if the options determine a total order. -/
theorem C55_sort (inv : CommandInvocationInitial) (hn : inv.cmdName = "sort") (p : Parallelizer) (hp : Offered inv p)
    (prog : Programs) (le : List FlagOptionWithIOVar → String → String → Prop) (hprog : SortProgram prog le)
    (c : CommandInvocationWithIOVars) (hb : Belongs inv c) (hcov : Covered "sort" c.flagOptionList) (hc : OneStream c)
    (hstr : strOperands c = []) (hle : LineOrder (le c.flagOptionList)) (x : Stream) (parts : List Stream) (hs : Split p.splitter x parts)
    (y : Stream) (h : Executes prog p c parts y) : y = sequential prog c x := by
  obtain ⟨hblock, hplan⟩ := sort_offered (.inl hn) hp
  have hpm : p.coreMapperSpec = sameCommand ∧ p.infoMapperAggregator = 0 ∧ p.coreAggregatorSpec = sortMerge := by
    rcases hplan with rfl | rfl <;> exact ⟨rfl, rfl, rfl⟩
  have hng : ∀ n, n ∈ ParGen.sortBlockers → ¬ Given c.flagOptionList n :=
    fun n hn hg => hblock ⟨n, hn, (has_iff_given hb n).2 hg⟩
  have hcn : c.cmdName = "sort" := hb.1.trans hn
  have hseq : ∀ z, (sequential prog c z).Pairwise (le c.flagOptionList) ∧ (sequential prog c z).Perm z := by
    intro z
    unfold sequential
    rw [hcn, hstr]
    have := hprog.sorts c.flagOptionList [z] hcov hle (hng _ (by simp [ParGen.sortBlockers]))
      (hng _ (by simp [ParGen.sortBlockers])) (hng _ (by simp [ParGen.sortBlockers]))
      (hng _ (by simp [ParGen.sortBlockers])) (fun hm => absurd hm (hng _ (by simp [ParGen.sortBlockers])))
    simpa using this
  obtain ⟨runs, hparts, hr, hrec⟩ := h
  have hj : Joined prog p c (runs.map Prod.snd) y := by
    generalize runs.map Prod.snd = outs at hrec
    cases hrec with
    | concatenate hk => rw [hpm.2.2] at hk; cases hk
    | tree _ h => exact h
    | adjacent hk => rw [hpm.2.2] at hk; cases hk
  rw [runs_outputs hc hpm.1 hpm.2.1 hr, ← hparts] at hj
  obtain ⟨sy, py⟩ := joined_sorted hprog hpm.2.2 hcn hc hcov hle (by
    rintro ⟨n, hn, hg⟩
    refine hng n ?_ hg
    simp only [List.mem_cons, List.not_mem_nil, or_false] at hn
    rcases hn with rfl | rfl | rfl <;> simp [ParGen.sortBlockers]) hj
    (fun s hs => by obtain ⟨z, _, rfl⟩ := List.mem_map.1 hs; exact (hseq z).1)
  have hperm : (parts.map (sequential prog c)).flatten.Perm parts.flatten := by
    clear hparts hj sy py hs
    induction parts with
    | nil => exact List.Perm.refl _
    | cons z l ih => simp only [List.map_cons, List.flatten_cons]; exact (hseq z).2.append ih
  have := ((py.trans hperm).trans (split_perm hs)).trans (hseq x).2.symm
  exact this.eq_of_pairwise (fun a b _ _ h1 h2 => hle.antisymm a b h1 h2) sy (hseq x).1

/-- C55, the theorem is not about nothing: every split into at least one part can be executed. -/
theorem C55_executable (inv : CommandInvocationInitial) (hn : inv.cmdName = "sort") (p : Parallelizer)
    (hp : Offered inv p) (prog : Programs) (c : CommandInvocationWithIOVars) (hc : OneStream c) (parts : List Stream)
    (hne : parts ≠ []) : ∃ y, Executes prog p c parts y := by
  have hpm : p.coreMapperSpec = sameCommand ∧ p.infoMapperAggregator = 0 ∧ p.coreAggregatorSpec = sortMerge := by
    rcases (sort_offered (.inl hn) hp).2 with rfl | rfl <;> exact ⟨rfl, rfl, rfl⟩
  have hj : ∀ outs : List Stream, outs ≠ [] → ∃ y, Joined prog p c outs y := by
    intro outs
    induction outs with
    | nil => intro h; exact absurd rfl h
    | cons a l ih =>
        intro _
        by_cases hl : l = []
        · subst hl; exact ⟨a, .leaf a⟩
        · obtain ⟨b, hb⟩ := ih hl
          obtain ⟨x, hx, _⟩ := exists_unused c []
          obtain ⟨y, hy, hyx⟩ := exists_unused c [x]
          obtain ⟨o, ho, hoxy⟩ := exists_unused c [x, y]
          simp only [List.mem_cons, List.not_mem_nil, or_false, not_or] at hyx hoxy
          have hxy : x ≠ y ∧ o ≠ x ∧ o ≠ y := ⟨fun h => hyx h.symm, hoxy⟩
          obtain ⟨agg, hagg, _⟩ := sort_aggregator prog hpm.2.2 hc hx hy hxy
          exact ⟨_, Joined.node (env := fun v => if v = x then a else b) (.leaf a) hb hx hy ho hxy hagg (if_pos rfl)
            (if_neg hyx)⟩
  obtain ⟨y, hy⟩ := hj (parts.map (sequential prog c)) (by simpa using hne)
  refine ⟨y, parts.map (fun z => (z, sequential prog c z)), by simp [Function.comp_def], ?_, ?_⟩
  · intro r hr
    obtain ⟨z, _, rfl⟩ := List.mem_map.1 hr
    exact mapperRun_exists prog hc hpm.1 hpm.2.1 z
  · refine .tree (by rw [hpm.2.2]; rfl) ?_
    rw [List.map_map]; exact hy

/-- Programs in which `sort` sorts by the usual order of strings, or the reverse with `-r`. -/
def sortProgs : Programs := fun _ fl _ ins =>
  ins.flatten.mergeSort (fun a b => decide (if Given fl "-r" then b ≤ a else a ≤ b))

theorem sortProgs_ok : SortProgram sortProgs (fun fl a b => if Given fl "-r" then b ≤ a else a ≤ b) ∧
    ∀ fl, LineOrder (fun a b => if Given fl "-r" then b ≤ a else a ≤ b) := by
  have hord : ∀ fl, LineOrder (fun a b => if Given fl "-r" then b ≤ a else a ≤ b) := by
    intro fl
    by_cases h : Given fl "-r"
    · simp only [h, if_true]
      exact ⟨fun a b => String.le_total b a, fun a b c h1 h2 => String.le_trans h2 h1,
        fun a b h1 h2 => String.le_antisymm h2 h1⟩
    · simp only [h, if_false]
      exact ⟨fun a b => String.le_total a b, fun a b c h1 h2 => String.le_trans h1 h2,
        fun a b h1 h2 => String.le_antisymm h1 h2⟩
  refine ⟨⟨?_, ?_⟩, hord⟩
  · intro fl fl' h
    have hg : ∀ fl, Given fl "-r" ↔ Given (fl.filter (fun x => x.getName ∈ sortOrdering)) "-r" := by
      intro fl
      constructor
      · rintro ⟨x, hx, hn⟩
        exact ⟨x, List.mem_filter.2 ⟨hx, by rw [hn]; decide⟩, hn⟩
      · rintro ⟨x, hx, hn⟩
        exact ⟨x, (List.mem_filter.1 hx).1, hn⟩
    have e : Given fl "-r" ↔ Given fl' "-r" := by rw [hg, h, ← hg]
    funext a b
    simp only [e]
  · intro fl ins _ ho _ _ _ _ _
    refine ⟨?_, List.mergeSort_perm _ _⟩
    have := List.pairwise_mergeSort (le := fun a b => decide (if Given fl "-r" then b ≤ a else a ≤ b))
      (fun a b c h1 h2 => by
        simp only [decide_eq_true_eq] at h1 h2 ⊢; exact ho.trans a b c h1 h2)
      (fun a b => by
        rw [Bool.or_eq_true, decide_eq_true_eq, decide_eq_true_eq]; exact ho.total a b) ins.flatten
    exact this.imp (fun h => by simpa only [decide_eq_true_eq] using h)

/-- `sort -r f`. -/
def sortSample : CommandInvocationWithIOVars :=
  ⟨"sort", [.flag "-r"], [.var 1], none, some 2, [(1, .streamInput), (2, .streamOutput)]⟩

example : ∃ inv p, parse "sort -r f" = .ok inv ∧ Offered inv p ∧ Belongs inv sortSample ∧ OneStream sortSample ∧ Covered "sort" sortSample.flagOptionList ∧
    strOperands sortSample = [] ∧ p.splitter = .roundRobinUnwrapFlag ∧
    Split p.splitter ["c", "a", "b"] [["c", "b"], ["a"]] := by
  refine ⟨⟨"sort", [.flag "-r"], ["f"]⟩, plan .roundRobinUnwrapFlag sortMerge, by decide +kernel, ?_, ⟨rfl, rfl⟩, ?_,
    by decide +kernel, rfl, rfl, ?_⟩
  · refine offered_iff.2 ⟨offers [plan .consecChunks sortMerge] true, ?_, .inr ⟨rfl, _, List.mem_singleton.2 rfl, rfl, rfl⟩⟩
    exact (getPar_gen rfl (by simp [parTable]) _).2 (par_sort _ (by simp [ParGen.sortBlockers, Has]))
  · exact ⟨by unfold Described; decide +kernel, by decide +kernel, ⟨1, by decide +kernel⟩, ⟨2, by decide +kernel, rfl⟩,
      by intro n v; simp [sortSample], by intro i h; cases h⟩
  · have h0 : Dealt ([] : Stream) ([] ++ [] :: [[]]) := Dealt.start 2
    have h1 : Dealt ["c"] ([["c"]] ++ [] :: []) := Dealt.block (block := ["c"]) h0
    have h2 : Dealt ["c", "a"] ([] ++ ["c"] :: [["a"]]) := Dealt.block (block := ["a"]) h1
    exact Dealt.block (block := ["b"]) h2

/-- C55, what the hypothesis on the order rules out: `sort --sort random` is offered a parallelizer, although
`sort -R`, which the manual says is the same, is not, and the order is not determined by the options. -/
theorem C55_random_offered : ∃ inv inv', parse "sort --sort random f" = .ok inv ∧ parse "sort -R f" = .ok inv' ∧
    Offered inv (plan .consecChunks sortMerge) ∧ ¬ ∃ p, Offered inv' p := by
  refine ⟨⟨"sort", [.option "--sort" "random"], ["f"]⟩, ⟨"sort", [.flag "-R"], ["f"]⟩, by decide +kernel,
    by decide +kernel, ?_, ?_⟩
  · refine offered_iff.2 ⟨offers [plan .consecChunks sortMerge] true, ?_, .inl (List.mem_singleton.2 rfl)⟩
    exact (getPar_gen rfl (by simp [parTable]) _).2 (par_sort _ (by simp [ParGen.sortBlockers, Has]))
  · rintro ⟨p, hp⟩
    exact (sort_offered (.inl rfl) hp).1 ⟨"-R", by simp [ParGen.sortBlockers], by simp [Has]⟩

/-- C56. Executing a parallelizer offered for a uniq invocation that joins at adjacent lines gives the output of uniq,
for all consecutive parts, empty ones included, and however the joins are arranged. Missing: `-u` and the methods of
`--group` other than `separate`, for which it is false (below), `-z`, options that the specification of uniq does not
cover and, because it needs a function that is not implemented, `-c`. -/
theorem C56_uniq_partial (inv : CommandInvocationInitial) (hn : inv.cmdName = "uniq") (p : Parallelizer)
    (hp : Offered inv p) (hx : ¬ ∃ n ∈ ["-u", "-z", "-c"], Has inv n) (prog : Programs)
    (same : List FlagOptionWithIOVar → String → String → Bool) (hprog : UniqProgram prog same)
    (c : CommandInvocationWithIOVars) (hb : Belongs inv c)
    (hgr : ∀ a, argOf c.flagOptionList "--group" = some a → a = "separate")
    (hcov : Covered "uniq" c.flagOptionList) (hc : OneStream c) (hstr : strOperands c = []) (x : Stream)
    (parts : List Stream) (hs : Split p.splitter x parts) (y : Stream) (h : Executes prog p c parts y) :
    y = sequential prog c x := by
  have hm : ("uniq", ParGen.uniq) ∈ parTable := by simp [parTable]
  have hnc : ¬ Has inv "-c" := fun h => hx ⟨"-c", by simp, h⟩
  have hoff : (¬ ∃ n ∈ ["-d", "-D", "--all-repeated"], Has inv n) ∧ p ∈ bothPlans (.nonFunc .adjLinesSeq false) := by
    obtain ⟨i, hi, hp⟩ := offered_iff.1 hp
    have hg := (getPar_gen hn hm i).1 hi
    by_cases hd : ∃ n ∈ ["-d", "-D", "--all-repeated"], Has inv n
    · rw [par_uniq_none inv hd] at hg; cases hg
      rcases hp with hp | ⟨hc, _⟩
      · cases hp
      · cases hc
    · rw [par_uniq_plain inv hd hnc] at hg; cases hg
      rcases hp with hp | ⟨hc, _⟩
      · exact ⟨hd, hp⟩
      · cases hc
  have hng : ∀ n, n ∈ ["-u", "-z", "-c", "-d", "-D", "--all-repeated"] → ¬ Given c.flagOptionList n := by
    intro n hn hg
    rw [← has_iff_given hb] at hg
    have h1 := hoff.1
    simp only [List.mem_cons, List.not_mem_nil, or_false, not_exists, not_and] at hn hx h1
    rcases hn with rfl | rfl | rfl | rfl | rfl | rfl
    · exact hx _ (by simp) hg
    · exact hx _ (by simp) hg
    · exact hx _ (by simp) hg
    · exact h1 _ (by simp) hg
    · exact h1 _ (by simp) hg
    · exact h1 _ (by simp) hg
  have hseq : ∀ a b, sequential prog c (a ++ b) =
      splice (sequential prog c) (sequential prog c a) (sequential prog c b) := by
    by_cases hgroup : Given c.flagOptionList "--group"
    · have : ∀ z, sequential prog c z = separated (same c.flagOptionList) z := by
        intro z
        unfold sequential
        rw [hb.1, hn, hstr, hprog.group _ _ hcov hgroup (by
          rintro ⟨n, hn, hg⟩
          refine hng n ?_ hg
          simp only [List.mem_cons, List.not_mem_nil, or_false] at hn ⊢
          rcases hn with rfl | rfl | rfl | rfl | rfl | rfl <;> simp)]
        have : (argOf c.flagOptionList "--group").getD "separate" = "separate" := by
          cases ha : argOf c.flagOptionList "--group" with
          | none => rfl
          | some a => exact hgr a ha
        rw [this]; rfl
      rw [show sequential prog c = separated (same c.flagOptionList) from funext this]
      exact separated_append _
    · have : ∀ z, sequential prog c z = firsts (same c.flagOptionList) z := by
        intro z
        unfold sequential
        rw [hb.1, hn, hstr, hprog.output _ _ hcov (by
          rintro ⟨n, hn, hg⟩
          simp only [List.mem_cons, List.not_mem_nil, or_false] at hn
          rcases hn with rfl | rfl | rfl | rfl | rfl
          · exact hng _ (by simp) hg
          · exact hng _ (by simp) hg
          · exact hng _ (by simp) hg
          · exact hgroup hg
          · exact hng _ (by simp) hg)]
        unfold firsts
        congr 1
        funext g
        simp [showGroup, hng "-u" (by simp), hng "-d" (by simp)]
      rw [show sequential prog c = firsts (same c.flagOptionList) from funext this]
      exact firsts_append (hprog.equivalence _)
  have hplan : ∃ s, s ≠ .roundRobinUnwrapFlag ∧ p = plan s (.nonFunc .adjLinesSeq false) := by
    have := hoff.2
    simp only [bothPlans, List.mem_cons, List.not_mem_nil, or_false] at this
    rcases this with rfl | rfl
    · exact ⟨.consecChunks, by simp, rfl⟩
    · exact ⟨.roundRobinPlain, by simp, rfl⟩
  obtain ⟨s, hne, rfl⟩ := hplan
  obtain ⟨runs, hparts, hr, hrec⟩ := h
  have hs' : parts.flatten = x := by
    cases s
    case roundRobinUnwrapFlag => exact absurd rfl hne
    all_goals exact hs
  rw [runs_outputs hc rfl rfl hr, ← hparts] at hrec
  generalize ho : parts.map (sequential prog c) = outs at hrec
  cases hrec with
  | concatenate hk => cases hk
  | tree hk => cases hk
  | adjacent _ h =>
      subst ho
      rw [spliced_flatten hseq h, hs']

/-- C56, the theorem is not about nothing: every split into at least one part can be executed. -/
theorem C56_executable (prog : Programs) (c : CommandInvocationWithIOVars) (hc : OneStream c) (s : Splitter)
    (parts : List Stream) (hne : parts ≠ []) :
    ∃ y, Executes prog (plan s (.nonFunc .adjLinesSeq false)) c parts y := by
  have hj : ∀ outs : List Stream, outs ≠ [] → ∃ y, Spliced (sequential prog c) outs y := by
    intro outs
    induction outs with
    | nil => intro h; exact absurd rfl h
    | cons a l ih =>
        intro _
        by_cases hl : l = []
        · subst hl; exact ⟨a, .leaf a⟩
        · obtain ⟨b, hb⟩ := ih hl
          exact ⟨_, Spliced.node (.leaf a) hb⟩
  obtain ⟨y, hy⟩ := hj (parts.map (sequential prog c)) (by simpa using hne)
  refine ⟨y, parts.map (fun z => (z, sequential prog c z)), by simp [Function.comp_def], ?_, ?_⟩
  · intro r hr
    obtain ⟨z, _, rfl⟩ := List.mem_map.1 hr
    exact mapperRun_exists prog hc rfl rfl z
  · refine .adjacent rfl ?_
    rw [List.map_map]; exact hy

/-- Programs in which `uniq` compares whole lines. -/
def uniqProgs : Programs := fun _ fl _ ins =>
  if Given fl "--group" then separateGroups ((argOf fl "--group").getD "separate") (groups (· == ·) (ins.headD []))
  else (groups (· == ·) (ins.headD [])).flatMap (showGroup fl)

theorem uniqProgs_ok : UniqProgram uniqProgs (fun _ => (· == ·)) where
  equivalence := fun _ => ⟨by simp, by intro a b h; simpa using (beq_iff_eq.1 h).symm, by
    intro a b c h1 h2; simp only [beq_iff_eq] at *; exact h1.trans h2⟩
  output := by
    intro fl x _ h
    have : ¬ Given fl "--group" := fun hg => h ⟨_, by simp, hg⟩
    simp only [uniqProgs, this, if_false, List.headD_cons]
  group := by
    intro fl x _ h _
    simp only [uniqProgs, h, if_true, List.headD_cons]

/-- `uniq … f` with the given options. -/
def uniqSample (fl : List FlagOptionWithIOVar) : CommandInvocationWithIOVars :=
  ⟨"uniq", fl, [.var 1], none, some 2, [(1, .streamInput), (2, .streamOutput)]⟩

theorem uniqSample_ok (fl : List FlagOptionWithIOVar) (h : ∀ x ∈ fl, optionVar x = []) : OneStream (uniqSample fl) := by
  have ho : occurrences (uniqSample fl) = [1, 2] := by
    unfold occurrences
    rw [show (uniqSample fl).flagOptionList.flatMap optionVar = [] from List.flatMap_eq_nil_iff.2 h]
    rfl
  have ha : ∀ v, accessOf (uniqSample fl) v = accessOf cutSample v := fun v => rfl
  refine ⟨?_, by rw [ho]; decide, ⟨1, ?_⟩, ⟨2, ?_, rfl⟩, ?_, fun i h => by cases h⟩
  · intro v hv; rw [ho] at hv; rw [ha]; revert v; decide +kernel
  · unfold withAccess; rw [ho]; simp only [ha]; decide +kernel
  · unfold withAccess; rw [ho]; simp only [ha]; decide +kernel
  · intro n v hm
    have := h _ hm
    cases this

/-- Without `-d`, `-D`, `--all-repeated` and `-c` uniq is offered chunks and round robin, joining at adjacent lines. -/
theorem uniq_offered {inv : CommandInvocationInitial} (hn : inv.cmdName = "uniq")
    (h : ¬ ∃ n ∈ ["-d", "-D", "--all-repeated"], Has inv n) (hc : ¬ Has inv "-c") (p : Parallelizer) :
    Offered inv p ↔ p ∈ bothPlans (.nonFunc .adjLinesSeq false) := by
  have hi := (getPar_gen hn (show ("uniq", ParGen.uniq) ∈ parTable by simp [parTable]) _).2 (par_uniq_plain inv h hc)
  rw [offered_iff]
  constructor
  · rintro ⟨i, hi', hp⟩
    rw [hi] at hi'; cases hi'
    rcases hp with hp | ⟨hc, _⟩
    · exact hp
    · cases hc
  · intro hp; exact ⟨_, hi, .inl hp⟩

example : ∃ inv p, parse "uniq -i x" = .ok inv ∧ Offered inv p ∧ Belongs inv (uniqSample [.flag "-i"]) ∧
    OneStream (uniqSample [.flag "-i"]) ∧ Covered "uniq" (uniqSample [.flag "-i"]).flagOptionList ∧ Split p.splitter ["a", "a", "a", "b"] [["a", "a"], [], ["a", "b"]] ∧
    sequential uniqProgs (uniqSample [.flag "-i"]) ["a", "a", "a", "b"] = ["a", "b"] := by
  refine ⟨⟨"uniq", [.flag "-i"], ["x"]⟩, plan .consecChunks (.nonFunc .adjLinesSeq false), by decide +kernel, ?_,
    ⟨rfl, rfl⟩, uniqSample_ok _ (by simp [optionVar]), by decide +kernel, rfl, by decide +kernel⟩
  exact (uniq_offered rfl (by simp [Has]) (by simp [Has]) _).2 (by simp [bothPlans])

/-- C56 is false of the code for `-u`: parallelizers are offered, and for every one of them, for all programs as in
the manual and for every line there is an input and a split for which every execution gives a wrong output: the line is
shown although it is repeated. -/
theorem C56_unique_false (inv : CommandInvocationInitial) (hn : inv.cmdName = "uniq") (hu : Has inv "-u")
    (hx : ¬ ∃ n ∈ ["-c", "-d", "-D", "--all-repeated", "--group", "-z"], Has inv n) (prog : Programs)
    (same : List FlagOptionWithIOVar → String → String → Bool) (hprog : UniqProgram prog same)
    (c : CommandInvocationWithIOVars) (hb : Belongs inv c) (hcov : Covered "uniq" c.flagOptionList) (hc : OneStream c)
    (hstr : strOperands c = []) (l : String) : (∃ p, Offered inv p) ∧ ∀ p, Offered inv p → ∃ x parts, Split p.splitter x parts ∧
      (∃ y, Executes prog p c parts y) ∧ ∀ y, Executes prog p c parts y → y = [l] ∧ sequential prog c x = [] := by
  have hoff := uniq_offered hn (by
    rintro ⟨n, hm, hh⟩
    refine hx ⟨n, ?_, hh⟩
    simp only [List.mem_cons, List.not_mem_nil, or_false] at hm ⊢
    rcases hm with rfl | rfl | rfl <;> simp) (fun h => hx ⟨"-c", by simp, h⟩)
  have hng : ∀ n, n ∈ ["-c", "-d", "-D", "--all-repeated", "--group", "-z"] → ¬ Given c.flagOptionList n :=
    fun n hn hg => hx ⟨n, hn, (has_iff_given hb n).2 hg⟩
  have hug := (has_iff_given hb "-u").1 hu
  have hrefl := (hprog.equivalence c.flagOptionList).refl l
  have hseq : ∀ z, sequential prog c z = (groups (same c.flagOptionList) z).flatMap (showGroup c.flagOptionList) := by
    intro z
    unfold sequential
    rw [hb.1, hn, hstr, hprog.output _ _ hcov (by
      rintro ⟨n, hm, hg⟩
      refine hng n ?_ hg
      simp only [List.mem_cons, List.not_mem_nil, or_false] at hm ⊢
      rcases hm with rfl | rfl | rfl | rfl | rfl <;> simp)]
  have e1 : sequential prog c [l] = [l] := by
    rw [hseq]; simp [groups, showGroup, hng "-d" (by simp)]
  have e2 : sequential prog c [l, l] = [] := by
    rw [hseq]; simp [groups, showGroup, hug, hrefl]
  have e3 : sequential prog c [l, l, l] = [] := by
    rw [hseq]; simp [groups, showGroup, hug, hrefl]
  refine ⟨⟨plan .consecChunks (.nonFunc .adjLinesSeq false), (hoff _).2 (by simp [bothPlans])⟩, ?_⟩
  intro p hp
  have hplan : ∃ s, s ≠ .roundRobinUnwrapFlag ∧ p = plan s (.nonFunc .adjLinesSeq false) := by
    have := (hoff p).1 hp
    simp only [bothPlans, List.mem_cons, List.not_mem_nil, or_false] at this
    rcases this with rfl | rfl
    · exact ⟨.consecChunks, by simp, rfl⟩
    · exact ⟨.roundRobinPlain, by simp, rfl⟩
  obtain ⟨s, hne, rfl⟩ := hplan
  refine ⟨[l, l, l], [[l, l], [l]], ?_, C56_executable prog c hc s _ (by simp), ?_⟩
  · cases s
    case roundRobinUnwrapFlag => exact absurd rfl hne
    all_goals rfl
  · rintro y ⟨runs, hparts, hr, hrec⟩
    refine ⟨?_, e3⟩
    rw [runs_outputs hc rfl rfl hr, ← hparts] at hrec
    simp only [List.map_cons, List.map_nil, e1, e2] at hrec
    generalize ho : [[], [l]] = outs at hrec
    cases hrec with
    | concatenate hk => cases hk
    | tree hk => cases hk
    | adjacent _ h => exact spliced_two h ho.symm

example : ∃ inv, parse "uniq -u x" = .ok inv ∧ Has inv "-u" ∧
    (¬ ∃ n ∈ ["-c", "-d", "-D", "--all-repeated", "--group", "-z"], Has inv n) ∧
    Belongs inv (uniqSample [.flag "-u"]) ∧ Covered "uniq" (uniqSample [.flag "-u"]).flagOptionList ∧
    OneStream (uniqSample [.flag "-u"]) :=
  ⟨⟨"uniq", [.flag "-u"], ["x"]⟩, by decide +kernel, by simp [Has], by simp [Has], ⟨rfl, rfl⟩, by decide +kernel,
    uniqSample_ok _ (by simp [optionVar])⟩

/-- C56 is false of the code for the other methods of `--group`: with `append`, an execution on two equal lines gives
more than the sequential output. -/
theorem C56_group_false : ∃ inv p c x parts y, parse "uniq --group append x" = .ok inv ∧ Offered inv p ∧
    Belongs inv c ∧ Covered "uniq" c.flagOptionList ∧ OneStream c ∧ Split p.splitter x parts ∧ Executes uniqProgs p c parts y ∧
    y ≠ sequential uniqProgs c x := by
  have hc : OneStream (uniqSample [.optionVar 0 "--group" (.str "append")]) := uniqSample_ok _ (by simp [optionVar])
  refine ⟨⟨"uniq", [.option "--group" "append"], ["x"]⟩, plan .consecChunks (.nonFunc .adjLinesSeq false),
    uniqSample [.optionVar 0 "--group" (.str "append")], ["a", "a"], [["a"], ["a"]],
    splice (sequential uniqProgs (uniqSample [.optionVar 0 "--group" (.str "append")])) ["a", ""] ["a", ""],
    by decide +kernel, ?_, ⟨rfl, rfl⟩, by decide +kernel, hc, rfl, ?_, by decide +kernel⟩
  · exact (uniq_offered rfl (by simp [Has]) (by simp [Has]) _).2 (by simp [bothPlans])
  · have e : sequential uniqProgs (uniqSample [.optionVar 0 "--group" (.str "append")]) ["a"] = ["a", ""] := by
      decide +kernel
    have hr := mapperRun_exists uniqProgs (p := plan .consecChunks (.nonFunc .adjLinesSeq false)) hc rfl rfl ["a"]
    rw [e] at hr
    refine ⟨[(["a"], ["a", ""]), (["a"], ["a", ""])], rfl, ?_, .adjacent rfl (.node (.leaf _) (.leaf _))⟩
    intro r hm
    simp only [List.mem_cons, List.not_mem_nil, or_false, or_self] at hm
    rw [hm]; exact hr

end PashAnn
