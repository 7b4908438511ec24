import Verif.Lemmas.Par
import Verif.Props.Parse

/-! Properties C19 (second part) and C28 to C39: parallelizability. Specification: `Spec/Parallel.lean`. -/

namespace PashAnn
open Spec

/-- C19, parallelizability part, for every invocation: no information exactly if the command has no generator,
or it is `sed` without operand, or `tr` with `-d` or `-s` and without operand. -/
theorem C19_par_lookup (inv : CommandInvocationInitial) :
    getParallelizabilityInfo inv = none ↔ inv.cmdName ∉ parCommands ∨
      (inv.cmdName = "sed" ∧ inv.operandList = []) ∨
      (inv.cmdName = "tr" ∧ (Has inv "-d" ∨ Has inv "-s") ∧ inv.operandList = []) := by
  rw [mem_parCommands]
  have key : ∀ {n : String} {gen : ParGenerator}, inv.cmdName = n → (n, gen) ∈ parTable →
      ∀ i, gen inv = .ok i → getParallelizabilityInfo inv ≠ none := by
    intro n gen hn hm i hg hno
    rw [(getPar_gen hn hm i).2 hg] at hno; cases hno
  constructor
  · intro h
    by_cases hg : ∃ gen, (inv.cmdName, gen) ∈ parTable
    · right
      obtain ⟨gen, hm⟩ := hg
      have hmem := hm
      simp only [parTable, List.mem_cons, Prod.mk.injEq, List.not_mem_nil, or_false] at hm
      have hsort : gen = ParGen.sort → False := by
        rintro rfl
        by_cases hb : ∃ n ∈ ParGen.sortBlockers, Has inv n
        · exact key rfl hmem _ (par_sort_blocked inv hb) h
        · exact key rfl hmem _ (par_sort inv hb) h
      rcases hm with ⟨hn, rfl⟩ | ⟨hn, rfl⟩ | ⟨hn, rfl⟩ | ⟨hn, rfl⟩ | ⟨hn, rfl⟩ | ⟨hn, rfl⟩ | ⟨hn, rfl⟩ |
        ⟨hn, rfl⟩ | ⟨hn, rfl⟩ | ⟨hn, rfl⟩ | ⟨hn, rfl⟩ | ⟨hn, rfl⟩ | ⟨hn, rfl⟩ | ⟨hn, rfl⟩ | ⟨hn, rfl⟩
      · exact absurd h (key rfl hmem _ (par_altBigramsAux inv))
      · exact absurd h (key rfl hmem _ (par_bigramsAux inv))
      · exact absurd h (key rfl hmem _ (par_conc inv ParGen.col (by simp)))
      · exact (hsort rfl).elim
      · exact absurd h (key rfl hmem _ (par_conc inv ParGen.customTr (by simp)))
      · exact absurd h (key rfl hmem _ (par_conc inv ParGen.cut (by simp)))
      · by_cases hx : Has inv "-q" ∨ ((¬ ∃ n ∈ grepMasks, Has inv n) ∧ ∃ n ∈ grepSpecial, Has inv n)
        · exact absurd h (key rfl hmem _ (par_grep_none inv hx))
        · rw [not_or] at hx
          refine absurd h (key rfl hmem _ (par_grep_some inv hx.1 ?_))
          by_cases hm : ∃ n ∈ grepMasks, Has inv n
          · exact .inl hm
          · exact .inr (fun hs => hx.2 ⟨hm, hs⟩)
      · cases ho : inv.operandList with
        | nil => exact .inl ⟨hn, rfl⟩
        | cons o os =>
            by_cases hx : StartsWith "-" o ∨ StartsWith "s" o ∨ (¬ Occurs "d" o ∧ ¬ Occurs "q" o)
            · exact absurd h (key rfl hmem _ ((par_sed inv ho).1 hx))
            · exact absurd h (key rfl hmem _ ((par_sed inv ho).2 hx))
      · exact absurd h (key rfl hmem _ (par_setDiff inv))
      · exact (hsort rfl).elim
      · exact absurd h (key rfl hmem _ (par_test inv ParGen.testOne (by simp)))
      · exact absurd h (key rfl hmem _ (par_test inv ParGen.testTwo (by simp)))
      · by_cases hds : Has inv "-d" ∨ Has inv "-s"
        · by_cases ho : inv.operandList = []
          · exact .inr ⟨hn, hds, ho⟩
          · obtain ⟨os, o, hos⟩ := list_snoc _ ho
            cases ht : trNewline inv o with
            | false => exact absurd h (key rfl hmem _ ((par_tr_some inv hos).2.2 ht))
            | true =>
                by_cases hd : Has inv "-d"
                · exact absurd h (key rfl hmem _ ((par_tr_some inv hos).1 ⟨hd, ht⟩))
                · exact absurd h (key rfl hmem _ ((par_tr_some inv hos).2.1 ⟨hd, hds.resolve_left hd, ht⟩))
        · rw [not_or] at hds
          exact absurd h (key rfl hmem _ (par_tr_plain inv hds.1 hds.2))
      · by_cases hx : ∃ n ∈ ["-d", "-D", "--all-repeated"], Has inv n
        · exact absurd h (key rfl hmem _ (par_uniq_none inv hx))
        · by_cases hc : Has inv "-c"
          · exact absurd h (key rfl hmem _ (par_uniq_count inv hx hc))
          · exact absurd h (key rfl hmem _ (par_uniq_plain inv hx hc))
      · exact absurd h (key rfl hmem _ (par_conc inv ParGen.xargs (by simp)))
    · exact .inl hg
  · intro h
    cases hi : getParallelizabilityInfo inv with
    | none => rfl
    | some i =>
        rcases h with h | ⟨hn, ho⟩ | ⟨hn, hds, ho⟩
        · obtain ⟨gen, hm, _⟩ := getPar_some.1 hi
          exact absurd ⟨gen, hm⟩ h
        · have := (getPar_gen hn (show ("sed", ParGen.sed) ∈ parTable by simp [parTable]) i).1 hi
          rw [par_sed_nil inv ho] at this; cases this
        · have := (getPar_gen hn (show ("tr", ParGen.tr) ∈ parTable by simp [parTable]) i).1 hi
          rw [par_tr_nil inv hds ho] at this; cases this

example : (getParallelizabilityInfo ⟨"tr", [.flag "-d"], []⟩).isNone = true ∧
    (getParallelizabilityInfo ⟨"tr", [.flag "-d"], ["a"]⟩).isSome = true := by decide +kernel

/-- C28. Plain round robin recombines by concatenation or by looking at adjacent lines, never otherwise,
whatever number of times the inference function was called. -/
theorem C28_round_robin (inv : CommandInvocationInitial) (p : Parallelizer) (h : Offered inv p)
    (hs : p.splitter = .roundRobinPlain) :
    p.coreAggregatorSpec.kind = .concatenate ∨ p.coreAggregatorSpec.kind ∈ adjacentKinds := by
  obtain ⟨i, hi, h⟩ := offered_iff.1 h
  rcases h with h | ⟨_, q, _, _, rfl⟩
  · have hk : ∀ a : AggregatorSpec, a.kind ∈ rrKinds → a.kind = .concatenate ∨ a.kind ∈ adjacentKinds := by
      intro a; unfold rrKinds adjacentKinds; simp
    cases par_form hi with
    | none => simp at h
    | both hk' =>
        simp only [bothPlans, List.mem_cons, List.not_mem_nil, or_false] at h
        rcases h with rfl | rfl <;> exact hk _ hk'
    | one b hp => simp at h; subst h; rw [hp] at hs; cases hs
  · cases hs

/-- C29. Round robin is only offered together with consecutive chunks, with the same mapper and aggregator and
the same auxiliary information. -/
theorem C29_round_robin_chunks (inv : CommandInvocationInitial) (p : Parallelizer) (h : Offered inv p)
    (hs : p.splitter = .roundRobinPlain ∨ p.splitter = .roundRobinUnwrapFlag) :
    Offered inv { p with splitter := .consecChunks } := by
  obtain ⟨i, hi, h⟩ := offered_iff.1 h
  refine offered_iff.2 ⟨i, hi, .inl ?_⟩
  rcases h with h | ⟨_, q, hq, hqs, rfl⟩
  · cases par_form hi with
    | none => simp at h
    | both hk' =>
        simp only [bothPlans, List.mem_cons, List.not_mem_nil, or_false] at h ⊢
        rcases h with rfl | rfl <;> exact .inl rfl
    | one b hp => simp at h; subst h; rw [hp] at hs; rcases hs with hs | hs <;> cases hs
  · cases q; simp only at hqs; subst hqs; exact hq

theorem grep_offered {inv : CommandInvocationInitial} (hn : inv.cmdName = "grep")
    (h : ¬ Has inv "-q" ∧ ((∃ n ∈ grepMasks, Has inv n) ∨ ¬ ∃ n ∈ grepSpecial, Has inv n)) :
    getParallelizabilityInfo inv = some (offers (bothPlans concatenation)) :=
  (getPar_gen hn (show ("grep", ParGen.grep) ∈ parTable by simp [parTable]) _).2 (par_grep_some inv h.1 h.2)

example : ∃ inv, parse "grep -i foo f" = .ok inv ∧ Offered inv (plan .roundRobinPlain concatenation) :=
  ⟨⟨"grep", [.flag "-i"], ["foo", "f"]⟩, by decide +kernel, offered_iff.2 ⟨_, grep_offered rfl
    (by simp [Has, grepSpecial]), .inl (by simp [bothPlans])⟩⟩

/-- C30. An actual mapper or aggregator is only produced from an implemented part. -/
theorem C30_only_implemented (p : Parallelizer) (orig : CommandInvocationWithIOVars) :
    (∀ i o aux m, p.getActualMapper orig i o aux = .ok (some m) → p.coreMapperSpec.isImplemented = true) ∧
    (∀ ins o a, p.getActualAggregator orig ins o = .ok (some a) → p.coreAggregatorSpec.isImplemented = true) ∧
    (p.areAllPartsImplemented = true ↔
      p.coreMapperSpec.isImplemented = true ∧ p.coreAggregatorSpec.isImplemented = true) := by
  refine ⟨?_, ?_, by simp [Parallelizer.areAllPartsImplemented]⟩
  · intro i o aux m h
    obtain ⟨_, _, h⟩ := bind_ok h
    unfold MapperSpec.getMapper at h
    cases hi : p.coreMapperSpec.isImplemented with
    | true => rfl
    | false => rw [hi] at h; cases h
  · intro ins o a h
    unfold Parallelizer.getActualAggregator AggregatorSpec.getAggregator at h
    cases hs : p.coreAggregatorSpec with
    | nonFunc k b => cases b with
        | true => rfl
        | false => rw [hs] at h; cases h
    | funcTransformer k t b => cases b with
        | true => rfl
        | false => rw [hs] at h; cases h
    | funcString k t b => cases b with
        | true => rfl
        | false => rw [hs] at h; cases h

/-- C30. A mapper or aggregator that is not implemented gives nothing, without an error. -/
theorem C30_unimplemented_gives_nothing (p : Parallelizer) (orig : CommandInvocationWithIOVars) (i o : IOVar)
    (aux ins : List IOVar) (haux : aux.length = p.infoMapperAggregator) :
    (p.coreMapperSpec.isImplemented = false → p.getActualMapper orig i o aux = .ok none) ∧
    (p.coreAggregatorSpec.isImplemented = false → p.getActualAggregator orig ins o = .ok none) := by
  constructor
  · intro h
    simp [Parallelizer.getActualMapper, MapperSpec.getMapper, h, haux, pyAssert, bind, Except.bind]
  · intro h
    unfold Parallelizer.getActualAggregator AggregatorSpec.getAggregator
    cases hs : p.coreAggregatorSpec <;> rw [hs] at h <;> simp only [AggregatorSpec.isImplemented] at h <;>
      subst h <;> rfl

/-- C30. Parallelizers with an unimplemented part are offered only for `tr`, `uniq`, `test_one`, `test_two`; in
particular never for `grep`. -/
theorem C30_who_offers_unimplemented (inv : CommandInvocationInitial) (p : Parallelizer) (h : Offered inv p)
    (hp : p.areAllPartsImplemented = false) : inv.cmdName ∈ ["tr", "uniq", "test_one", "test_two"] := by
  obtain ⟨i, hi, h⟩ := offered_iff.1 h
  have h : ∃ q ∈ i.parallelizerList, q.areAllPartsImplemented = false := by
    rcases h with h | ⟨_, q, hq, hqs, rfl⟩
    · exact ⟨p, h, hp⟩
    · exact ⟨q, hq, hp⟩
  obtain ⟨q, hq, hqi⟩ := h
  obtain ⟨gen, hm, hg⟩ := getPar_some.1 hi
  simp only [parTable, List.mem_cons, Prod.mk.injEq, List.not_mem_nil, or_false] at hm
  have hboth : q ∈ bothPlans concatenation → False := by
    intro hq
    simp only [bothPlans, List.mem_cons, List.not_mem_nil, or_false] at hq
    rcases hq with rfl | rfl <;> cases hqi
  have hsort : gen = ParGen.sort → False := by
    rintro rfl
    by_cases hb : ∃ n ∈ ParGen.sortBlockers, Has inv n
    · rw [par_sort_blocked inv hb] at hg; cases hg; simp at hq
    · rw [par_sort inv hb] at hg; cases hg; simp at hq; subst hq; cases hqi
  rcases hm with ⟨hn, rfl⟩ | ⟨hn, rfl⟩ | ⟨hn, rfl⟩ | ⟨hn, rfl⟩ | ⟨hn, rfl⟩ | ⟨hn, rfl⟩ | ⟨hn, rfl⟩ |
    ⟨hn, rfl⟩ | ⟨hn, rfl⟩ | ⟨hn, rfl⟩ | ⟨hn, rfl⟩ | ⟨hn, rfl⟩ | ⟨hn, rfl⟩ | ⟨hn, rfl⟩ | ⟨hn, rfl⟩
  · rw [par_altBigramsAux] at hg; cases hg; simp at hq; subst hq; cases hqi
  · rw [par_bigramsAux] at hg; cases hg; simp at hq; subst hq; cases hqi
  · rw [par_conc inv ParGen.col (by simp)] at hg; cases hg; exact (hboth hq).elim
  · exact (hsort rfl).elim
  · rw [par_conc inv ParGen.customTr (by simp)] at hg; cases hg; exact (hboth hq).elim
  · rw [par_conc inv ParGen.cut (by simp)] at hg; cases hg; exact (hboth hq).elim
  · by_cases hx : Has inv "-q" ∨ ((¬ ∃ n ∈ grepMasks, Has inv n) ∧ ∃ n ∈ grepSpecial, Has inv n)
    · rw [par_grep_none inv hx] at hg; cases hg; simp at hq
    · rw [not_or] at hx
      rw [par_grep_some inv hx.1 (by
        by_cases hm : ∃ n ∈ grepMasks, Has inv n
        · exact .inl hm
        · exact .inr (fun hs => hx.2 ⟨hm, hs⟩))] at hg
      cases hg; exact (hboth hq).elim
  · cases ho : inv.operandList with
    | nil => rw [par_sed_nil inv ho] at hg; cases hg
    | cons o os =>
        by_cases hx : StartsWith "-" o ∨ StartsWith "s" o ∨ (¬ Occurs "d" o ∧ ¬ Occurs "q" o)
        · rw [(par_sed inv ho).1 hx] at hg; cases hg; exact (hboth hq).elim
        · rw [(par_sed inv ho).2 hx] at hg; cases hg; simp at hq
  · rw [par_setDiff] at hg; cases hg; simp at hq; subst hq; cases hqi
  · exact (hsort rfl).elim
  · simp [hn]
  · simp [hn]
  · simp [hn]
  · simp [hn]
  · rw [par_conc inv ParGen.xargs (by simp)] at hg; cases hg; exact (hboth hq).elim

theorem C30_grep_all_implemented (inv : CommandInvocationInitial) (p : Parallelizer) (h : Offered inv p)
    (hn : inv.cmdName = "grep") : p.areAllPartsImplemented = true := by
  cases hp : p.areAllPartsImplemented with
  | true => rfl
  | false =>
      have := C30_who_offers_unimplemented inv p h hp
      rw [hn] at this; simp at this

/-- C31. What grep offers: with `-q` nothing; if a context or limit option is present, or none of the options
that change the meaning of a line, chunks and round robin with concatenation; otherwise nothing. -/
theorem C31_grep_decision (inv : CommandInvocationInitial) (hn : inv.cmdName = "grep") :
    ∃ i, getParallelizabilityInfo inv = some i ∧ i.isCommutative = false ∧
      ((¬ Has inv "-q" ∧ ((∃ n ∈ ["-A", "-B", "-C", "-m"], Has inv n) ∨
          ¬ ∃ n ∈ ["-L", "-l", "-c", "-n", "-b"], Has inv n)) →
        i.parallelizerList = [plan .consecChunks concatenation, plan .roundRobinPlain concatenation]) ∧
      (¬ (¬ Has inv "-q" ∧ ((∃ n ∈ ["-A", "-B", "-C", "-m"], Has inv n) ∨
          ¬ ∃ n ∈ ["-L", "-l", "-c", "-n", "-b"], Has inv n)) → i.parallelizerList = []) := by
  have hm : ("grep", ParGen.grep) ∈ parTable := by simp [parTable]
  by_cases hx : Has inv "-q" ∨ ((¬ ∃ n ∈ grepMasks, Has inv n) ∧ ∃ n ∈ grepSpecial, Has inv n)
  · refine ⟨_, (getPar_gen hn hm _).2 (par_grep_none inv hx), rfl, fun h => ?_, fun _ => rfl⟩
    rcases hx with hx | hx
    · exact absurd hx h.1
    · rcases h.2 with h2 | h2
      · exact absurd h2 hx.1
      · exact absurd hx.2 h2
  · have hx' : ¬ Has inv "-q" ∧ ((∃ n ∈ grepMasks, Has inv n) ∨ ¬ ∃ n ∈ grepSpecial, Has inv n) := by
      rw [not_or] at hx
      refine ⟨hx.1, ?_⟩
      by_cases hm : ∃ n ∈ grepMasks, Has inv n
      · exact .inl hm
      · exact .inr (fun hs => hx.2 ⟨hm, hs⟩)
    exact ⟨_, grep_offered hn hx', rfl, fun _ => rfl, fun h => absurd hx' h⟩

example : ∃ inv, parse "grep -c foo f" = .ok inv ∧ inv.cmdName = "grep" ∧
    ∃ n ∈ ["-L", "-l", "-c", "-n", "-b"], Has inv n :=
  ⟨⟨"grep", [.flag "-c"], ["foo", "f"]⟩, by decide +kernel, rfl, "-c", by simp, by simp [Has]⟩

/-- C32 is false of the code: every grep invocation with a context or limit option and without `-q` is offered
splitting by chunks and round robin with plain concatenation. -/
theorem C32_context_split_false (inv : CommandInvocationInitial) (hn : inv.cmdName = "grep")
    (hm : ∃ n ∈ ["-A", "-B", "-C", "-m"], Has inv n) (hq : ¬ Has inv "-q") :
    Offered inv (plan .consecChunks concatenation) ∧ Offered inv (plan .roundRobinPlain concatenation) := by
  have hi := grep_offered hn ⟨hq, .inl hm⟩
  exact ⟨offered_iff.2 ⟨_, hi, .inl (by simp [bothPlans])⟩, offered_iff.2 ⟨_, hi, .inl (by simp [bothPlans])⟩⟩

/-- C32, what holds: with `-q` nothing is offered, so with a context or limit option splitting is avoided
exactly if `-q` is also given. -/
theorem C32_context_split_partial (inv : CommandInvocationInitial) (hn : inv.cmdName = "grep")
    (hm : ∃ n ∈ ["-A", "-B", "-C", "-m"], Has inv n) : (¬ ∃ p, Offered inv p) ↔ Has inv "-q" := by
  constructor
  · intro h
    by_cases hq : Has inv "-q"
    · exact hq
    · exact absurd ⟨_, (C32_context_split_false inv hn hm hq).1⟩ h
  · rintro hq ⟨p, hp⟩
    obtain ⟨i, hi, hp⟩ := offered_iff.1 hp
    have hg := (getPar_gen hn (show ("grep", ParGen.grep) ∈ parTable by simp [parTable]) i).1 hi
    rw [par_grep_none inv (.inl hq)] at hg
    cases hg
    rcases hp with hp | ⟨hp, _⟩
    · simp at hp
    · cases hp

example : ∃ inv, parse "grep -m 1 foo" = .ok inv ∧ inv.cmdName = "grep" ∧
    (∃ n ∈ ["-A", "-B", "-C", "-m"], Has inv n) ∧ ¬ Has inv "-q" :=
  ⟨⟨"grep", [.option "-m" "1"], ["foo"]⟩, by decide +kernel, rfl, ⟨"-m", by simp, by simp [Has]⟩, by simp [Has]⟩

/-- C32 is false of the code for the long spellings too, which the data files declare as options of their own and the
generator does not know: they are offered the same, and do not even matter for what is offered. -/
theorem C32_long_false (inv : CommandInvocationInitial) (hn : inv.cmdName = "grep") (n : String)
    (hm : n ∈ ["--after-context", "--before-context", "--context", "--max-count"]) (a : String)
    (hx : ¬ ∃ n ∈ ["-q", "-L", "-l", "-c", "-n", "-b"], Has inv n) (p : Parallelizer) :
    (p ∈ [plan .consecChunks concatenation, plan .roundRobinPlain concatenation] → Offered inv p) ∧
    (Offered { inv with flagOptionList := inv.flagOptionList ++ [.option n a] } p ↔ Offered inv p) := by
  have key : ∀ inv' : CommandInvocationInitial, inv'.cmdName = "grep" →
      (¬ ∃ n ∈ ["-q", "-L", "-l", "-c", "-n", "-b"], Has inv' n) →
      (Offered inv' p ↔ p ∈ [plan .consecChunks concatenation, plan .roundRobinPlain concatenation]) := by
    intro inv' hn' hx'
    have hi := grep_offered hn' ⟨fun h => hx' ⟨"-q", by simp, h⟩, .inr (by
      rintro ⟨m, hm, h⟩
      refine hx' ⟨m, ?_, h⟩
      simp only [grepSpecial, List.mem_cons, List.not_mem_nil, or_false] at hm ⊢
      exact .inr hm)⟩
    rw [offered_iff]
    constructor
    · rintro ⟨i, hi', hp⟩
      rw [hi] at hi'; cases hi'
      rcases hp with hp | ⟨hp, _⟩
      · exact hp
      · cases hp
    · intro h; exact ⟨_, hi, .inl h⟩
  refine ⟨(key inv hn hx).2, ?_⟩
  rw [key inv hn hx, key { inv with flagOptionList := inv.flagOptionList ++ [.option n a] } hn]
  rintro ⟨m, hm', h⟩
  refine hx ⟨m, hm', ?_⟩
  have hne : m ≠ n := by
    rintro rfl
    simp only [List.mem_cons, List.not_mem_nil, or_false] at hm hm'
    rcases hm with rfl | rfl | rfl | rfl <;> simp at hm'
  rcases h with h | ⟨b, h⟩
  · exact .inl (by simpa using h)
  · refine .inr ⟨b, ?_⟩
    simp only [List.mem_append, List.mem_singleton] at h
    rcases h with h | h
    · exact h
    · cases h; exact absurd rfl hne

example : ∃ inv, parse "grep --context 1 foo" = .ok inv ∧ inv.cmdName = "grep" ∧ Has inv "--context" ∧
    ¬ ∃ n ∈ ["-q", "-L", "-l", "-c", "-n", "-b"], Has inv n :=
  ⟨⟨"grep", [.option "--context" "1"], ["foo"]⟩, by decide +kernel, rfl, by simp [Has], by simp [Has]⟩

/-- C33. What sort offers. -/
theorem C33_sort_decision (inv : CommandInvocationInitial) (hn : inv.cmdName = "sort" ∨ inv.cmdName = "custom_sort") :
    ∃ i, getParallelizabilityInfo inv = some i ∧ i.isCommutative = true ∧
      ((∃ n ∈ ["-c", "-C", "-u", "-z", "-R", "-s", "-m", "--files0-from", "--random-source"], Has inv n) →
        i.parallelizerList = []) ∧
      ((¬ ∃ n ∈ ["-c", "-C", "-u", "-z", "-R", "-s", "-m", "--files0-from", "--random-source"], Has inv n) →
        ∃ t, i.parallelizerList = [plan .consecChunks (.funcTransformer .custom2Ary t true)]) := by
  have hgen : ∀ i, getParallelizabilityInfo inv = some i ↔ ParGen.sort inv = .ok i := by
    intro i
    rcases hn with hn | hn
    · exact getPar_gen hn (by simp [parTable]) i
    · exact getPar_gen hn (by simp [parTable]) i
  by_cases hb : ∃ n ∈ ParGen.sortBlockers, Has inv n
  · exact ⟨_, (hgen _).2 (par_sort_blocked inv hb), rfl, fun _ => rfl, fun h => absurd hb h⟩
  · exact ⟨_, (hgen _).2 (par_sort inv hb), rfl, fun h => absurd h hb, fun _ => ⟨_, rfl⟩⟩

example : ∃ inv, parse "sort -rn -k 2" = .ok inv ∧ inv.cmdName = "sort" ∧
    ¬ ∃ n ∈ ["-c", "-C", "-u", "-z", "-R", "-s", "-m", "--files0-from", "--random-source"], Has inv n :=
  ⟨⟨"sort", [.flag "-r", .flag "-n", .option "-k" "2"], []⟩, by decide +kernel, rfl, by simp [Has]⟩

/-- The flags and options that determine sort's order. -/
def orderingNames : List String := ["-b", "-d", "-f", "-g", "-i", "-M", "-h", "-n", "-r", "--sort", "-V", "-k", "-t"]

theorem sort_offered {inv : CommandInvocationInitial} (hn : inv.cmdName = "sort" ∨ inv.cmdName = "custom_sort")
    {p : Parallelizer} (hp : Offered inv p) : (¬ ∃ n ∈ ParGen.sortBlockers, Has inv n) ∧
      (p = plan .consecChunks sortMerge ∨ p = plan .roundRobinUnwrapFlag sortMerge) := by
  obtain ⟨i, hi, hp⟩ := offered_iff.1 hp
  have hg : ParGen.sort inv = .ok i := by
    rcases hn with hn | hn
    · exact (getPar_gen hn (by simp [parTable]) i).1 hi
    · exact (getPar_gen hn (by simp [parTable]) i).1 hi
  by_cases hb : ∃ n ∈ ParGen.sortBlockers, Has inv n
  · rw [par_sort_blocked inv hb] at hg; cases hg
    rcases hp with hp | ⟨_, q, hq, _⟩
    · simp at hp
    · simp at hq
  · refine ⟨hb, ?_⟩
    rw [par_sort inv hb] at hg; cases hg
    rcases hp with hp | ⟨_, q, hq, _, rfl⟩
    · simp at hp; exact .inl hp
    · simp at hq; subst hq; exact .inr rfl

theorem sortTransformer_apply (l : List FlagOptionWithIOVar) : ParGen.sortTransformer.apply l =
    l.filter (fun x => x.getName ∈ orderingNames) ++ [.flag "-m"] := by
  have hno : pyIn (.flag "-m") (l.filter (fun x => x.getName ∈ ParGen.sortKept)) = false := by
    rw [← Bool.not_eq_true, pyIn, List.any_eq_true]
    rintro ⟨x, hx, he⟩
    obtain ⟨_, hx⟩ := List.mem_filter.1 hx
    cases x with
    | flag n =>
        simp only [FlagOptionWithIOVar.pyEq, beq_iff_eq] at he
        subst he
        simp [FlagOptionWithIOVar.getName, ParGen.sortKept] at hx
    | optionVar => cases he
    | optionIO => cases he
  simp only [ParGen.sortTransformer, Transformer.apply, Transformer.applyChain, List.filter_cons, List.filter_nil,
    hno, Bool.not_false, if_true]
  rfl

/-- C34. Every aggregator built for sort has the original's ordering flags and options, in order and with their
arguments, followed by `-m`, and nothing else. (`OptionWithIO` objects never hold a variable, which is the
hypothesis `NoVisitedOption`.) -/
theorem C34_merge_flags (inv : CommandInvocationInitial) (hn : inv.cmdName = "sort" ∨ inv.cmdName = "custom_sort")
    (p : Parallelizer) (hp : Offered inv p) (orig : CommandInvocationWithIOVars) (ins : List IOVar) (out : IOVar)
    (agg : Aggregator) (hv : NoVisitedOption orig.flagOptionList)
    (h : p.getActualAggregator orig ins out = .ok (some agg)) :
    agg.cmd.cmdName = orig.cmdName ∧ agg.cmd.flagOptionList =
      orig.flagOptionList.filter (fun x => x.getName ∈ orderingNames) ++ [.flag "-m"] := by
  have hagg : p.coreAggregatorSpec = sortMerge := by
    rcases (sort_offered hn hp).2 with rfl | rfl <;> rfl
  have ht := sortTransformer_apply orig.flagOptionList
  unfold Parallelizer.getActualAggregator at h
  rw [hagg] at h
  simp only [sortMerge, AggregatorSpec.getAggregator, Bool.not_true, Bool.false_eq_true, if_false] at h
  obtain ⟨_, _, h⟩ := bind_ok h
  obtain ⟨c1, h1, h⟩ := bind_ok h
  obtain ⟨m, hm, h⟩ := bind_ok h
  obtain ⟨c2, h2, h⟩ := bind_ok h
  cases h
  have hv' : NoVisitedOption (ParGen.sortTransformer.apply orig.flagOptionList) := by
    rw [ht]; intro n v hm
    rcases List.mem_append.1 hm with hm | hm
    · exact hv n v (List.mem_filter.1 hm).1
    · simp at hm
  obtain ⟨r1, hr1, h1⟩ := bind_ok h1
  cases h1
  obtain ⟨hf1, hn1⟩ := flatMapAnything_flags (by exact hv') hr1
  simp only at hf1 hn1
  obtain ⟨r2, hr2, h2⟩ := bind_ok h2
  cases h2
  obtain ⟨hf2, hn2⟩ := flatMapAnything_flags (by simp only [hf1]; exact hv') hr2
  simp only at hf2 hn2
  exact ⟨hn2.trans hn1, by rw [← ht]; exact hf2.trans hf1⟩

example : ∃ orig agg, NoVisitedOption orig.flagOptionList ∧
    (plan .consecChunks sortMerge).getActualAggregator orig [5, 6] 7 = .ok (some agg) ∧ agg.cmd =
      ⟨"sort", [.flag "-r", .optionIO "-k" (.str "2"), .flag "-m"], [.var 5, .var 6], none, some 7,
        [(5, .streamInput), (6, .streamInput), (7, .streamOutput)]⟩ :=
  ⟨⟨"sort", [.flag "-r", .flag "--debug", .optionIO "-k" (.str "2")], [.var 0], none, some 1,
    [(0, .streamInput), (1, .streamOutput)]⟩, ⟨.custom2Ary, _⟩, by intro n v; simp, by decide +kernel, rfl⟩

/-- C35 is false of the code: `tr -d '\n'` is offered plain concatenation, because the escape is only noticed
when it is not at the start of the set. -/
theorem C35_newline_false : ∃ inv, parse "tr -d '\\n'" = .ok inv ∧ inv.operandList = ["\\n"] ∧
    Offered inv (plan .consecChunks concatenation) := by
  refine ⟨⟨"tr", [.flag "-d"], ["\\n"]⟩, by decide +kernel, rfl, offered_iff.2 ⟨offers (bothPlans concatenation), ?_, ?_⟩⟩
  · rw [getPar_gen rfl (show ("tr", ParGen.tr) ∈ parTable by simp [parTable])]
    exact (par_tr_some _ (os := []) rfl).2.2 (by decide +kernel)
  · exact .inl (by simp [bothPlans])

/-- C35 is false in the same way for every set that starts with the escape and does not name the null
character, whatever other operands and flags there are, unless `-c` negates a single set. -/
theorem C35_leading_newline_false (inv : CommandInvocationInitial) (hn : inv.cmdName = "tr") (os : List String)
    (o : String) (ho : inv.operandList = os ++ [o]) (hnl : StartsWith "\\n" o) (h0 : ¬ Occurs "\\0" o)
    (hc : ¬ (os = [] ∧ Has inv "-c")) : Offered inv (plan .consecChunks concatenation) := by
  have h1 : trNewline inv o = false := by
    have hnlf : containsNewLine o = false := by
      unfold containsNewLine; rw [decide_eq_false_iff_not, pyFind_pos]; exact fun h => h.2 hnl
    have h0f : containsNullChar o = false := by
      unfold containsNullChar; rw [decide_eq_false_iff_not, pyFind_pos]; exact fun h => h0 h.1
    unfold trNewline
    simp only [hnlf, h0f, Bool.or_self, Bool.not_false]
    split
    · rename_i hb
      simp only [ho, List.length_append, List.length_singleton, Bool.and_eq_true, decide_eq_true_eq,
        contains_one] at hb
      exact absurd ⟨List.length_eq_zero_iff.1 (by omega), hb.2⟩ hc
    · rfl
  refine offered_iff.2 ⟨offers (bothPlans concatenation), ?_, .inl (by simp [bothPlans])⟩
  rw [getPar_gen hn (show ("tr", ParGen.tr) ∈ parTable by simp [parTable])]
  exact (par_tr_some _ ho).2.2 h1

/-- C35 when the last set names the newline escape after its start and is not complemented: nothing is
recombined by plain concatenation. -/
theorem C35_newline_partial (inv : CommandInvocationInitial) (hn : inv.cmdName = "tr") (os : List String)
    (o : String) (ho : inv.operandList = os ++ [o]) (hds : Has inv "-d" ∨ Has inv "-s")
    (hnl : Occurs "\\n" o ∧ ¬ StartsWith "\\n" o) (hc : ¬ (os = [] ∧ Has inv "-c"))
    (p : Parallelizer) (hp : Offered inv p) : p.coreAggregatorSpec.kind ≠ .concatenate := by
  have h1 : trNewline inv o = true := by
    have hnlt : containsNewLine o = true := by
      unfold containsNewLine; rw [decide_eq_true_eq, pyFind_pos]; exact hnl
    unfold trNewline
    simp only [hnlt, Bool.true_or, Bool.not_true]
    split
    · rename_i hb
      simp only [ho, List.length_append, List.length_singleton, Bool.and_eq_true, decide_eq_true_eq,
        contains_one] at hb
      exact absurd ⟨List.length_eq_zero_iff.1 (by omega), hb.2⟩ hc
    · rfl
  obtain ⟨i, hi, hp⟩ := offered_iff.1 hp
  have hg := (getPar_gen hn (show ("tr", ParGen.tr) ∈ parTable by simp [parTable]) i).1 hi
  have : ∃ a : AggregatorSpec, i = offers (bothPlans a) ∧ a.kind ≠ .concatenate := by
    by_cases hd : Has inv "-d"
    · rw [(par_tr_some inv ho).1 ⟨hd, h1⟩] at hg; cases hg; exact ⟨_, rfl, by simp [AggregatorSpec.kind]⟩
    · rw [(par_tr_some inv ho).2.1 ⟨hd, hds.resolve_left hd, h1⟩] at hg; cases hg
      exact ⟨_, rfl, by simp [AggregatorSpec.kind]⟩
  obtain ⟨a, rfl, ha⟩ := this
  rcases hp with hp | ⟨hp, _⟩
  · simp only [bothPlans, List.mem_cons, List.not_mem_nil, or_false] at hp
    rcases hp with rfl | rfl <;> exact ha
  · cases hp

/-- C35, exactly: which `tr -d` and `tr -s` invocations are never recombined by plain concatenation. An escape
counts if it occurs and is not at the start; a single set with `-c` must have none of the two escapes, any other last
set at least one. -/
theorem C35_exact (inv : CommandInvocationInitial) (hn : inv.cmdName = "tr") (os : List String) (o : String)
    (ho : inv.operandList = os ++ [o]) (hds : Has inv "-d" ∨ Has inv "-s") :
    (∀ p, Offered inv p → p.coreAggregatorSpec.kind ≠ .concatenate) ↔
      ((os = [] ∧ Has inv "-c") ↔
        ¬ ∃ e ∈ ["\\n", "\\0"], Occurs e o ∧ ¬ StartsWith e o) := by
  have hnl : containsNewLine o = true ↔ (Occurs "\\n" o ∧ ¬ StartsWith "\\n" o) := by
    unfold containsNewLine; rw [decide_eq_true_eq, pyFind_pos]
  have h0 : containsNullChar o = true ↔ (Occurs "\\0" o ∧ ¬ StartsWith "\\0" o) := by
    unfold containsNullChar; rw [decide_eq_true_eq, pyFind_pos]
  have hb : ((decide (inv.operandList.length = 1) && containsAtLeastOneOf inv ["-c"]) = true) ↔
      (os = [] ∧ Has inv "-c") := by
    simp only [ho, List.length_append, List.length_singleton, Bool.and_eq_true, decide_eq_true_eq, contains_one]
    constructor
    · rintro ⟨h1, h2⟩; exact ⟨List.length_eq_zero_iff.1 (by omega), h2⟩
    · rintro ⟨rfl, h2⟩; exact ⟨rfl, h2⟩
  have hesc : (∃ e ∈ ["\\n", "\\0"], Occurs e o ∧ ¬ StartsWith e o) ↔
      (containsNewLine o || containsNullChar o) = true := by
    rw [Bool.or_eq_true, hnl, h0]; simp
  have htr : trNewline inv o = true ↔ ((os = [] ∧ Has inv "-c") ↔
      ¬ ∃ e ∈ ["\\n", "\\0"], Occurs e o ∧ ¬ StartsWith e o) := by
    rw [hesc, ← hb]
    unfold trNewline
    cases (decide (inv.operandList.length = 1) && containsAtLeastOneOf inv ["-c"]) <;>
      cases (containsNewLine o || containsNullChar o) <;> simp
  rw [← htr]
  have hm : ("tr", ParGen.tr) ∈ parTable := by simp [parTable]
  constructor
  · intro h
    cases ht : trNewline inv o with
    | true => rfl
    | false =>
        exfalso
        refine h (plan .consecChunks concatenation) (offered_iff.2 ⟨offers (bothPlans concatenation), ?_,
          .inl (by simp [bothPlans])⟩) rfl
        rw [getPar_gen hn hm]
        exact (par_tr_some _ ho).2.2 ht
  · intro h1 p hp
    obtain ⟨i, hi, hp⟩ := offered_iff.1 hp
    have hg := (getPar_gen hn hm i).1 hi
    have : ∃ a : AggregatorSpec, i = offers (bothPlans a) ∧ a.kind ≠ .concatenate := by
      by_cases hd : Has inv "-d"
      · rw [(par_tr_some inv ho).1 ⟨hd, h1⟩] at hg; cases hg; exact ⟨_, rfl, by simp [AggregatorSpec.kind]⟩
      · rw [(par_tr_some inv ho).2.1 ⟨hd, hds.resolve_left hd, h1⟩] at hg; cases hg
        exact ⟨_, rfl, by simp [AggregatorSpec.kind]⟩
    obtain ⟨a, rfl, ha⟩ := this
    rcases hp with hp | ⟨hp, _⟩
    · simp only [bothPlans, List.mem_cons, List.not_mem_nil, or_false] at hp
      rcases hp with rfl | rfl <;> exact ha
    · cases hp

example : ∃ inv, parse "tr -d 'a\\n'" = .ok inv ∧ inv.operandList = [] ++ ["a\\n"] ∧ Has inv "-d" ∧
    (Occurs "\\n" "a\\n" ∧ ¬ StartsWith "\\n" "a\\n") ∧ ¬ Has inv "-c" := by
  refine ⟨⟨"tr", [.flag "-d"], ["a\\n"]⟩, by decide +kernel, rfl, by simp [Has], ?_, by simp [Has]⟩
  rw [← pyFind_pos]; decide +kernel

/-- C36. What uniq offers. -/
theorem C36_uniq (inv : CommandInvocationInitial) (hn : inv.cmdName = "uniq") :
    ∃ i, getParallelizabilityInfo inv = some i ∧ i.isCommutative = false ∧
      ((Has inv "-d" ∨ Has inv "-D" ∨ Has inv "--all-repeated") → i.parallelizerList = []) ∧
      (¬ (Has inv "-d" ∨ Has inv "-D" ∨ Has inv "--all-repeated") →
        ∃ a : AggregatorSpec, a.kind ∈ adjacentKinds ∧ (a.kind = .adjLinesSeq ↔ ¬ Has inv "-c") ∧
          a.isImplemented = false ∧ i.parallelizerList = [plan .consecChunks a, plan .roundRobinPlain a]) := by
  have hm : ("uniq", ParGen.uniq) ∈ parTable := by simp [parTable]
  have hiff : (∃ n ∈ ["-d", "-D", "--all-repeated"], Has inv n) ↔
      Has inv "-d" ∨ Has inv "-D" ∨ Has inv "--all-repeated" := by simp
  by_cases hx : ∃ n ∈ ["-d", "-D", "--all-repeated"], Has inv n
  · exact ⟨_, (getPar_gen hn hm _).2 (par_uniq_none inv hx), rfl, fun _ => rfl, fun h => absurd (hiff.1 hx) h⟩
  · by_cases hc : Has inv "-c"
    · exact ⟨_, (getPar_gen hn hm _).2 (par_uniq_count inv hx hc), rfl, fun h => absurd (hiff.2 h) hx,
        fun _ => ⟨.funcString .adjLinesFunc "PLACEHOLDER:uniq_merge_count_uniq" false, by simp [AggregatorSpec.kind,
          adjacentKinds], by simp [AggregatorSpec.kind, hc], rfl, rfl⟩⟩
    · exact ⟨_, (getPar_gen hn hm _).2 (par_uniq_plain inv hx hc), rfl, fun h => absurd (hiff.2 h) hx,
        fun _ => ⟨.nonFunc .adjLinesSeq false, by simp [AggregatorSpec.kind, adjacentKinds],
          by simp [AggregatorSpec.kind, hc], rfl, rfl⟩⟩

/-- C36. What sed offers. -/
theorem C36_sed (inv : CommandInvocationInitial) (hn : inv.cmdName = "sed") :
    (inv.operandList = [] → getParallelizabilityInfo inv = none) ∧
    ∀ o os, inv.operandList = o :: os → ∃ i, getParallelizabilityInfo inv = some i ∧ i.isCommutative = false ∧
      ((StartsWith "-" o ∨ StartsWith "s" o ∨ (¬ Occurs "d" o ∧ ¬ Occurs "q" o)) →
        i.parallelizerList = [plan .consecChunks concatenation, plan .roundRobinPlain concatenation]) ∧
      (¬ (StartsWith "-" o ∨ StartsWith "s" o ∨ (¬ Occurs "d" o ∧ ¬ Occurs "q" o)) → i.parallelizerList = []) := by
  have hm : ("sed", ParGen.sed) ∈ parTable := by simp [parTable]
  constructor
  · intro ho
    rw [C19_par_lookup]; exact .inr (.inl ⟨hn, ho⟩)
  · intro o os ho
    by_cases hx : StartsWith "-" o ∨ StartsWith "s" o ∨ (¬ Occurs "d" o ∧ ¬ Occurs "q" o)
    · exact ⟨_, (getPar_gen hn hm _).2 ((par_sed inv ho).1 hx), rfl, fun _ => rfl, fun h => absurd hx h⟩
    · exact ⟨_, (getPar_gen hn hm _).2 ((par_sed inv ho).2 hx), rfl, fun h => absurd h hx, fun _ => rfl⟩

example : ∃ inv, parse "sed 5q" = .ok inv ∧ inv.operandList = ["5q"] ∧ Occurs "q" "5q" :=
  ⟨⟨"sed", [], ["5q"]⟩, by decide +kernel, rfl, by rw [← pyFind_nonneg]; decide +kernel⟩

/-- `Respelled name words words'`: the argument lists differ only in which of the declared synonyms are used for
flags and options, at any number of places where flags and options are read. -/
inductive Respelled (name : String) : List String → List String → Prop
  | refl (ws) : Respelled name ws ws
  | trans {ws ws' ws''} : Respelled name ws ws' → Respelled name ws' ws'' → Respelled name ws ws''
  | flag {d pre post g f f'} : DatabaseFor name d → FlagsOnly name pre → g ∈ flagGroups d → f ∈ g → f' ∈ g →
      Respelled name (pre ++ f :: post) (pre ++ f' :: post)
  | option {d pre post g o o' arg} : DatabaseFor name d → FlagsOnly name pre → g ∈ optionGroups d → o ∈ g →
      o' ∈ g → Respelled name (pre ++ o :: arg :: post) (pre ++ o' :: arg :: post)

/-- C37. Respelling with synonyms changes neither the invocation nor, therefore, any annotation. -/
theorem C37_synonyms (name : String) (ws ws' : List String) (h : Respelled name ws ws')
    (inv : CommandInvocationInitial) (hp : parse (Shlex.join (name :: ws)) = .ok inv) :
    ∃ inv', parse (Shlex.join (name :: ws')) = .ok inv' ∧
      getInputOutputInfo inv' = getInputOutputInfo inv ∧
      getParallelizabilityInfo inv' = getParallelizabilityInfo inv := by
  have : parse (Shlex.join (name :: ws)) = parse (Shlex.join (name :: ws')) := by
    clear hp
    induction h with
    | refl => rfl
    | trans _ _ ih1 ih2 => exact ih1.trans ih2
    | flag hd hpre hg hf hf' => exact C06_flag_synonyms name _ hd _ _ hpre _ hg _ _ hf hf'
    | option hd hpre hg ho ho' => exact C07_option_synonyms name _ hd _ _ hpre _ hg _ _ ho ho' _
  exact ⟨inv, by rw [← this]; exact hp, rfl, rfl⟩

example : Respelled "sort" ["--reverse", "--key", "2", "f"] ["-r", "-k", "2", "f"] := by
  have hd : DatabaseFor "sort" Data.d_sort := databaseFor_table (by simp [Data.table])
  refine .trans (.flag (d := Data.d_sort) (pre := []) (g := ["-r", "--reverse"]) (f' := "-r") hd
    ⟨⟨"sort", [], []⟩, by decide +kernel, rfl⟩ (by decide +kernel) (by simp) (by simp)) ?_
  exact .option (d := Data.d_sort) (pre := ["-r"]) (g := ["-k", "--key"]) hd
    ⟨⟨"sort", [.flag "-r"], []⟩, by decide +kernel, rfl⟩ (by decide +kernel) (by simp) (by simp)

/-- C38. The inferred list: the stored list and, for commutative commands, one round-robin-with-unwrap copy of
each consecutive-chunks parallelizer, in order. `unpack_info` returns the same list with the two flags. -/
theorem C38_inferred (i : ParallelizabilityInfo) :
    i.getInferredParallelizerList.1 = i.parallelizerList ++ (if i.isCommutative = true then
      (i.parallelizerList.filter (fun p => p.splitter = .consecChunks)).map
        (fun p => { p with splitter := .roundRobinUnwrapFlag }) else []) ∧
    i.unpackInfo.1 = (i.getInferredParallelizerList.1, i.roundRobinCompatibleWithCat, i.isCommutative) :=
  ⟨inferred_eq i, rfl⟩

example : (offers [plan .consecChunks sortMerge] true).getInferredParallelizerList.1 =
    [plan .consecChunks sortMerge, plan .roundRobinUnwrapFlag sortMerge] := by
  rw [inferred_eq]; simp [plan]

/-- The list returned by the `n`-th call (counting from 0). -/
def answer (n : Nat) (i : ParallelizabilityInfo) : List Parallelizer := (asked n i).getInferredParallelizerList.1

/-- C39 is false of the code: the stored list grows. For a commutative command with `k` chunk parallelizers
every call returns `k` more parallelizers than the one before. -/
theorem C39_repeated_false (i : ParallelizabilityInfo) (hc : i.isCommutative = true) (n : Nat) :
    (answer n i).length = i.parallelizerList.length +
      (n + 1) * (i.parallelizerList.filter (fun p => p.splitter = .consecChunks)).length := by
  have hfil : ∀ n, (asked n i).parallelizerList.filter (fun p => p.splitter = .consecChunks) =
      i.parallelizerList.filter (fun p => p.splitter = .consecChunks) := by
    intro n
    induction n with
    | zero => rfl
    | succ n ih =>
        show (asked n i).getInferredParallelizerList.1.filter _ = _
        rw [inferred_eq, if_pos (by rw [asked_comm]; exact hc), List.filter_append, ih]
        simp [List.filter_map, Function.comp_def]
  have hlen : ∀ n, (asked n i).parallelizerList.length = i.parallelizerList.length +
      n * (i.parallelizerList.filter (fun p => p.splitter = .consecChunks)).length := by
    intro n
    induction n with
    | zero => simp [asked]
    | succ n ih =>
        show ((asked n i).getInferredParallelizerList.1).length = _
        rw [inferred_eq, if_pos (by rw [asked_comm]; exact hc), List.length_append, List.length_map, hfil, ih,
          Nat.succ_mul]
        omega
  exact hlen (n + 1)

/-- C39 fails for a reachable object: `sort` without blocking options. -/
theorem C39_sort_false (inv : CommandInvocationInitial) (hn : inv.cmdName = "sort")
    (hb : ¬ ∃ n ∈ ["-c", "-C", "-u", "-z", "-R", "-s", "-m", "--files0-from", "--random-source"], Has inv n) :
    ∃ i, getParallelizabilityInfo inv = some i ∧ ∀ n, (answer n i).length = n + 2 := by
  refine ⟨_, (getPar_gen hn (show ("sort", ParGen.sort) ∈ parTable by simp [parTable]) _).2 (par_sort inv hb), ?_⟩
  intro n
  rw [C39_repeated_false _ rfl n]
  simp [plan]; omega

/-- C39 holds if the command is not commutative or has no chunk parallelizer. -/
theorem C39_repeated_partial (i : ParallelizabilityInfo)
    (h : i.isCommutative = false ∨ ∀ p ∈ i.parallelizerList, p.splitter ≠ .consecChunks) (n : Nat) :
    answer n i = i.parallelizerList := by
  have key : ∀ j : ParallelizabilityInfo, (j.isCommutative = false ∨
      ∀ p ∈ j.parallelizerList, p.splitter ≠ .consecChunks) → j.getInferredParallelizerList.1 = j.parallelizerList := by
    intro j hj
    rw [inferred_eq]
    rcases hj with hj | hj
    · simp [hj]
    · have : j.parallelizerList.filter (fun p => p.splitter = .consecChunks) = [] := by
        rw [List.filter_eq_nil_iff]; intro p hp; simpa using hj p hp
      rw [this]; simp
  have hask : ∀ n, (asked n i).parallelizerList = i.parallelizerList ∧
      ((asked n i).isCommutative = false ∨ ∀ p ∈ (asked n i).parallelizerList, p.splitter ≠ .consecChunks) := by
    intro n
    induction n with
    | zero => exact ⟨rfl, h⟩
    | succ n ih =>
        have he : (asked (n + 1) i).parallelizerList = i.parallelizerList := (key _ ih.2).trans ih.1
        refine ⟨he, ?_⟩
        rw [he, asked_comm]; exact h
  exact (key _ (hask n).2).trans (hask n).1

/-- C39, exactly: all answers are the same if and only if the command is not commutative or has no chunk
parallelizer. -/
theorem C39_exact (i : ParallelizabilityInfo) :
    (∀ n m, answer n i = answer m i) ↔
      i.isCommutative = false ∨ ∀ p ∈ i.parallelizerList, p.splitter ≠ .consecChunks := by
  refine ⟨fun h => ?_, fun h n m => by rw [C39_repeated_partial i h n, C39_repeated_partial i h m]⟩
  cases hc : i.isCommutative with
  | false => exact .inl rfl
  | true =>
      refine .inr fun p hp hs => ?_
      have h01 := congrArg List.length (h 0 1)
      rw [C39_repeated_false i hc, C39_repeated_false i hc] at h01
      have : p ∈ i.parallelizerList.filter (fun p => p.splitter = .consecChunks) := by
        rw [List.mem_filter]; exact ⟨hp, by simpa using hs⟩
      have := List.length_pos_of_mem this
      omega

/-- C39 for every command other than sort and custom_sort. -/
theorem C39_other_commands_partial (inv : CommandInvocationInitial) (i : ParallelizabilityInfo)
    (h : getParallelizabilityInfo inv = some i) (hn : inv.cmdName ≠ "sort" ∧ inv.cmdName ≠ "custom_sort") (n : Nat) :
    answer n i = i.parallelizerList := by
  refine C39_repeated_partial i ?_ n
  obtain ⟨gen, hm, hg⟩ := getPar_some.1 h
  simp only [parTable, List.mem_cons, Prod.mk.injEq, List.not_mem_nil, or_false] at hm
  rcases hm with ⟨hn', rfl⟩ | ⟨hn', rfl⟩ | ⟨hn', rfl⟩ | ⟨hn', rfl⟩ | ⟨hn', rfl⟩ | ⟨hn', rfl⟩ | ⟨hn', rfl⟩ |
    ⟨hn', rfl⟩ | ⟨hn', rfl⟩ | ⟨hn', rfl⟩ | ⟨hn', rfl⟩ | ⟨hn', rfl⟩ | ⟨hn', rfl⟩ | ⟨hn', rfl⟩ | ⟨hn', rfl⟩
  · rw [par_altBigramsAux] at hg; cases hg; exact .inl rfl
  · rw [par_bigramsAux] at hg; cases hg; exact .inl rfl
  · rw [par_conc inv ParGen.col (by simp)] at hg; cases hg; exact .inl rfl
  · exact absurd hn' hn.2
  · rw [par_conc inv ParGen.customTr (by simp)] at hg; cases hg; exact .inl rfl
  · rw [par_conc inv ParGen.cut (by simp)] at hg; cases hg; exact .inl rfl
  · obtain ⟨j, hj, hc, _⟩ := C31_grep_decision inv hn'
    rw [h] at hj; cases hj; exact .inl hc
  · cases ho : inv.operandList with
    | nil => rw [par_sed_nil inv ho] at hg; cases hg
    | cons o os =>
        obtain ⟨j, hj, hc, _⟩ := (C36_sed inv hn').2 o os ho
        rw [h] at hj; cases hj; exact .inl hc
  · rw [par_setDiff] at hg; cases hg; exact .inl rfl
  · exact absurd hn' hn.1
  · rw [par_test inv ParGen.testOne (by simp)] at hg; cases hg; exact .inl rfl
  · rw [par_test inv ParGen.testTwo (by simp)] at hg; cases hg; exact .inl rfl
  · by_cases hds : Has inv "-d" ∨ Has inv "-s"
    · by_cases ho : inv.operandList = []
      · rw [par_tr_nil inv hds ho] at hg; cases hg
      · obtain ⟨os, o, hos⟩ := list_snoc _ ho
        cases ht : trNewline inv o with
        | false => rw [(par_tr_some inv hos).2.2 ht] at hg; cases hg; exact .inl rfl
        | true =>
            by_cases hd : Has inv "-d"
            · rw [(par_tr_some inv hos).1 ⟨hd, ht⟩] at hg; cases hg; exact .inl rfl
            · rw [(par_tr_some inv hos).2.1 ⟨hd, hds.resolve_left hd, ht⟩] at hg; cases hg; exact .inl rfl
    · rw [not_or] at hds
      rw [par_tr_plain inv hds.1 hds.2] at hg; cases hg; exact .inl rfl
  · obtain ⟨j, hj, hc, _⟩ := C36_uniq inv hn'
    rw [h] at hj; cases hj; exact .inl hc
  · rw [par_conc inv ParGen.xargs (by simp)] at hg; cases hg; exact .inl rfl

end PashAnn
