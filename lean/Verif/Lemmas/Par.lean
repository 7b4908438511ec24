import Verif.Lemmas.Typed
import Verif.Spec.Parallel

/-! The parallelizability generators in closed form, and the inference loop. -/

namespace PashAnn
open Spec

/-- The commands that have a parallelizability generator, with that generator. -/
def parTable : List (String × ParGenerator) :=
  [("alt_bigrams_aux", ParGen.altBigramsAux), ("bigrams_aux", ParGen.bigramsAux), ("col", ParGen.col),
   ("custom_sort", ParGen.sort), ("custom_tr", ParGen.customTr), ("cut", ParGen.cut), ("grep", ParGen.grep),
   ("sed", ParGen.sed), ("set_diff", ParGen.setDiff), ("sort", ParGen.sort), ("test_one", ParGen.testOne),
   ("test_two", ParGen.testTwo), ("tr", ParGen.tr), ("uniq", ParGen.uniq), ("xargs", ParGen.xargs)]

theorem parGen_of_mem {name : String} {gen : ParGenerator} (h : (name, gen) ∈ parTable) :
    parGeneratorClasses.lookup (commandRepr name) = some gen := by
  have key : ∀ n r, (n, r) ∈ commandDict → commandRepr n = r := fun n r h => commandRepr_table (n, r) h
  simp only [parTable, List.mem_cons, Prod.mk.injEq, List.not_mem_nil, or_false] at h
  rcases h with ⟨rfl, rfl⟩ | ⟨rfl, rfl⟩ | ⟨rfl, rfl⟩ | ⟨rfl, rfl⟩ | ⟨rfl, rfl⟩ | ⟨rfl, rfl⟩ | ⟨rfl, rfl⟩ |
    ⟨rfl, rfl⟩ | ⟨rfl, rfl⟩ | ⟨rfl, rfl⟩ | ⟨rfl, rfl⟩ | ⟨rfl, rfl⟩ | ⟨rfl, rfl⟩ | ⟨rfl, rfl⟩ | ⟨rfl, rfl⟩ <;>
  · rw [key _ _ (by simp [commandDict]; rfl)]
    rfl

theorem parGen_cases (name : String) :
    (∃ gen, (name, gen) ∈ parTable ∧ parGeneratorClasses.lookup (commandRepr name) = some gen) ∨
    ((∀ gen, (name, gen) ∉ parTable) ∧ parGeneratorClasses.lookup (commandRepr name) = none) := by
  by_cases h : ∃ gen, (name, gen) ∈ parTable
  · obtain ⟨gen, h⟩ := h
    exact .inl ⟨gen, h, parGen_of_mem h⟩
  · refine .inr ⟨fun gen hg => h ⟨gen, hg⟩, ?_⟩
    unfold commandRepr dictGet?
    cases hr : commandDict.reverse.lookup name with
    | none => rfl
    | some r =>
        have hm : (name, r) ∈ commandDict := by simpa using lookup_mem hr
        simp only [commandDict, List.mem_cons, Prod.mk.injEq, List.not_mem_nil, or_false] at hm
        simp only [parTable, List.mem_cons, Prod.mk.injEq, List.not_mem_nil, or_false, not_exists] at h
        rcases hm with ⟨rfl, rfl⟩ | ⟨rfl, rfl⟩ | ⟨rfl, rfl⟩ | ⟨rfl, rfl⟩ | ⟨rfl, rfl⟩ | ⟨rfl, rfl⟩ | ⟨rfl, rfl⟩ |
          ⟨rfl, rfl⟩ | ⟨rfl, rfl⟩ | ⟨rfl, rfl⟩ | ⟨rfl, rfl⟩ | ⟨rfl, rfl⟩ | ⟨rfl, rfl⟩ | ⟨rfl, rfl⟩ | ⟨rfl, rfl⟩ |
          ⟨rfl, rfl⟩ | ⟨rfl, rfl⟩ | ⟨rfl, rfl⟩ | ⟨rfl, rfl⟩ | ⟨rfl, rfl⟩ | ⟨rfl, rfl⟩ | ⟨rfl, rfl⟩ | ⟨rfl, rfl⟩ |
          ⟨rfl, rfl⟩ | ⟨rfl, rfl⟩ | ⟨rfl, rfl⟩ | ⟨rfl, rfl⟩ | ⟨rfl, rfl⟩ | ⟨rfl, rfl⟩ | ⟨rfl, rfl⟩ <;>
        first
          | rfl
          | exact absurd h (by simp)

theorem mem_parCommands (n : String) : n ∈ parCommands ↔ ∃ gen, (n, gen) ∈ parTable := by
  have : parCommands = parTable.map Prod.fst := by decide +kernel
  rw [this]; simp

theorem getPar_some {c : CommandInvocationInitial} {i : ParallelizabilityInfo} :
    getParallelizabilityInfo c = some i ↔ ∃ gen, (c.cmdName, gen) ∈ parTable ∧ gen c = .ok i := by
  unfold getParallelizabilityInfo tryParallelizabilityInfo
  rcases parGen_cases c.cmdName with ⟨gen, hm, hl⟩ | ⟨hm, hl⟩
  · simp only [hl]
    have huniq : ∀ g, (c.cmdName, g) ∈ parTable → g = gen := by
      intro g hg
      have := parGen_of_mem hg
      rw [hl] at this; exact (Option.some.inj this).symm
    cases hgen : gen c with
    | error e =>
        simp only [reduceCtorEq, false_iff]
        rintro ⟨g, hg, h⟩
        rw [huniq g hg, hgen] at h; cases h
    | ok j =>
        simp only [Option.some.injEq]
        constructor
        · rintro rfl; exact ⟨gen, hm, hgen⟩
        · rintro ⟨g, hg, h⟩
          rw [huniq g hg, hgen] at h; exact Except.ok.inj h
  · simp only [hl]
    simp only [reduceCtorEq, false_iff]
    rintro ⟨g, hg, h⟩
    exact hm g hg

theorem getPar_gen {c : CommandInvocationInitial} {n : String} {gen : ParGenerator} (hn : c.cmdName = n)
    (hm : (n, gen) ∈ parTable) (i : ParallelizabilityInfo) :
    getParallelizabilityInfo c = some i ↔ gen c = .ok i := by
  subst hn
  rw [getPar_some]
  constructor
  · rintro ⟨g, hg, h⟩
    have h1 := parGen_of_mem hm
    rw [parGen_of_mem hg] at h1
    cases h1; exact h
  · intro h; exact ⟨gen, hm, h⟩

/-- The information with just these parallelizers. -/
abbrev offers (l : List Parallelizer) (comm : Bool := false) : ParallelizabilityInfo := ⟨l, false, comm⟩

variable (c : CommandInvocationInitial)

theorem par_conc (gen : ParGenerator) (h : gen = ParGen.col ∨ gen = ParGen.customTr ∨ gen = ParGen.cut ∨
    gen = ParGen.xargs) : gen c = .ok (offers (bothPlans concatenation)) := by
  rcases h with rfl | rfl | rfl | rfl <;> rfl

theorem par_setDiff : ParGen.setDiff c = .ok (offers [plan .consecChunks concatenation]) := rfl

theorem par_test (gen : ParGenerator) (h : gen = ParGen.testOne ∨ gen = ParGen.testTwo) :
    gen c = .ok (offers [plan .consecChunks (.funcString .customNAry "runtime/agg/opt/concat.sh" false)]) := by
  rcases h with rfl | rfl <;> rfl

theorem parse_altBigramsAux : parse "alt_bigrams_aux" = .ok ⟨"alt_bigrams_aux", [], []⟩ := by decide +kernel
theorem parse_bigramAuxMap : parse "bigram_aux_map" = .ok ⟨"bigram_aux_map", [], []⟩ := by decide +kernel

theorem par_altBigramsAux : ParGen.altBigramsAux c = .ok (offers
    [⟨.consecChunks, ⟨.custom, some "alt_bigrams_aux", .custom [], true⟩,
      .funcString .custom2Ary "alt_bigram_aux_reduce" true, .noAddInput, 0⟩]) := by
  simp only [ParGen.altBigramsAux, MapperSpec.makeCustomFromString, parse_altBigramsAux, bind, Except.bind, onlyFlags]
  rfl

theorem par_bigramsAux : ParGen.bigramsAux c = .ok (offers
    [⟨.consecChunks, ⟨.custom, some "bigram_aux_map", .custom [], true⟩,
      .funcString .custom2Ary "bigram_aux_reduce" true, .noAddInput, 2⟩]) := by
  simp only [ParGen.bigramsAux, MapperSpec.makeCustomFromString, parse_bigramAuxMap, bind, Except.bind, onlyFlags]
  rfl

/-- The aggregator of sort. -/
def sortMerge : AggregatorSpec := .funcTransformer .custom2Ary ParGen.sortTransformer true

theorem par_sort (h : ¬ ∃ n ∈ ParGen.sortBlockers, Has c n) :
    ParGen.sort c = .ok (offers [plan .consecChunks sortMerge] true) := by
  rw [← containsAtLeastOneOf_iff] at h
  simp only [ParGen.sort, if_neg h]; rfl

theorem par_sort_blocked (h : ∃ n ∈ ParGen.sortBlockers, Has c n) : ParGen.sort c = .ok (offers [] true) := by
  rw [← containsAtLeastOneOf_iff] at h
  simp only [ParGen.sort, if_pos h]; rfl

/-- The grep options that mask the others in the generator. -/
def grepMasks : List String := ["-A", "-B", "-C", "-m"]
/-- The grep options for which no implemented mapper or aggregator exists. -/
def grepSpecial : List String := ["-L", "-l", "-c", "-n", "-b"]

theorem par_grep_none (h : Has c "-q" ∨ ((¬ ∃ n ∈ grepMasks, Has c n) ∧ ∃ n ∈ grepSpecial, Has c n)) :
    ParGen.grep c = .ok (offers []) := by
  by_cases hq : Has c "-q"
  · simp only [ParGen.grep, (contains_one c _).2 hq]; rfl
  · obtain ⟨h1, h2⟩ := h.resolve_left hq
    have hm : containsAtLeastOneOf c ["-A", "-B", "-C", "-m"] = false := by
      rw [← Bool.not_eq_true, containsAtLeastOneOf_iff]; exact h1
    have hq' := (contains_false c "-q").2 hq
    simp only [ParGen.grep, hq', ParGen.grepParts, hm, Bool.not_false, if_true]
    by_cases hLl : containsAtLeastOneOf c ["-L", "-l"] = true
    · simp only [hLl, if_true]; rfl
    · by_cases hc : containsAtLeastOneOf c ["-c"] = true
      · simp only [hLl, hc, if_true]; rfl
      · by_cases hn : containsAtLeastOneOf c ["-n"] = true
        · by_cases hb : containsAtLeastOneOf c ["-b"] = true
          · simp only [hLl, hc, hn, hb, Bool.and_self, if_true]; rfl
          · simp only [hLl, hc, hn, hb, Bool.and_false, if_true]; rfl
        · by_cases hb : containsAtLeastOneOf c ["-b"] = true
          · simp only [hLl, hc, hn, hb, Bool.and_true, if_true]; rfl
          · exfalso
            rw [contains_two] at hLl
            rw [contains_one] at hc hn hb
            obtain ⟨n, hn', hh⟩ := h2
            simp only [grepSpecial, List.mem_cons, List.not_mem_nil, or_false] at hn'
            rcases hn' with rfl | rfl | rfl | rfl | rfl
            · exact hLl (.inl hh)
            · exact hLl (.inr hh)
            · exact hc hh
            · exact hn hh
            · exact hb hh

theorem par_grep_some (hq : ¬ Has c "-q") (h : (∃ n ∈ grepMasks, Has c n) ∨ ¬ ∃ n ∈ grepSpecial, Has c n) :
    ParGen.grep c = .ok (offers (bothPlans concatenation)) := by
  have hq' := (contains_false c "-q").2 hq
  have hparts : ParGen.grepParts c = (none, none, none) := by
    by_cases hm : ∃ n ∈ grepMasks, Has c n
    · have : containsAtLeastOneOf c ["-A", "-B", "-C", "-m"] = true := (containsAtLeastOneOf_iff c _).2 hm
      simp only [ParGen.grepParts, this]; rfl
    · have h2 := h.resolve_left hm
      have hm' : containsAtLeastOneOf c ["-A", "-B", "-C", "-m"] = false := by
        rw [← Bool.not_eq_true, containsAtLeastOneOf_iff]; exact hm
      have no : ∀ l : List String, (∀ n ∈ l, n ∈ grepSpecial) → containsAtLeastOneOf c l = false := by
        intro l hl
        rw [← Bool.not_eq_true, containsAtLeastOneOf_iff]
        rintro ⟨n, hn, hh⟩; exact h2 ⟨n, hl n hn, hh⟩
      simp only [ParGen.grepParts, hm', no ["-L", "-l"] (by simp [grepSpecial]), no ["-c"] (by simp [grepSpecial]),
        no ["-n"] (by simp [grepSpecial]), no ["-b"] (by simp [grepSpecial])]
      rfl
  simp only [ParGen.grep, hq', hparts]
  rfl

theorem isPrefixOf_iff (pre s : String) : pre.toList.isPrefixOf s.toList = true ↔ StartsWith pre s := by
  rw [List.isPrefixOf_iff_prefix]
  constructor
  · rintro ⟨t, ht⟩; exact ⟨t, ht.symm⟩
  · rintro ⟨t, ht⟩; exact ⟨t, ht.symm⟩

theorem pyFindFrom_nonneg (pat cs : List Char) (k : Nat) :
    0 ≤ pyFindFrom pat cs k ↔ ∃ b a, cs = b ++ pat ++ a := by
  induction cs generalizing k with
  | nil =>
      unfold pyFindFrom
      by_cases h : pat.isPrefixOf []
      · have : pat = [] := by cases pat with | nil => rfl | cons => simp at h
        subst this; simp
      · simp only [h]
        constructor
        · intro h; simp at h
        · rintro ⟨b, a, hh⟩
          have : pat = [] := by
            have := congrArg List.length hh; simp at this; exact List.length_eq_zero_iff.1 (by omega)
          subst this; simp at h
  | cons c cs ih =>
      unfold pyFindFrom
      by_cases h : pat.isPrefixOf (c :: cs)
      · simp only [h, if_true]
        rw [List.isPrefixOf_iff_prefix] at h
        obtain ⟨t, ht⟩ := h
        exact ⟨fun _ => ⟨[], t, by simp [ht]⟩, fun _ => Int.natCast_nonneg k⟩
      · simp only [h]
        rw [show ((if false = true then (k : Int) else pyFindFrom pat cs (k + 1))) = pyFindFrom pat cs (k + 1) from rfl,
          ih (k + 1)]
        constructor
        · rintro ⟨b, a, rfl⟩; exact ⟨c :: b, a, by simp⟩
        · rintro ⟨b, a, hh⟩
          cases b with
          | nil =>
              exfalso; apply h
              rw [List.isPrefixOf_iff_prefix]; exact ⟨a, by simpa using hh.symm⟩
          | cons x b =>
              simp only [List.cons_append, List.cons.injEq] at hh
              exact ⟨b, a, hh.2⟩

theorem pyFindFrom_ge (pat cs : List Char) (k : Nat) : pyFindFrom pat cs k = -1 ∨ (k : Int) ≤ pyFindFrom pat cs k := by
  induction cs generalizing k with
  | nil =>
      unfold pyFindFrom
      split
      · right; omega
      · left; rfl
  | cons c cs ih =>
      unfold pyFindFrom
      split
      · right; omega
      · rcases ih (k + 1) with h | h
        · exact .inl h
        · right; omega

/-- `find` is positive exactly if the text occurs but not at the start. -/
theorem pyFind_pos (s pat : String) : pyFind s pat > 0 ↔ Occurs pat s ∧ ¬ StartsWith pat s := by
  unfold pyFind
  rw [← isPrefixOf_iff]
  cases hs : s.toList with
  | nil =>
      unfold pyFindFrom
      by_cases h : pat.toList.isPrefixOf []
      · simp [h]
      · simp only [h]
        constructor
        · intro h; simp at h
        · rintro ⟨⟨b, a, hh⟩, -⟩
          rw [hs] at hh
          have : pat.toList = [] := by
            have := congrArg List.length hh
            simp only [List.length_nil, List.length_append] at this
            exact List.length_eq_zero_iff.1 (by omega)
          rw [this] at h; simp at h
  | cons c cs =>
      have hnn := pyFindFrom_nonneg pat.toList (c :: cs) 0
      rw [show Occurs pat s ↔ ∃ b a, (c :: cs) = b ++ pat.toList ++ a by unfold Occurs; rw [hs], ← hnn]
      by_cases h : pat.toList.isPrefixOf (c :: cs)
      · simp [pyFindFrom, h]
      · have he : pyFindFrom pat.toList (c :: cs) 0 = pyFindFrom pat.toList cs (0 + 1) := by
          rw [pyFindFrom, if_neg h]
        rw [he]
        rcases pyFindFrom_ge pat.toList cs (0 + 1) with h2 | h2
        · rw [h2]; simp
        · constructor
          · intro _; exact ⟨by omega, h⟩
          · intro _; omega

theorem pyFind_nonneg (s pat : String) : pyFind s pat ≥ 0 ↔ Occurs pat s := pyFindFrom_nonneg _ _ 0

theorem par_sed_nil (h : c.operandList = []) : ParGen.sed c = .error .indexError := by
  simp [ParGen.sed, ParGen.sedCondition, doesFirstOperandStartWith, firstOperandName, h, bind, Except.bind]

theorem par_sed {o : String} {os : List String} (h : c.operandList = o :: os) :
    ((StartsWith "-" o ∨ StartsWith "s" o ∨ (¬ Occurs "d" o ∧ ¬ Occurs "q" o)) →
      ParGen.sed c = .ok (offers (bothPlans concatenation))) ∧
    (¬ (StartsWith "-" o ∨ StartsWith "s" o ∨ (¬ Occurs "d" o ∧ ¬ Occurs "q" o)) →
      ParGen.sed c = .ok (offers [])) := by
  have hcond : ParGen.sedCondition c = .ok (decide (("-".toList.isPrefixOf o.toList = true) ∨
      ("s".toList.isPrefixOf o.toList = true) ∨ (¬ pyFind o "d" ≥ 0 ∧ ¬ pyFind o "q" ≥ 0))) := by
    simp only [ParGen.sedCondition, doesFirstOperandStartWith, doesFirstOperandContain, firstOperandName, h, bind,
      Except.bind]
    by_cases h1 : "-".toList.isPrefixOf o.toList = true
    · simp only [h1, if_true, true_or, decide_true]
    · by_cases h2 : "s".toList.isPrefixOf o.toList = true
      · simp only [h1, h2, if_true, true_or, or_true, decide_true]; rfl
      · by_cases h3 : pyFind o "d" ≥ 0
        · simp only [h1, h2, h3, decide_true, if_true, not_true, false_and]; rfl
        · by_cases h4 : pyFind o "q" ≥ 0
          · simp only [h1, h2, h3, h4, decide_true, decide_false, not_true, and_false]; rfl
          · simp only [h1, h2, h3, h4, decide_false, not_false_eq_true, and_self, or_true, decide_true]; rfl
  rw [← isPrefixOf_iff, ← isPrefixOf_iff, ← pyFind_nonneg, ← pyFind_nonneg]
  constructor
  · intro hh
    simp only [ParGen.sed, hcond, bind, Except.bind, hh, decide_true]; rfl
  · intro hh
    simp only [ParGen.sed, hcond, bind, Except.bind, hh, decide_false]; rfl

theorem par_uniq_none (h : ∃ n ∈ ["-d", "-D", "--all-repeated"], Has c n) : ParGen.uniq c = .ok (offers []) := by
  have := (containsAtLeastOneOf_iff c _).2 h
  simp only [ParGen.uniq, this]; rfl

theorem par_uniq_count (h : ¬ ∃ n ∈ ["-d", "-D", "--all-repeated"], Has c n) (hc : Has c "-c") : ParGen.uniq c =
    .ok (offers (bothPlans (.funcString .adjLinesFunc "PLACEHOLDER:uniq_merge_count_uniq" false))) := by
  have : containsAtLeastOneOf c ["-d", "-D", "--all-repeated"] = false := by
    rw [← Bool.not_eq_true, containsAtLeastOneOf_iff]; exact h
  simp only [ParGen.uniq, this, (contains_one c _).2 hc]; rfl

theorem par_uniq_plain (h : ¬ ∃ n ∈ ["-d", "-D", "--all-repeated"], Has c n) (hc : ¬ Has c "-c") : ParGen.uniq c =
    .ok (offers (bothPlans (.nonFunc .adjLinesSeq false))) := by
  have : containsAtLeastOneOf c ["-d", "-D", "--all-repeated"] = false := by
    rw [← Bool.not_eq_true, containsAtLeastOneOf_iff]; exact h
  simp only [ParGen.uniq, this, (contains_false c _).2 hc]; rfl

/-- The code's test for a newline in the last set of `tr`. -/
def trNewline (c : CommandInvocationInitial) (last : String) : Bool :=
  let named := containsNewLine last || containsNullChar last
  if decide (c.operandList.length = 1) && containsAtLeastOneOf c ["-c"] then !named else named

theorem tr_last {c : CommandInvocationInitial} {os : List String} {o : String} (ho : c.operandList = os ++ [o]) :
    ParGen.doesLastSetEffectivelyContainNewline c = .ok (trNewline c o) := by
  have : getLast c.operandList = .ok o := by simp [getLast, ho]
  simp only [ParGen.doesLastSetEffectivelyContainNewline, this, bind, Except.bind, trNewline]
  split <;> rfl

theorem tr_last_nil {c : CommandInvocationInitial} (ho : c.operandList = []) :
    ParGen.doesLastSetEffectivelyContainNewline c = .error .indexError := by
  simp [ParGen.doesLastSetEffectivelyContainNewline, getLast, ho, bind, Except.bind]

theorem par_tr_plain (h1 : ¬ Has c "-d") (h2 : ¬ Has c "-s") :
    ParGen.tr c = .ok (offers (bothPlans concatenation)) := by
  simp only [ParGen.tr, (contains_false c _).2 h1, (contains_false c _).2 h2, bind, Except.bind]
  rfl

theorem par_tr_nil (h : Has c "-d" ∨ Has c "-s") (ho : c.operandList = []) :
    ParGen.tr c = .error .indexError := by
  by_cases hd : Has c "-d"
  · simp only [ParGen.tr, (contains_one c _).2 hd, tr_last_nil ho, if_true, bind, Except.bind]
  · have hs := h.resolve_left hd
    simp only [ParGen.tr, (contains_false c _).2 hd, (contains_one c _).2 hs, tr_last_nil ho, if_true, bind,
      Except.bind]
    rfl

theorem par_tr_some {os : List String} {o : String} (ho : c.operandList = os ++ [o]) :
    (Has c "-d" ∧ trNewline c o = true → ParGen.tr c = .ok (offers (bothPlans (.nonFunc .adjLinesMerge false)))) ∧
    (¬ Has c "-d" ∧ Has c "-s" ∧ trNewline c o = true → ParGen.tr c = .ok (offers (bothPlans
      (.funcString .adjLinesFunc "PLACEHOLDER: remove first line if empty" false)))) ∧
    (trNewline c o = false → ParGen.tr c = .ok (offers (bothPlans concatenation))) := by
  refine ⟨?_, ?_, ?_⟩
  · rintro ⟨hd, hn⟩
    by_cases hs : Has c "-s"
    · simp only [ParGen.tr, (contains_one c _).2 hd, (contains_one c _).2 hs, tr_last ho, hn, bind, Except.bind]
      rfl
    · simp only [ParGen.tr, (contains_one c _).2 hd, (contains_false c _).2 hs, tr_last ho, hn, bind, Except.bind]
      rfl
  · rintro ⟨hd, hs, hn⟩
    simp only [ParGen.tr, (contains_false c _).2 hd, (contains_one c _).2 hs, tr_last ho, hn, bind, Except.bind]
    rfl
  · intro hn
    by_cases hd : Has c "-d" <;> by_cases hs : Has c "-s" <;>
      simp only [ParGen.tr, (contains_one c _).2, (contains_false c _).2, hd, hs, tr_last ho, hn, bind, Except.bind,
        not_false_eq_true] <;> rfl

/-! The inference loop. -/

theorem inferLoop_false (visited rest : List Parallelizer) :
    ParallelizabilityInfo.inferLoop false visited rest = visited ++ rest := by
  induction rest generalizing visited with
  | nil => simp [ParallelizabilityInfo.inferLoop]
  | cons p rest ih =>
      rw [ParallelizabilityInfo.inferLoop]
      simp [ih]

/-- The round-robin copy. -/
abbrev unwrapCopy (p : Parallelizer) : Parallelizer := { p with splitter := .roundRobinUnwrapFlag }

theorem inferLoop_noCC (b : Bool) (visited rest : List Parallelizer) (h : ∀ p ∈ rest, p.splitter ≠ .consecChunks) :
    ParallelizabilityInfo.inferLoop b visited rest = visited ++ rest := by
  induction rest generalizing visited with
  | nil => simp [ParallelizabilityInfo.inferLoop]
  | cons p rest ih =>
      rw [ParallelizabilityInfo.inferLoop]
      have hp : p.splitter.isConsecChunks = false := by
        have := h p (by simp)
        simp [Splitter.isConsecChunks, this]
      simp [hp, ih (visited ++ [p]) (fun q hq => h q (by simp [hq]))]

theorem inferLoop_true (visited rest extra : List Parallelizer) (h : ∀ p ∈ extra, p.splitter ≠ .consecChunks) :
    ParallelizabilityInfo.inferLoop true visited (rest ++ extra) =
      visited ++ rest ++ extra ++ (rest.filter (fun p => p.splitter = .consecChunks)).map unwrapCopy := by
  induction rest generalizing visited extra with
  | nil => simp [inferLoop_noCC true visited extra h]
  | cons p rest ih =>
      rw [List.cons_append, ParallelizabilityInfo.inferLoop]
      by_cases hp : p.splitter = .consecChunks
      · have hp' : p.splitter.isConsecChunks = true := by simp [Splitter.isConsecChunks, hp]
        have hx : ∀ q ∈ extra ++ [unwrapCopy p], q.splitter ≠ .consecChunks := by
          intro q hq
          rcases List.mem_append.1 hq with hq | hq
          · exact h q hq
          · simp at hq; subst hq; simp
        simp only [hp', Bool.and_self, dite_true, Parallelizer.makeRoundRobinWithUnwrapFromOther, List.append_assoc]
        have := ih (visited ++ [p]) (extra ++ [unwrapCopy p]) hx
        simp only [List.append_assoc] at this
        rw [this]
        simp [hp]
      · have hp' : p.splitter.isConsecChunks = false := by simp [Splitter.isConsecChunks, hp]
        simp only [hp', Bool.and_false, Bool.false_eq_true, dite_false]
        rw [ih (visited ++ [p]) extra h]
        simp [hp]

theorem inferred_eq (i : ParallelizabilityInfo) : i.getInferredParallelizerList.1 =
    i.parallelizerList ++ (if i.isCommutative = true then
      (i.parallelizerList.filter (fun p => p.splitter = .consecChunks)).map unwrapCopy else []) := by
  unfold ParallelizabilityInfo.getInferredParallelizerList
  cases h : i.isCommutative with
  | false => simp [inferLoop_false]
  | true =>
      have := inferLoop_true [] i.parallelizerList [] (by simp)
      simpa using this

/-- Kinds allowed with round robin. -/
def rrKinds : List AggregatorKind := [.concatenate, .adjLinesMerge, .adjLinesSeq, .adjLinesFunc]

/-- The shapes of all information objects the generators produce. -/
inductive OfferForm : ParallelizabilityInfo → Prop
  | none (b : Bool) : OfferForm (offers [] b)
  | both {a : AggregatorSpec} : a.kind ∈ rrKinds → OfferForm (offers (bothPlans a))
  | one {p : Parallelizer} (b : Bool) : p.splitter = .consecChunks → OfferForm (offers [p] b)

theorem par_form {c : CommandInvocationInitial} {i : ParallelizabilityInfo}
    (h : getParallelizabilityInfo c = some i) : OfferForm i := by
  obtain ⟨gen, hm, hg⟩ := getPar_some.1 h
  simp only [parTable, List.mem_cons, Prod.mk.injEq, List.not_mem_nil, or_false] at hm
  have hsort : ParGen.sort c = .ok i → OfferForm i := by
    intro hg
    by_cases hb : ∃ n ∈ ParGen.sortBlockers, Has c n
    · rw [par_sort_blocked c hb] at hg; cases hg; exact .none _
    · rw [par_sort c hb] at hg; cases hg; exact .one _ rfl
  rcases hm with ⟨hn, rfl⟩ | ⟨hn, rfl⟩ | ⟨hn, rfl⟩ | ⟨hn, rfl⟩ | ⟨hn, rfl⟩ | ⟨hn, rfl⟩ | ⟨hn, rfl⟩ |
    ⟨hn, rfl⟩ | ⟨hn, rfl⟩ | ⟨hn, rfl⟩ | ⟨hn, rfl⟩ | ⟨hn, rfl⟩ | ⟨hn, rfl⟩ | ⟨hn, rfl⟩ | ⟨hn, rfl⟩
  · rw [par_altBigramsAux] at hg; cases hg; exact .one _ rfl
  · rw [par_bigramsAux] at hg; cases hg; exact .one _ rfl
  · rw [par_conc c ParGen.col (by simp)] at hg; cases hg; exact .both (by simp [rrKinds, concatenation, AggregatorSpec.kind])
  · exact hsort hg
  · rw [par_conc c ParGen.customTr (by simp)] at hg; cases hg; exact .both (by simp [rrKinds, concatenation, AggregatorSpec.kind])
  · rw [par_conc c ParGen.cut (by simp)] at hg; cases hg; exact .both (by simp [rrKinds, concatenation, AggregatorSpec.kind])
  · by_cases hx : Has c "-q" ∨ ((¬ ∃ n ∈ grepMasks, Has c n) ∧ ∃ n ∈ grepSpecial, Has c n)
    · rw [par_grep_none c hx] at hg; cases hg; exact .none _
    · rw [not_or] at hx
      rw [par_grep_some c hx.1 (by
        by_cases hm : ∃ n ∈ grepMasks, Has c n
        · exact .inl hm
        · exact .inr (fun hs => hx.2 ⟨hm, hs⟩))] at hg
      cases hg; exact .both (by simp [rrKinds, concatenation, AggregatorSpec.kind])
  · cases ho : c.operandList with
    | nil => rw [par_sed_nil c ho] at hg; cases hg
    | cons o os =>
        by_cases hx : StartsWith "-" o ∨ StartsWith "s" o ∨ (¬ Occurs "d" o ∧ ¬ Occurs "q" o)
        · rw [(par_sed c ho).1 hx] at hg; cases hg; exact .both (by simp [rrKinds, concatenation, AggregatorSpec.kind])
        · rw [(par_sed c ho).2 hx] at hg; cases hg; exact .none _
  · rw [par_setDiff] at hg; cases hg; exact .one _ rfl
  · exact hsort hg
  · rw [par_test c ParGen.testOne (by simp)] at hg; cases hg; exact .one _ rfl
  · rw [par_test c ParGen.testTwo (by simp)] at hg; cases hg; exact .one _ rfl
  · by_cases hds : Has c "-d" ∨ Has c "-s"
    · by_cases ho : c.operandList = []
      · rw [par_tr_nil c hds ho] at hg; cases hg
      · obtain ⟨os, o, hos⟩ := list_snoc _ ho
        cases hn : trNewline c o with
        | false =>
            rw [(par_tr_some c hos).2.2 hn] at hg; cases hg
            exact .both (by simp [rrKinds, concatenation, AggregatorSpec.kind])
        | true =>
            by_cases hd : Has c "-d"
            · rw [(par_tr_some c hos).1 ⟨hd, hn⟩] at hg; cases hg
              exact .both (by simp [rrKinds, AggregatorSpec.kind])
            · rw [(par_tr_some c hos).2.1 ⟨hd, hds.resolve_left hd, hn⟩] at hg; cases hg
              exact .both (by simp [rrKinds, AggregatorSpec.kind])
    · rw [not_or] at hds
      rw [par_tr_plain c hds.1 hds.2] at hg; cases hg
      exact .both (by simp [rrKinds, concatenation, AggregatorSpec.kind])
  · by_cases hx : ∃ n ∈ ["-d", "-D", "--all-repeated"], Has c n
    · rw [par_uniq_none c hx] at hg; cases hg; exact .none _
    · by_cases hc : Has c "-c"
      · rw [par_uniq_count c hx hc] at hg; cases hg; exact .both (by simp [rrKinds, AggregatorSpec.kind])
      · rw [par_uniq_plain c hx hc] at hg; cases hg; exact .both (by simp [rrKinds, AggregatorSpec.kind])
  · rw [par_conc c ParGen.xargs (by simp)] at hg; cases hg; exact .both (by simp [rrKinds, concatenation, AggregatorSpec.kind])

/-! Any number of calls of the inference function. -/

theorem asked_comm (n : Nat) (i : ParallelizabilityInfo) : (asked n i).isCommutative = i.isCommutative := by
  induction n with
  | zero => rfl
  | succ n ih => exact ih

theorem inferred_snd (i : ParallelizabilityInfo) :
    i.getInferredParallelizerList.2.parallelizerList = i.getInferredParallelizerList.1 := rfl

theorem asked_mem (n : Nat) (i : ParallelizabilityInfo) (p : Parallelizer)
    (h : p ∈ (asked n i).parallelizerList) : p ∈ i.parallelizerList ∨
      (i.isCommutative = true ∧ ∃ q ∈ i.parallelizerList, q.splitter = .consecChunks ∧ p = unwrapCopy q) := by
  induction n generalizing p with
  | zero => exact .inl h
  | succ n ih =>
      have : p ∈ (asked n i).getInferredParallelizerList.1 := h
      rw [inferred_eq, List.mem_append] at this
      rcases this with h' | h'
      · exact ih p h'
      · split at h'
        · rename_i hc
          obtain ⟨q, hq, rfl⟩ := List.mem_map.1 h'
          obtain ⟨hq, hs⟩ := List.mem_filter.1 hq
          simp only [decide_eq_true_eq] at hs
          rcases ih q hq with hq | ⟨_, q', hq', _, rfl⟩
          · exact .inr ⟨by rw [← asked_comm n i]; exact hc, q, hq, hs, rfl⟩
          · cases hs
        · simp at h'

theorem asked_sub (n : Nat) (i : ParallelizabilityInfo) (p : Parallelizer) (h : p ∈ i.parallelizerList) :
    p ∈ (asked n i).parallelizerList := by
  induction n with
  | zero => exact h
  | succ n ih =>
      show p ∈ (asked n i).getInferredParallelizerList.1
      rw [inferred_eq]; exact List.mem_append.2 (.inl ih)

theorem offered_iff {c : CommandInvocationInitial} {p : Parallelizer} : Offered c p ↔
    ∃ i, getParallelizabilityInfo c = some i ∧ (p ∈ i.parallelizerList ∨
      (i.isCommutative = true ∧ ∃ q ∈ i.parallelizerList, q.splitter = .consecChunks ∧ p = unwrapCopy q)) := by
  constructor
  · rintro ⟨i, n, hi, h | h⟩
    · exact ⟨i, hi, asked_mem n i p h⟩
    · exact ⟨i, hi, asked_mem (n + 1) i p h⟩
  · rintro ⟨i, hi, h | ⟨hc, q, hq, hs, rfl⟩⟩
    · exact ⟨i, 0, hi, .inl h⟩
    · refine ⟨i, 0, hi, .inr ?_⟩
      rw [inferred_eq, List.mem_append]
      right
      rw [show (asked 0 i) = i from rfl, if_pos hc]
      exact List.mem_map.2 ⟨q, List.mem_filter.2 ⟨hq, by simp [hs]⟩, rfl⟩

/-! The traversal leaves flags and plain options alone. -/

/-- No option argument is a variable the traversal would visit. -/
def NoVisitedOption (l : List FlagOptionWithIOVar) : Prop := ∀ n v, FlagOptionWithIOVar.optionIO n (.var v) ∉ l

theorem flatMapFlag_id {σ : Type} (f : VarFun σ) (s : σ) (l : List FlagOptionWithIOVar) (h : NoVisitedOption l) :
    flatMapFlagOptionList f s l = .ok (l, s) := by
  induction l generalizing s with
  | nil => rfl
  | cons x l ih =>
      have hl : NoVisitedOption l := fun n v hm => h n v (by simp [hm])
      have hx : ∀ n v, x ≠ .optionIO n (.var v) := fun n v he => h n v (by simp [he])
      match x, hx with
      | .flag n, _ => simp [flatMapFlagOptionList, ih s hl, bind, Except.bind]
      | .optionVar o n a, _ => simp [flatMapFlagOptionList, ih s hl, bind, Except.bind]
      | .optionIO n (.str a), _ => simp [flatMapFlagOptionList, ih s hl, bind, Except.bind]
      | .optionIO n (.io a), _ => simp [flatMapFlagOptionList, ih s hl, bind, Except.bind]
      | .optionIO n (.var v), hx => exact absurd rfl (hx n v)

theorem flatMapAnything_flags {σ : Type} {f : VarFun σ} {s : σ} {c : CommandInvocationWithIOVars}
    {r : CommandInvocationWithIOVars × σ} (h : NoVisitedOption c.flagOptionList)
    (hr : flatMapAnythingNonNames f s c = .ok r) : r.1.flagOptionList = c.flagOptionList ∧
      r.1.cmdName = c.cmdName := by
  unfold flatMapAnythingNonNames at hr
  rw [flatMapFlag_id f s _ h] at hr
  obtain ⟨fos, hf, hr⟩ := bind_ok hr
  cases hf
  obtain ⟨ops, ho, hr⟩ := bind_ok hr
  obtain ⟨inp, hi, hr⟩ := bind_ok hr
  obtain ⟨out, hout, hr⟩ := bind_ok hr
  cases hr
  exact ⟨rfl, rfl⟩

end PashAnn
