import Verif.Props.Parallel
import Verif.Spec.ParTable

/-! Property C64: the complete table of parallelizability information. Specification: `Spec/ParTable.lean`. -/

namespace PashAnn
open Spec

theorem trNewline_iff (inv : CommandInvocationInitial) (os : List String) (o : String)
    (ho : inv.operandList = os ++ [o]) : trNewline inv o = true ↔ LastSetHasNewline inv os o := by
  have hnl : containsNewLine o = true ↔ (Occurs "\\n" o ∧ ¬ StartsWith "\\n" o) := by
    unfold containsNewLine; rw [decide_eq_true_eq, pyFind_pos]
  have h0 : containsNullChar o = true ↔ (Occurs "\\0" o ∧ ¬ StartsWith "\\0" o) := by
    unfold containsNullChar; rw [decide_eq_true_eq, pyFind_pos]
  have hb : ((decide (inv.operandList.length = 1) && containsAtLeastOneOf inv ["-c"]) = true) ↔
      (os = [] ∧ Has inv "-c") := by
    simp only [ho, List.length_append, List.length_singleton, Bool.and_eq_true, decide_eq_true_eq, contains_one]
    constructor
    · rintro ⟨h1, h2⟩; exact ⟨List.length_eq_zero_iff.1 (by omega), h2⟩
    · rintro ⟨rfl, h2⟩; exact ⟨rfl, h2⟩
  have hesc : (∃ e ∈ ["\\n", "\\0"], Occurs e o ∧ ¬ StartsWith e o) ↔
      (containsNewLine o || containsNullChar o) = true := by
    rw [Bool.or_eq_true, hnl, h0]; simp
  unfold LastSetHasNewline
  rw [hesc, ← hb]
  unfold trNewline
  cases (decide (inv.operandList.length = 1) && containsAtLeastOneOf inv ["-c"]) <;>
    cases (containsNewLine o || containsNullChar o) <;> simp

/-- C64. The parallelizability information of every invocation is what the table says, and no invocation outside the
table has any. -/
theorem C64_table (inv : CommandInvocationInitial) (i : ParallelizabilityInfo) :
    getParallelizabilityInfo inv = some i ↔ ∃ plans comm, Offers inv plans comm ∧ i.parallelizerList = plans ∧
      i.isCommutative = comm ∧ i.roundRobinCompatibleWithCat = false := by
  have key : ∀ plans comm, (i.parallelizerList = plans ∧ i.isCommutative = comm ∧
      i.roundRobinCompatibleWithCat = false) ↔ i = offers plans comm := by
    intro plans comm
    obtain ⟨l, r, c⟩ := i
    simp only [offers, ParallelizabilityInfo.mk.injEq]
    constructor
    · rintro ⟨rfl, rfl, rfl⟩; exact ⟨rfl, rfl, rfl⟩
    · rintro ⟨rfl, rfl, rfl⟩; exact ⟨rfl, rfl, rfl⟩
  simp only [key]
  constructor
  · intro h
    obtain ⟨gen, hm, hg⟩ := getPar_some.1 h
    simp only [parTable, List.mem_cons, Prod.mk.injEq, List.not_mem_nil, or_false] at hm
    rcases hm with ⟨hn, rfl⟩ | ⟨hn, rfl⟩ | ⟨hn, rfl⟩ | ⟨hn, rfl⟩ | ⟨hn, rfl⟩ | ⟨hn, rfl⟩ | ⟨hn, rfl⟩ |
      ⟨hn, rfl⟩ | ⟨hn, rfl⟩ | ⟨hn, rfl⟩ | ⟨hn, rfl⟩ | ⟨hn, rfl⟩ | ⟨hn, rfl⟩ | ⟨hn, rfl⟩ | ⟨hn, rfl⟩
    · rw [par_altBigramsAux] at hg; cases hg; exact ⟨_, _, .altBigrams hn, rfl⟩
    · rw [par_bigramsAux] at hg; cases hg; exact ⟨_, _, .bigrams hn, rfl⟩
    · rw [par_conc inv ParGen.col (by simp)] at hg; cases hg; exact ⟨_, _, .conc (by simp [hn]), rfl⟩
    · by_cases hb : HasAny inv sortStops
      · rw [par_sort_blocked inv hb] at hg; cases hg; exact ⟨_, _, .sortStop (by simp [hn]) hb, rfl⟩
      · rw [par_sort inv hb] at hg; cases hg; exact ⟨_, _, .sort (by simp [hn]) hb, rfl⟩
    · rw [par_conc inv ParGen.customTr (by simp)] at hg; cases hg; exact ⟨_, _, .conc (by simp [hn]), rfl⟩
    · rw [par_conc inv ParGen.cut (by simp)] at hg; cases hg; exact ⟨_, _, .conc (by simp [hn]), rfl⟩
    · by_cases hx : Has inv "-q" ∨ ((¬ ∃ n ∈ grepMasks, Has inv n) ∧ ∃ n ∈ grepSpecial, Has inv n)
      · rw [par_grep_none inv hx] at hg; cases hg; exact ⟨_, _, .grepStop hn hx, rfl⟩
      · have hx' : ¬ Has inv "-q" ∧ ((∃ n ∈ grepMasks, Has inv n) ∨ ¬ ∃ n ∈ grepSpecial, Has inv n) := by
          rw [not_or] at hx
          refine ⟨hx.1, ?_⟩
          by_cases hm : ∃ n ∈ grepMasks, Has inv n
          · exact .inl hm
          · exact .inr (fun hs => hx.2 ⟨hm, hs⟩)
        rw [par_grep_some inv hx'.1 hx'.2] at hg; cases hg; exact ⟨_, _, .grep hn hx'.1 hx'.2, rfl⟩
    · cases ho : inv.operandList with
      | nil => rw [par_sed_nil inv ho] at hg; cases hg
      | cons o os =>
          by_cases hx : StartsWith "-" o ∨ StartsWith "s" o ∨ (¬ Occurs "d" o ∧ ¬ Occurs "q" o)
          · rw [(par_sed inv ho).1 hx] at hg; cases hg; exact ⟨_, _, .sed hn ho hx, rfl⟩
          · rw [(par_sed inv ho).2 hx] at hg; cases hg; exact ⟨_, _, .sedStop hn ho hx, rfl⟩
    · rw [par_setDiff inv] at hg; cases hg; exact ⟨_, _, .setDiff hn, rfl⟩
    · by_cases hb : HasAny inv sortStops
      · rw [par_sort_blocked inv hb] at hg; cases hg; exact ⟨_, _, .sortStop (by simp [hn]) hb, rfl⟩
      · rw [par_sort inv hb] at hg; cases hg; exact ⟨_, _, .sort (by simp [hn]) hb, rfl⟩
    · rw [par_test inv ParGen.testOne (by simp)] at hg; cases hg; exact ⟨_, _, .test (by simp [hn]), rfl⟩
    · rw [par_test inv ParGen.testTwo (by simp)] at hg; cases hg; exact ⟨_, _, .test (by simp [hn]), rfl⟩
    · by_cases hd : Has inv "-d" ∨ Has inv "-s"
      · by_cases ho : inv.operandList = []
        · rw [par_tr_nil inv hd ho] at hg; cases hg
        · obtain ⟨os, o, hos⟩ := list_snoc _ ho
          cases hnl : trNewline inv o with
          | false =>
              rw [(par_tr_some inv hos).2.2 hnl] at hg; cases hg
              refine ⟨_, _, .trSets hn hd hos ?_, rfl⟩
              rw [← trNewline_iff inv os o hos, hnl]; simp
          | true =>
              have hl := (trNewline_iff inv os o hos).1 hnl
              by_cases hdd : Has inv "-d"
              · rw [(par_tr_some inv hos).1 ⟨hdd, hnl⟩] at hg; cases hg; exact ⟨_, _, .trDelete hn hdd hos hl, rfl⟩
              · have hs := hd.resolve_left hdd
                rw [(par_tr_some inv hos).2.1 ⟨hdd, hs, hnl⟩] at hg; cases hg
                exact ⟨_, _, .trSqueeze hn hdd hs hos hl, rfl⟩
      · rw [not_or] at hd
        rw [par_tr_plain inv hd.1 hd.2] at hg; cases hg; exact ⟨_, _, .tr hn hd.1 hd.2, rfl⟩
    · by_cases hx : HasAny inv ["-d", "-D", "--all-repeated"]
      · rw [par_uniq_none inv hx] at hg; cases hg; exact ⟨_, _, .uniqStop hn hx, rfl⟩
      · by_cases hc : Has inv "-c"
        · rw [par_uniq_count inv hx hc] at hg; cases hg; exact ⟨_, _, .uniqCount hn hx hc, rfl⟩
        · rw [par_uniq_plain inv hx hc] at hg; cases hg; exact ⟨_, _, .uniq hn hx hc, rfl⟩
    · rw [par_conc inv ParGen.xargs (by simp)] at hg; cases hg; exact ⟨_, _, .conc (by simp [hn]), rfl⟩
  · rintro ⟨plans, comm, h, rfl⟩
    cases h with
    | conc hn =>
        simp only [List.mem_cons, List.not_mem_nil, or_false] at hn
        rcases hn with hn | hn | hn | hn <;> rw [getPar_gen hn (by simp [parTable]; rfl)] <;>
          exact par_conc inv _ (by simp)
    | setDiff hn => rw [getPar_gen hn (show ("set_diff", ParGen.setDiff) ∈ _ by simp [parTable])]; exact par_setDiff inv
    | test hn =>
        simp only [List.mem_cons, List.not_mem_nil, or_false] at hn
        rcases hn with hn | hn <;> rw [getPar_gen hn (by simp [parTable]; rfl)] <;> exact par_test inv _ (by simp)
    | altBigrams hn =>
        rw [getPar_gen hn (show ("alt_bigrams_aux", ParGen.altBigramsAux) ∈ _ by simp [parTable])]
        exact par_altBigramsAux inv
    | bigrams hn =>
        rw [getPar_gen hn (show ("bigrams_aux", ParGen.bigramsAux) ∈ _ by simp [parTable])]; exact par_bigramsAux inv
    | sort hn hb =>
        simp only [List.mem_cons, List.not_mem_nil, or_false] at hn
        rcases hn with hn | hn <;> rw [getPar_gen hn (by simp [parTable]; rfl)] <;> exact par_sort inv hb
    | sortStop hn hb =>
        simp only [List.mem_cons, List.not_mem_nil, or_false] at hn
        rcases hn with hn | hn <;> rw [getPar_gen hn (by simp [parTable]; rfl)] <;> exact par_sort_blocked inv hb
    | grep hn hq hx =>
        rw [getPar_gen hn (show ("grep", ParGen.grep) ∈ _ by simp [parTable])]; exact par_grep_some inv hq hx
    | grepStop hn hx =>
        rw [getPar_gen hn (show ("grep", ParGen.grep) ∈ _ by simp [parTable])]; exact par_grep_none inv hx
    | sed hn ho hx =>
        rw [getPar_gen hn (show ("sed", ParGen.sed) ∈ _ by simp [parTable])]; exact (par_sed inv ho).1 hx
    | sedStop hn ho hx =>
        rw [getPar_gen hn (show ("sed", ParGen.sed) ∈ _ by simp [parTable])]; exact (par_sed inv ho).2 hx
    | tr hn hd hs =>
        rw [getPar_gen hn (show ("tr", ParGen.tr) ∈ _ by simp [parTable])]; exact par_tr_plain inv hd hs
    | trSets hn hd ho hl =>
        rw [getPar_gen hn (show ("tr", ParGen.tr) ∈ _ by simp [parTable])]
        refine (par_tr_some inv ho).2.2 ?_
        rw [← Bool.not_eq_true, trNewline_iff inv _ _ ho]; exact hl
    | trDelete hn hd ho hl =>
        rw [getPar_gen hn (show ("tr", ParGen.tr) ∈ _ by simp [parTable])]
        exact (par_tr_some inv ho).1 ⟨hd, (trNewline_iff inv _ _ ho).2 hl⟩
    | trSqueeze hn hd hs ho hl =>
        rw [getPar_gen hn (show ("tr", ParGen.tr) ∈ _ by simp [parTable])]
        exact (par_tr_some inv ho).2.1 ⟨hd, hs, (trNewline_iff inv _ _ ho).2 hl⟩
    | uniq hn hx hc =>
        rw [getPar_gen hn (show ("uniq", ParGen.uniq) ∈ _ by simp [parTable])]; exact par_uniq_plain inv hx hc
    | uniqCount hn hx hc =>
        rw [getPar_gen hn (show ("uniq", ParGen.uniq) ∈ _ by simp [parTable])]; exact par_uniq_count inv hx hc
    | uniqStop hn hx =>
        rw [getPar_gen hn (show ("uniq", ParGen.uniq) ∈ _ by simp [parTable])]; exact par_uniq_none inv hx

/-- C64. The table is unambiguous. -/
theorem C64_unambiguous (inv : CommandInvocationInitial) (l l' : List Parallelizer) (b b' : Bool)
    (h : Offers inv l b) (h' : Offers inv l' b') : l = l' ∧ b = b' := by
  have e := (C64_table inv (offers l b)).2 ⟨l, b, h, rfl, rfl, rfl⟩
  have e' := (C64_table inv (offers l' b')).2 ⟨l', b', h', rfl, rfl, rfl⟩
  rw [e] at e'
  simpa [offers] using e'

example : ∃ inv, parse "bigrams_aux" = .ok inv ∧ Offers inv [⟨.consecChunks, ⟨.custom, some "bigram_aux_map",
    .custom [], true⟩, .funcString .custom2Ary "bigram_aux_reduce" true, .noAddInput, 2⟩] false :=
  ⟨⟨"bigrams_aux", [], []⟩, by decide +kernel, .bigrams rfl⟩
example : ∃ inv, parse "sort -rn -k 2" = .ok inv ∧ Offers inv [plan .consecChunks mergeSorted] true :=
  ⟨⟨"sort", [.flag "-r", .flag "-n", .option "-k" "2"], []⟩, by decide +kernel,
    .sort (by simp) (by simp [HasAny, sortStops, Has])⟩

end PashAnn
