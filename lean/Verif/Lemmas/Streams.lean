import Verif.Props.Aggregators
import Verif.Props.Parallel
import Verif.Spec.Streams

/-! Lemmas for Props/Streams.lean: what the actual mappers and aggregators run. -/

namespace PashAnn
open Spec

variable {α : Type}

theorem renameOption_id (f : IOVar → IOVar) (l : List FlagOptionWithIOVar)
    (h : ∀ n v, FlagOptionWithIOVar.optionIO n (.var v) ∉ l) : l.map (renameOption f) = l := by
  induction l with
  | nil => rfl
  | cons x l ih =>
      rw [List.map_cons, ih (fun n v hm => h n v (by simp [hm]))]
      match x, h with
      | .flag n, _ => rfl
      | .optionVar o n a, _ => rfl
      | .optionIO n (.str a), _ => rfl
      | .optionIO n (.io a), _ => rfl
      | .optionIO n (.var v), h => exact absurd (by simp) (h n v)

theorem strOperands_rename (f : IOVar → IOVar) (c : CommandInvocationWithIOVars) :
    strOperands (rename f c) = strOperands c := by
  unfold strOperands rename
  show (c.operandList.map (renameArg f)).filterMap _ = _
  induction c.operandList with
  | nil => rfl
  | cons x l ih => cases x <;> simp [renameArg, ih]

/-- The actual mapper on a part gives what the command gives on the part. -/
theorem mapperRun_eq {prog : ProgramsOn α} {p : Parallelizer} {c : CommandInvocationWithIOVars} (hc : OneStream c)
    (hp : p.coreMapperSpec = sameCommand) (hp0 : p.infoMapperAggregator = 0) {part out : List α}
    (h : MapperRun prog p c part out) : out = sequential prog c part := by
  obtain ⟨i, o, m, env, hi, ho, hne, hm, he, rfl⟩ := h
  obtain ⟨ci, hci⟩ := hc.input
  obtain ⟨co, hco, _⟩ := hc.out
  obtain ⟨m1, h1, hr, _⟩ := C40_mapper p hp hp0 c ci co i o hc.described hc.distinct hci hco hi.1 ho.1 hne
  rw [hm] at h1; cases h1
  obtain ⟨m2, h2, _, _, hs, _⟩ := C40_substitute c [i] [o] hc.described hc.distinct (by simpa using hi.1)
    (by simpa using ⟨ho.1, hne⟩) (by simp) (by rw [hci]; rfl) (by rw [hco]; rfl)
  have hmm : m = m2 := by
    unfold Parallelizer.getActualMapper at hm
    rw [hp, hp0] at hm
    simp only [MapperSpec.getMapper, sameCommand, MapperSpec.initialMapper, pyAssert, List.length_nil, decide_true,
      if_true, bind, Except.bind, h2, Bool.not_true, Bool.false_eq_true, if_false] at hm
    cases hm; rfl
  have e1 := congrArg CommandInvocationWithIOVars.cmdName hr
  have e2 := congrArg CommandInvocationWithIOVars.flagOptionList hr
  have e3 := congrArg strOperands hr
  rw [strOperands_rename] at e3
  have e2' : m.flagOptionList = c.flagOptionList := e2.trans (renameOption_id _ _ hc.options)
  have e3' : strOperands m = strOperands c := e3
  have e1' : m.cmdName = c.cmdName := e1
  unfold output sequential
  rw [e1', e2', e3', hmm, hs, List.map_singleton, he]

/-- There are variables that are not used. -/
theorem exists_unused (c : CommandInvocationWithIOVars) (l : List IOVar) : ∃ v, Unused c v ∧ v ∉ l := by
  have bound : ∀ l : List Int, ∃ b : Int, ∀ v ∈ l, v < b := by
    intro l
    induction l with
    | nil => exact ⟨0, by simp⟩
    | cons x l ih =>
        obtain ⟨b, hb⟩ := ih
        refine ⟨max b (x + 1), ?_⟩
        intro v hv
        rcases List.mem_cons.1 hv with rfl | hv
        · omega
        · have := hb v hv; omega
  obtain ⟨b, hb⟩ := bound (occurrences c ++ c.accessMap.map Prod.fst ++ l)
  refine ⟨b, ⟨?_, ?_⟩, ?_⟩
  · intro h; have := hb b (by simp [h]); omega
  · unfold accessOf
    rw [List.lookup_eq_none_iff]
    intro q hq
    have := hb q.1 (by simp only [List.mem_append, List.mem_map]; exact .inl (.inr ⟨q, hq, rfl⟩))
    exact bne_iff_ne.2 (Int.ne_of_gt this)
  · intro h; have := hb b (by simp [h]); omega

theorem mapperRun_exists (prog : ProgramsOn α) {p : Parallelizer} {c : CommandInvocationWithIOVars} (hc : OneStream c)
    (hp : p.coreMapperSpec = sameCommand) (hp0 : p.infoMapperAggregator = 0) (part : List α) :
    MapperRun prog p c part (sequential prog c part) := by
  obtain ⟨i, hi, _⟩ := exists_unused c []
  obtain ⟨o, ho, hoi⟩ := exists_unused c [i]
  have hne : o ≠ i := by simpa using hoi
  obtain ⟨ci, hci⟩ := hc.input
  obtain ⟨co, hco, _⟩ := hc.out
  obtain ⟨m, h1, _⟩ := C40_mapper p hp hp0 c ci co i o hc.described hc.distinct hci hco hi.1 ho.1 hne
  have h : MapperRun prog p c part (output prog (fun _ => part) m) := ⟨i, o, m, fun _ => part, hi, ho, hne, h1, rfl, rfl⟩
  have e := mapperRun_eq hc hp hp0 h
  rw [e] at h; exact h

theorem makeCat_inputs (ins : List IOVar) (out : IOVar) (h : out ∉ ins) (c : CommandInvocationWithIOVars)
    (agg : Aggregator) (ha : AggregatorSpec.makeConcatenate.getAggregator c ins out = .ok (some agg)) :
    withAccess agg.cmd .streamInput = ins := by
  obtain ⟨h1, _⟩ := C47_read_back ins out h c agg ha
  obtain ⟨agg', ha', _, _, _, hop, hi, ho, hacc, _⟩ := C47_concatenate (plan .consecChunks concatenation) rfl c ins out
  have : agg = agg' := by
    have e : AggregatorSpec.makeConcatenate.getAggregator c ins out = .ok (some agg') := ha'
    rw [ha] at e; cases e; rfl
  subst this
  have hd : Described agg.cmd := by
    intro v hv
    rw [hacc]
    by_cases h1 : v = out
    · simp [h1]
    · by_cases h2 : v ∈ ins
      · simp [h1, h2]
      · exfalso
        have hfl : agg.cmd.flagOptionList = [] := by cases ha; rfl
        unfold occurrences at hv
        rw [hfl, hop, hi, ho] at hv
        simp only [List.flatMap_nil, List.nil_append, Option.toList_none, List.append_nil, Option.toList_some,
          List.mem_append, List.mem_singleton, List.mem_flatMap, List.mem_map] at hv
        rcases hv with ⟨a, ⟨w, hw, rfl⟩, hv⟩ | hv
        · rw [varOf_var, List.mem_singleton] at hv
          exact h2 (hv ▸ hw)
        · exact h1 hv
  rw [(C44_reading _ hd).1] at h1
  cases h1' : h1
  injection h1 with h1
  exact (Prod.mk.inj h1).1

/-- Recombining with concatenation. -/
theorem recombined_concatenate {prog : ProgramsOn α} (hcat : CatProgram prog) {p : Parallelizer}
    (hp : p.coreAggregatorSpec = concatenation) {c : CommandInvocationWithIOVars} {outs : List (List α)} {y : List α}
    (h : Recombined prog p c outs y) : y = outs.flatten := by
  cases h with
  | @concatenate vars o agg env hk ho h =>
      obtain ⟨agg', ha', _, hn, hf, hop, _⟩ := C47_concatenate p hp c vars o
      rw [h] at ha'; cases ha'
      have h' : AggregatorSpec.makeConcatenate.getAggregator c vars o = .ok (some agg) := by
        unfold Parallelizer.getActualAggregator at h; rw [hp] at h; exact h
      have hs : strOperands agg.cmd = [] := by
        unfold strOperands; rw [hop, List.filterMap_map]
        exact List.filterMap_eq_nil_iff.2 (fun _ _ => rfl)
      unfold output
      rw [hn, hf, hs, makeCat_inputs vars o ho c agg h', hcat]
  | tree hk h => rw [hp] at hk; cases hk
  | adjacent hk h => rw [hp] at hk; cases hk

theorem executes_exists_concatenate (prog : ProgramsOn α) {p : Parallelizer} {c : CommandInvocationWithIOVars}
    (hc : OneStream c) (hp : p.coreMapperSpec = sameCommand) (hp0 : p.infoMapperAggregator = 0)
    (hpa : p.coreAggregatorSpec = concatenation) (parts : List (List α)) : ∃ y, Executes prog p c parts y := by
  let runs := parts.map (fun x => (x, sequential prog c x))
  let vars : List IOVar := (List.range parts.length).map Int.ofNat
  let env : IOVar → List α := fun v => (runs.map Prod.snd)[v.toNat]?.getD []
  have henv : vars.map env = runs.map Prod.snd := by
    apply List.ext_getElem
    · simp [vars, runs]
    · intro n h1 h2
      simp only [vars, env, List.getElem_map, List.getElem_range]
      have hn : n < (runs.map Prod.snd).length := h2
      simp only [Int.ofNat_eq_natCast, Int.toNat_natCast]
      rw [List.getElem?_eq_getElem hn]
      simp
  obtain ⟨agg, ha, _⟩ := C47_concatenate p hpa c vars (-1)
  refine ⟨output prog env agg.cmd, runs, by simp [runs, Function.comp_def], ?_, ?_⟩
  · intro r hr
    obtain ⟨x, _, rfl⟩ := List.mem_map.1 hr
    exact mapperRun_exists prog hc hp hp0 x
  · rw [← henv]
    refine .concatenate (by rw [hpa]; rfl) ?_ ha
    simp only [vars, List.mem_map, not_exists, not_and]
    intro n _ h
    have h' : Int.ofNat n = -1 := h
    cases h'

/-- Outputs of the mapper runs of an execution. -/
theorem runs_outputs {prog : ProgramsOn α} {p : Parallelizer} {c : CommandInvocationWithIOVars} (hc : OneStream c)
    (hp : p.coreMapperSpec = sameCommand) (hp0 : p.infoMapperAggregator = 0) {runs : List (List α × List α)}
    (h : ∀ r ∈ runs, MapperRun prog p c r.1 r.2) :
    runs.map Prod.snd = (runs.map Prod.fst).map (sequential prog c) := by
  rw [List.map_map]
  exact List.map_congr_left (fun r hr => mapperRun_eq hc hp hp0 (h r hr))

/-- Parallelizers that concatenate run the unchanged command on chunks or round robin, and commutativity plays no role
for them. -/
def ConcForm (i : ParallelizabilityInfo) : Prop :=
  ∀ q ∈ i.parallelizerList, q.coreAggregatorSpec.kind = .concatenate →
    i.isCommutative = false ∧ q ∈ bothPlans concatenation

theorem concForm_conc : ConcForm (offers (bothPlans concatenation)) := fun _ hq _ => ⟨rfl, hq⟩

theorem concForm_setDiff : ConcForm (offers [plan .consecChunks concatenation]) := fun _ hq _ =>
  ⟨rfl, by rw [List.mem_singleton.1 hq]; simp [bothPlans]⟩

theorem concForm_other {a : AggregatorSpec} (h : a.kind ≠ .concatenate) : ConcForm (offers (bothPlans a)) := by
  intro q hq hk
  simp only [bothPlans, List.mem_cons, List.not_mem_nil, or_false] at hq
  rcases hq with rfl | rfl <;> exact absurd hk h

theorem concForm_one {p : Parallelizer} {b : Bool} (h : p.coreAggregatorSpec.kind ≠ .concatenate) :
    ConcForm (offers [p] b) := by
  intro q hq hk
  rw [List.mem_singleton.1 hq] at hk; exact absurd hk h

local macro "concform" : tactic => `(tactic|
  first
    | exact concForm_conc
    | exact concForm_setDiff
    | exact concForm_other (by simp [AggregatorSpec.kind])
    | exact concForm_one (by simp [AggregatorSpec.kind, plan, sortMerge]))

theorem par_conc_form {c : CommandInvocationInitial} {i : ParallelizabilityInfo}
    (h : getParallelizabilityInfo c = some i) : ConcForm i := by
  obtain ⟨gen, hm, hg⟩ := getPar_some.1 h
  simp only [parTable, List.mem_cons, Prod.mk.injEq, List.not_mem_nil, or_false] at hm
  have hsort : ParGen.sort c = .ok i → ConcForm i := by
    intro hg
    by_cases hb : ∃ n ∈ ParGen.sortBlockers, Has c n
    · rw [par_sort_blocked c hb] at hg; cases hg; exact fun q hq => by cases hq
    · rw [par_sort c hb] at hg; cases hg; concform
  rcases hm with ⟨hn, rfl⟩ | ⟨hn, rfl⟩ | ⟨hn, rfl⟩ | ⟨hn, rfl⟩ | ⟨hn, rfl⟩ | ⟨hn, rfl⟩ | ⟨hn, rfl⟩ |
    ⟨hn, rfl⟩ | ⟨hn, rfl⟩ | ⟨hn, rfl⟩ | ⟨hn, rfl⟩ | ⟨hn, rfl⟩ | ⟨hn, rfl⟩ | ⟨hn, rfl⟩ | ⟨hn, rfl⟩
  · rw [par_altBigramsAux] at hg; cases hg; concform
  · rw [par_bigramsAux] at hg; cases hg; concform
  · rw [par_conc c ParGen.col (by simp)] at hg; cases hg; concform
  · exact hsort hg
  · rw [par_conc c ParGen.customTr (by simp)] at hg; cases hg; concform
  · rw [par_conc c ParGen.cut (by simp)] at hg; cases hg; concform
  · by_cases hx : Has c "-q" ∨ ((¬ ∃ n ∈ grepMasks, Has c n) ∧ ∃ n ∈ grepSpecial, Has c n)
    · rw [par_grep_none c hx] at hg; cases hg; exact fun q hq => by cases hq
    · rw [not_or] at hx
      rw [par_grep_some c hx.1 (by
        by_cases hm : ∃ n ∈ grepMasks, Has c n
        · exact .inl hm
        · exact .inr (fun hs => hx.2 ⟨hm, hs⟩))] at hg
      cases hg; concform
  · cases ho : c.operandList with
    | nil => rw [par_sed_nil c ho] at hg; cases hg
    | cons o os =>
        by_cases hx : StartsWith "-" o ∨ StartsWith "s" o ∨ (¬ Occurs "d" o ∧ ¬ Occurs "q" o)
        · rw [(par_sed c ho).1 hx] at hg; cases hg; concform
        · rw [(par_sed c ho).2 hx] at hg; cases hg; exact fun q hq => by cases hq
  · rw [par_setDiff] at hg; cases hg; concform
  · exact hsort hg
  · rw [par_test c ParGen.testOne (by simp)] at hg; cases hg; concform
  · rw [par_test c ParGen.testTwo (by simp)] at hg; cases hg; concform
  · by_cases hds : Has c "-d" ∨ Has c "-s"
    · by_cases ho : c.operandList = []
      · rw [par_tr_nil c hds ho] at hg; cases hg
      · obtain ⟨os, o, hos⟩ := list_snoc _ ho
        cases hn : trNewline c o with
        | false =>
            rw [(par_tr_some c hos).2.2 hn] at hg; cases hg
            concform
        | true =>
            by_cases hd : Has c "-d"
            · rw [(par_tr_some c hos).1 ⟨hd, hn⟩] at hg; cases hg
              concform
            · rw [(par_tr_some c hos).2.1 ⟨hd, hds.resolve_left hd, hn⟩] at hg; cases hg
              concform
    · rw [not_or] at hds
      rw [par_tr_plain c hds.1 hds.2] at hg; cases hg
      concform
  · by_cases hx : ∃ n ∈ ["-d", "-D", "--all-repeated"], Has c n
    · rw [par_uniq_none c hx] at hg; cases hg; exact fun q hq => by cases hq
    · by_cases hc : Has c "-c"
      · rw [par_uniq_count c hx hc] at hg; cases hg; concform
      · rw [par_uniq_plain c hx hc] at hg; cases hg; concform
  · rw [par_conc c ParGen.xargs (by simp)] at hg; cases hg; concform

theorem offered_concatenate {inv : CommandInvocationInitial} {p : Parallelizer} (h : Offered inv p)
    (hk : p.coreAggregatorSpec.kind = .concatenate) : p ∈ bothPlans concatenation := by
  obtain ⟨i, hi, h⟩ := offered_iff.1 h
  rcases h with h | ⟨hc, q, hq, _, rfl⟩
  · exact (par_conc_form hi p h hk).2
  · have := (par_conc_form hi q hq hk).1
    rw [hc] at this; cases this

/-! Streams. -/

theorem lineWise_nil {f : List α → List α} (h : LineWise f) : f [] = [] := by
  have := congrArg List.length (h [] [])
  simp only [List.append_nil, List.length_append] at this
  exact List.length_eq_zero_iff.1 (by omega)

theorem lineWise_flatten {f : List α → List α} (h : LineWise f) (parts : List (List α)) :
    (parts.map f).flatten = f parts.flatten := by
  induction parts with
  | nil => rw [List.map_nil, List.flatten_nil, lineWise_nil h]
  | cons x l ih => rw [List.map_cons, List.flatten_cons, List.flatten_cons, h, ih]

theorem dealt_perm {x : List α} {parts : List (List α)} (h : Dealt x parts) : parts.flatten.Perm x := by
  induction h with
  | start n =>
      have : (List.replicate n ([] : List α)).flatten = [] := by simp
      rw [this]
  | @block x w b before after h ih =>
      simp only [List.flatten_append, List.flatten_cons] at ih ⊢
      rw [List.append_assoc w b, ← List.append_assoc before.flatten w]
      refine (List.perm_append_comm_assoc _ _ _).trans ?_
      refine (List.perm_append_comm).trans ?_
      exact List.Perm.append_right b (by simpa [List.append_assoc] using ih)

theorem split_perm {s : Splitter} {x : List α} {parts : List (List α)} (h : Split s x parts) : parts.flatten.Perm x := by
  cases s
  case roundRobinUnwrapFlag => exact dealt_perm h
  all_goals exact List.Perm.of_eq h


/-! Names of flags and options. -/

theorem has_iff_given {inv : CommandInvocationInitial} {c : CommandInvocationWithIOVars} (hb : Belongs inv c)
    (n : String) : Has inv n ↔ Given c.flagOptionList n := by
  have h1 : Has inv n ↔ n ∈ inv.flagOptionList.map (·.getName) := by
    unfold Has
    rw [List.mem_map]
    constructor
    · rintro (h | ⟨a, h⟩)
      · exact ⟨_, h, rfl⟩
      · exact ⟨_, h, rfl⟩
    · rintro ⟨x, hx, hn⟩
      cases x with
      | flag m => cases hn; exact .inl hx
      | option m a => cases hn; exact .inr ⟨a, hx⟩
  rw [h1, ← hb.2, List.mem_map]
  rfl

theorem argAmong_none {fl : List FlagOptionWithIOVar} {ns : List String} (h : ∀ n ∈ ns, ¬ Given fl n) :
    argAmong fl ns = none := by
  unfold argAmong
  rw [List.findSome?_eq_none_iff]
  intro x hx
  have hne : x.getName ∉ ns := fun he => h _ he ⟨x, List.mem_reverse.1 hx, rfl⟩
  match x, hne with
  | .flag m, _ => rfl
  | .optionVar o m (.str s), hne => exact if_neg hne
  | .optionVar o m (.var s), hne => rfl
  | .optionVar o m (.io s), hne => rfl
  | .optionIO m (.str s), hne => exact if_neg hne
  | .optionIO m (.var s), hne => rfl
  | .optionIO m (.io s), hne => rfl

theorem argOf_none {fl : List FlagOptionWithIOVar} {n : String} (h : ¬ Given fl n) : argOf fl n = none :=
  argAmong_none (fun m hm => by rw [List.mem_singleton.1 hm]; exact h)

/-! grep. -/

/-- The options of grep for context lines, and those that limit the number of matching lines. -/
def contextNames : List String := ["-A", "--after-context", "-B", "--before-context", "-C", "--context"]
def limitNames : List String := ["-m", "--max-count"]

theorem flatMap_range (x : Stream) (F : String → List String) :
    (List.range x.length).flatMap (fun k => F (x[k]?.getD "")) = x.flatMap F := by
  have : (List.range x.length).map (fun k => x[k]?.getD "") = x := by
    apply List.ext_getElem
    · simp
    · intro n h1 h2
      simp [List.getElem?_eq_getElem h2]
  conv => rhs; rw [← this]
  rw [List.flatMap_map]

variable (g : GrepParameters) (fl : List FlagOptionWithIOVar) (strs : List String)

theorem selected_lt {x : Stream} {k : Nat} (h : g.selected fl strs x k = true) : k < x.length := by
  by_cases hk : k < x.length
  · exact hk
  · rw [GrepParameters.selected, List.getElem?_eq_none (by omega)] at h
    simp at h

theorem noContext (h : ¬ ∃ n ∈ contextNames, Given fl n) : g.before fl = 0 ∧ g.after fl = 0 := by
  have key : ∀ a b, a ∈ contextNames → b ∈ contextNames → argAmong fl [a, b] = none := by
    intro a b ha hb
    refine argAmong_none (fun n hn hg => h ⟨n, ?_, hg⟩)
    simp only [List.mem_cons, List.not_mem_nil, or_false] at hn
    rcases hn with rfl | rfl
    · exact ha
    · exact hb
  have hA := key "-A" "--after-context" (by simp [contextNames]) (by simp [contextNames])
  have hB := key "-B" "--before-context" (by simp [contextNames]) (by simp [contextNames])
  have hC := key "-C" "--context" (by simp [contextNames]) (by simp [contextNames])
  simp [GrepParameters.before, GrepParameters.after, hA, hB, hC]

theorem printed_noContext (hc : ¬ ∃ n ∈ contextNames, Given fl n) (x : Stream) (k : Nat) :
    g.printed fl strs x k = if g.selected fl strs x k then
      g.print fl true (if Given fl "-n" then some (k + 1) else none)
        (if Given fl "-b" then some (GrepParameters.offset x k) else none) (x[k]?.getD "") else [] := by
  obtain ⟨hb, ha⟩ := noContext g fl hc
  have hs : g.shown fl strs x k = g.selected fl strs x k := by
    rw [Bool.eq_iff_iff]
    unfold GrepParameters.shown
    rw [List.any_eq_true]
    constructor
    · rintro ⟨j, _, h⟩
      simp only [Bool.and_eq_true, decide_eq_true_eq, hb, ha] at h
      have : j = k := by omega
      rw [← this]; exact h.1
    · intro h
      refine ⟨k, List.mem_range.2 (selected_lt g fl strs h), ?_⟩
      simp [h]
  unfold GrepParameters.printed
  rw [hs]
  cases h : g.selected fl strs x k with
  | false => simp
  | true =>
      have hn : ¬ GrepParameters.context fl := hc
      simp [hn]

theorem listing_none (hl : ¬ Given fl "-l") (hL : ¬ Given fl "-L") : GrepParameters.listing fl = none := by
  have h : (fl.map FlagOptionWithIOVar.getName).filter (fun n => decide (n ∈ ["-l", "-L"])) = [] := by
    refine List.filter_eq_nil_iff.2 (fun n hn hd => ?_)
    obtain ⟨x, hx, rfl⟩ := List.mem_map.1 hn
    rcases List.mem_cons.1 (of_decide_eq_true hd) with h | h
    · exact hl ⟨x, hx, h⟩
    · exact hL ⟨x, hx, List.mem_singleton.1 h⟩
  unfold GrepParameters.listing
  rw [h]; rfl

theorem grep_plain (h : ¬ ∃ n ∈ ["-q", "-L", "-l", "-c", "-n", "-b"] ++ (contextNames ++ limitNames), Given fl n) (x : Stream) :
    g.grep fl strs x = x.flatMap fun l => if g.matching fl strs l then g.print fl true none none l else [] := by
  have h' : ∀ n, n ∈ ["-q", "-L", "-l", "-c", "-n", "-b"] ++ (contextNames ++ limitNames) → ¬ Given fl n :=
    fun n hn hg => h ⟨n, hn, hg⟩
  have hcx : ¬ ∃ n ∈ contextNames, Given fl n :=
    fun ⟨n, hn, hg⟩ => h' n (by simp only [List.mem_append]; exact .inr (.inl hn)) hg
  have hm : g.limit fl = none := by
    unfold GrepParameters.limit
    rw [argAmong_none (fun n hn => h' n (by simp only [List.mem_append]; exact .inr (.inr hn)))]; rfl
  unfold GrepParameters.grep
  simp only [h' "-q" (by simp), listing_none fl (h' "-l" (by simp)) (h' "-L" (by simp)), h' "-c" (by simp), if_false,
    reduceCtorEq]
  rw [← flatMap_range x]
  unfold List.flatMap
  congr 1
  apply List.map_congr_left
  intro k hk
  rw [printed_noContext g fl strs hcx]
  simp only [h' "-n" (by simp), h' "-b" (by simp), if_false]
  have hk' := List.mem_range.1 hk
  have hs : g.selected fl strs x k = g.matching fl strs (x[k]?.getD "") := by
    unfold GrepParameters.selected
    rw [hm, List.getElem?_eq_getElem hk']
    simp
  rw [hs]

/-! sort. -/

theorem noVisited_optionVar {l : List FlagOptionWithIOVar}
    (h : ∀ n v, FlagOptionWithIOVar.optionIO n (.var v) ∉ l) : l.flatMap optionVar = [] := by
  rw [List.flatMap_eq_nil_iff]
  intro x hx
  match x, hx with
  | .flag n, _ => rfl
  | .optionVar o n a, _ => rfl
  | .optionIO n (.str a), _ => rfl
  | .optionIO n (.io a), _ => rfl
  | .optionIO n (.var v), hx => exact absurd hx (h n v)

/-- The flags of the merge. -/
def mergeOf (fl : List FlagOptionWithIOVar) : List FlagOptionWithIOVar :=
  fl.filter (fun x => x.getName ∈ orderingNames) ++ [.flag "-m"]

/-- The actual aggregator of sort exists and merges its two inputs. -/
theorem sort_aggregator (prog : Programs) {p : Parallelizer} (hp : p.coreAggregatorSpec = sortMerge)
    {c : CommandInvocationWithIOVars} (hc : OneStream c) {x y o : IOVar} (hx : Unused c x) (hy : Unused c y)
    (hxy : x ≠ y ∧ o ≠ x ∧ o ≠ y) : ∃ agg, p.getActualAggregator c [x, y] o = .ok (some agg) ∧
      ∀ env, output prog env agg.cmd = prog c.cmdName (mergeOf c.flagOptionList) [] [env x, env y] := by
  obtain ⟨co, hco, hio⟩ := hc.out
  have hcoa : accessOf c co = some .streamOutput := (withAccess_mem.1 (by rw [hco]; simp)).2
  have hv : ∀ n v, FlagOptionWithIOVar.optionIO n (.var v) ∉ ParGen.sortTransformer.apply c.flagOptionList := by
    rw [sortTransformer_apply]; intro n v hm
    rcases List.mem_append.1 hm with hm | hm
    · exact hc.options n v (List.mem_filter.1 hm).1
    · simp at hm
  have hocc : occurrences { c with flagOptionList := ParGen.sortTransformer.apply c.flagOptionList } = occurrences c := by
    unfold occurrences
    rw [noVisited_optionVar hc.options, noVisited_optionVar hv]
  obtain ⟨agg, ha, _, hn, hf, hop, hi, ho, hacc⟩ := C48_transformed_partial ParGen.sortTransformer c x y co o
    (by intro v hv'; rw [hocc] at hv'; exact hc.described v hv') (by rw [hocc]; exact hc.distinct)
    (by rw [noVisited_optionVar hv]; simp) hc.implicit hio hcoa hx.2 hy.2 hxy.1
  refine ⟨agg, by unfold Parallelizer.getActualAggregator; rw [hp]; exact ha, fun env => ?_⟩
  have hw : withAccess agg.cmd .streamInput = [x, y] := by
    unfold withAccess
    have : occurrences agg.cmd = [x, y, o] := by
      unfold occurrences
      rw [hf, noVisited_optionVar hv, hop, hi, ho]
      simp only [List.flatMap_cons, varOf_var, List.flatMap_nil]; rfl
    rw [this]
    have hne : ∀ v, Unused c v → v ≠ co := fun v hv he => by
      have := hv.2; rw [he, hcoa] at this; cases this
    have ax : accessOf agg.cmd x = some .streamInput := by
      rw [hacc, if_neg hxy.2.1.symm, if_neg (hne x hx), if_pos (.inl rfl)]
    have ay : accessOf agg.cmd y = some .streamInput := by
      rw [hacc, if_neg hxy.2.2.symm, if_neg (hne y hy), if_pos (.inr rfl)]
    have ao : accessOf agg.cmd o = some .streamOutput := by rw [hacc, if_pos rfl]
    simp [ax, ay, ao]
  have hs : strOperands agg.cmd = [] := by unfold strOperands; rw [hop]; rfl
  unfold output
  rw [hn, hf, hs, hw, sortTransformer_apply]
  rfl

/-- The order of the merge is the order of the sort. -/
theorem mergeOf_ordering {fl : List FlagOptionWithIOVar} (h : ¬ ∃ n ∈ ["-R", "-s", "-z"], Given fl n) :
    (mergeOf fl).filter (fun x => x.getName ∈ sortOrdering) = fl.filter (fun x => x.getName ∈ sortOrdering) := by
  unfold mergeOf
  rw [List.filter_append, List.filter_filter]
  have h2 : [FlagOptionWithIOVar.flag "-m"].filter (fun x => x.getName ∈ sortOrdering) = [] := by decide +kernel
  rw [h2, List.append_nil]
  apply List.filter_congr
  intro x hx
  have hne : ∀ n ∈ ["-R", "-s", "-z"], x.getName ≠ n := fun n hn he => h ⟨n, hn, x, hx, he⟩
  rw [Bool.eq_iff_iff, Bool.and_eq_true, decide_eq_true_eq, decide_eq_true_eq]
  have h1 := hne "-R" (by simp); have h2 := hne "-s" (by simp); have h3 := hne "-z" (by simp)
  generalize x.getName = n at h1 h2 h3
  simp only [sortOrdering, orderingNames, List.mem_cons, List.not_mem_nil, or_false]
  grind

theorem mergeOf_given {fl : List FlagOptionWithIOVar} {n : String} (hn : n ∉ "-m" :: orderingNames) :
    ¬ Given (mergeOf fl) n := by
  rintro ⟨x, hx, rfl⟩
  rcases List.mem_append.1 hx with hx | hx
  · have := (List.mem_filter.1 hx).2
    exact hn (List.mem_cons_of_mem _ (by simpa using this))
  · rw [List.mem_singleton.1 hx] at hn; exact hn (by simp [FlagOptionWithIOVar.getName])

theorem mergeOf_covered {fl : List FlagOptionWithIOVar} (h : Covered "sort" fl) : Covered "sort" (mergeOf fl) := by
  obtain ⟨q, hq, hn, h⟩ := h
  have hm : "-m" ∈ q.2 := by
    simp only [coveredNames, List.mem_cons, List.not_mem_nil, or_false] at hq
    rcases hq with rfl | rfl | rfl | rfl | rfl | rfl | rfl <;> simp at hn ⊢
  refine ⟨q, hq, hn, fun x hx => ?_⟩
  rcases List.mem_append.1 hx with hx | hx
  · exact h x (List.mem_filter.1 hx).1
  · rw [List.mem_singleton.1 hx]; exact hm

/-- Whatever its shape, the joined outputs are ordered and consist of the lines of the outputs. -/
theorem joined_sorted {prog : Programs} {le : List FlagOptionWithIOVar → String → String → Prop}
    (hprog : SortProgram prog le) {p : Parallelizer} (hp : p.coreAggregatorSpec = sortMerge)
    {c : CommandInvocationWithIOVars} (hn : c.cmdName = "sort") (hc : OneStream c) (hcov : Covered "sort" c.flagOptionList)
    (hle : LineOrder (le c.flagOptionList)) (hg : ¬ ∃ n ∈ ["-R", "-s", "-z"], Given c.flagOptionList n)
    {outs : List Stream} {y : Stream} (h : Joined prog p c outs y)
    (hs : ∀ s ∈ outs, s.Pairwise (le c.flagOptionList)) :
    y.Pairwise (le c.flagOptionList) ∧ y.Perm outs.flatten := by
  induction h with
  | leaf s => exact ⟨hs s (by simp), by simp⟩
  | @node l r a b x y o agg env hl hr hx hy ho hxy h ha hb ihl ihr =>
      obtain ⟨sa, pa⟩ := ihl (fun s h => hs s (List.mem_append.2 (.inl h)))
      obtain ⟨sb, pb⟩ := ihr (fun s h => hs s (List.mem_append.2 (.inr h)))
      obtain ⟨agg', ha', hout⟩ := sort_aggregator prog hp hc hx hy hxy
      rw [h] at ha'; cases ha'
      have hord := hprog.ordering _ _ (mergeOf_ordering hg)
      rw [hout, hn, ha, hb, ← hord]
      obtain ⟨h1, h2⟩ := hprog.sorts (mergeOf c.flagOptionList) [a, b] (mergeOf_covered hcov) (by rw [hord]; exact hle)
        (mergeOf_given (by decide)) (mergeOf_given (by decide)) (mergeOf_given (by decide))
        (mergeOf_given (by decide)) (fun _ s hs' => by
          rw [hord]
          simp only [List.mem_cons, List.not_mem_nil, or_false] at hs'
          rcases hs' with rfl | rfl
          · exact sa
          · exact sb)
      refine ⟨h1, h2.trans ?_⟩
      simp only [List.flatten_cons, List.flatten_nil, List.append_nil, List.flatten_append]
      exact pa.append pb

/-! uniq. -/

/-- The groups of a stream that starts with `l`. -/
theorem groups_head (same : String → String → Bool) (l : String) (x : Stream) :
    ∃ g gs, groups same (l :: x) = (l :: g) :: gs := by
  unfold groups
  split
  · split
    · exact ⟨_, _, rfl⟩
    · exact ⟨_, _, rfl⟩
  · exact ⟨_, _, rfl⟩

/-- The first lines of the groups. -/
def firsts (same : String → String → Bool) (x : Stream) : Stream := (groups same x).flatMap (List.take 1)

theorem firsts_one (same : String → String → Bool) (l : String) : firsts same [l] = [l] := rfl

theorem firsts_cons (same : String → String → Bool) (l : String) (x : Stream) : ∃ t, firsts same (l :: x) = l :: t := by
  obtain ⟨g, gs, h⟩ := groups_head same l x
  exact ⟨gs.flatMap (List.take 1), by simp [firsts, h]⟩

theorem firsts_cons2 (same : String → String → Bool) (l k : String) (x : Stream) :
    firsts same (l :: k :: x) = l :: if same l k then (firsts same (k :: x)).tail else firsts same (k :: x) := by
  obtain ⟨g, gs, h⟩ := groups_head same k x
  have e : groups same (l :: k :: x) = if same l k then (l :: k :: g) :: gs else [l] :: (k :: g) :: gs := by
    rw [groups, h]
  unfold firsts
  rw [e, h]
  cases same l k <;> simp

theorem splice_cons (f : Stream → Stream) (l k : String) (t b : Stream) :
    splice f (l :: k :: t) b = l :: splice f (k :: t) b := by
  unfold splice
  rw [List.getLast?_cons_cons]
  cases b with
  | nil => cases (k :: t).getLast? <;> simp
  | cons r b =>
      cases h : (k :: t).getLast? with
      | none => simp at h
      | some m => simp [List.dropLast]

theorem firsts_append {same : String → String → Bool} (hs : SameLine same) (x y : Stream) :
    firsts same (x ++ y) = splice (firsts same) (firsts same x) (firsts same y) := by
  induction x with
  | nil => rfl
  | cons l x ih =>
      cases x with
      | nil =>
          cases y with
          | nil => rfl
          | cons k y =>
              obtain ⟨t, ht⟩ := firsts_cons same k y
              rw [List.singleton_append, firsts_cons2, ht, firsts_one]
              unfold splice
              simp only [List.getLast?_singleton, List.dropLast_singleton, List.nil_append]
              rw [firsts_cons2, firsts_one]
              cases same l k <;> simp
      | cons k x =>
          rw [List.cons_append, List.cons_append, firsts_cons2, firsts_cons2, ← List.cons_append, ih]
          obtain ⟨t, ht⟩ := firsts_cons same k x
          rw [ht]
          cases hlk : same l k with
          | false => simp only [Bool.false_eq_true, if_false]; rw [splice_cons]
          | true =>
              simp only [if_true, List.tail_cons]
              cases t with
              | cons m t => rw [splice_cons, splice_cons]; rfl
              | nil =>
                  generalize firsts same y = b
                  cases b with
                  | nil => rfl
                  | cons r b =>
                      unfold splice
                      simp only [List.getLast?_singleton, List.dropLast_singleton, List.nil_append]
                      rw [firsts_cons2, firsts_cons2, firsts_one]
                      have : same l r = same k r := by
                        rw [Bool.eq_iff_iff]
                        exact ⟨fun h => hs.trans _ _ _ (hs.symm _ _ hlk) h, fun h => hs.trans _ _ _ hlk h⟩
                      rw [this]
                      cases same k r <;> simp

theorem spliced_flatten {f : Stream → Stream} (hf : ∀ x y, f (x ++ y) = splice f (f x) (f y)) {parts : List Stream} {y : Stream} (h : Spliced f (parts.map f) y) :
    y = f parts.flatten := by
  generalize ho : parts.map f = outs at h
  induction h generalizing parts with
  | leaf s =>
      cases parts with
      | nil => cases ho
      | cons a l =>
          simp only [List.map_cons, List.cons.injEq, List.map_eq_nil_iff] at ho
          obtain ⟨rfl, rfl⟩ := ho
          simp
  | @node l r a b hl hr ihl ihr =>
      obtain ⟨pl, pr, rfl, rfl, rfl⟩ := List.map_eq_append_iff.1 ho
      rw [ihl rfl, ihr rfl, List.flatten_append, hf]

/-- All lines, with an empty line between groups. -/
def separated (same : String → String → Bool) (x : Stream) : Stream := ((groups same x).intersperse [""]).flatten

theorem separated_one (same : String → String → Bool) (l : String) : separated same [l] = [l] := rfl

theorem separated_cons2 (same : String → String → Bool) (l k : String) (x : Stream) :
    separated same (l :: k :: x) = l :: if same l k then separated same (k :: x) else "" :: separated same (k :: x) := by
  obtain ⟨g, gs, h⟩ := groups_head same k x
  have e : groups same (l :: k :: x) = if same l k then (l :: k :: g) :: gs else [l] :: (k :: g) :: gs := by
    rw [groups, h]
  unfold separated
  rw [e, h]
  cases same l k
  · simp
  · cases gs <;> simp

theorem separated_cons (same : String → String → Bool) (l : String) (x : Stream) :
    ∃ t, separated same (l :: x) = l :: t := by
  cases x with
  | nil => exact ⟨[], rfl⟩
  | cons k x => exact ⟨_, separated_cons2 same l k x⟩

theorem separated_append (same : String → String → Bool) (x y : Stream) :
    separated same (x ++ y) = splice (separated same) (separated same x) (separated same y) := by
  induction x with
  | nil => rfl
  | cons l x ih =>
      cases x with
      | nil =>
          cases y with
          | nil => rfl
          | cons k y =>
              obtain ⟨t, ht⟩ := separated_cons same k y
              rw [List.singleton_append, separated_cons2, ht, separated_one]
              unfold splice
              simp only [List.getLast?_singleton, List.dropLast_singleton, List.nil_append]
              rw [separated_cons2, separated_one]
              cases same l k <;> simp
      | cons k x =>
          rw [List.cons_append, List.cons_append, separated_cons2, separated_cons2, ← List.cons_append, ih]
          obtain ⟨t, ht⟩ := separated_cons same k x
          rw [ht]
          cases same l k with
          | false => simp only [Bool.false_eq_true, if_false]; rw [splice_cons, splice_cons]
          | true => simp only [if_true]; rw [splice_cons]

/-- Joining an empty and a one-line output. -/
theorem spliced_two {f : Stream → Stream} {outs : List Stream} {y : Stream} {l : String} (h : Spliced f outs y)
    (ho : outs = [[], [l]]) : y = [l] := by
  have one : ∀ {outs : List Stream} {y s : Stream}, Spliced f outs y → outs = [s] → y = s := by
    intro outs y s h
    induction h with
    | leaf a => intro h; simpa using h
    | @node p q a b hp hq ih1 ih2 =>
        intro h
        have h1 : p ≠ [] := by clear ih1 ih2 h; induction hp <;> simp_all
        have h2 : q ≠ [] := by clear ih1 ih2 h; induction hq <;> simp_all
        have := congrArg List.length h
        have l1 := List.length_pos_iff.2 h1
        have l2 := List.length_pos_iff.2 h2
        simp only [List.length_append, List.length_singleton] at this
        omega
  cases h with
  | leaf a => simp at ho
  | @node p q a b hp hq =>
      have h1 : p ≠ [] := by clear ho; induction hp <;> simp_all
      have h2 : q ≠ [] := by clear ho; induction hq <;> simp_all
      match p, q, h1, h2 with
      | [u], [v], _, _ =>
          simp only [List.singleton_append, List.cons.injEq, and_true] at ho
          rw [one hp rfl, one hq rfl, ho.1, ho.2]; rfl
      | _ :: _ :: _, _ :: _, _, _ => simp at ho
      | _ :: _, _ :: _ :: _, _, _ => have := congrArg List.length ho; simp at this; omega

end PashAnn
