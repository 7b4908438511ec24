import Verif.Spec.Authors
import Verif.Props.Constructors
import Verif.Props.Parallel

/-! C89: what generators made of the methods for authors of parallelizability generators say. -/

namespace PashAnn
open Spec

private theorem parcall_exec (i : ParallelizabilityInfo) (call : ParCall) :
    ∃ j, call.exec i = .ok j ∧ j.parallelizerList = i.parallelizerList ++ (saysPlan call).toList ∧
      (j.isCommutative = true ↔ i.isCommutative = true ∨ call = .setCommutative) ∧
      j.roundRobinCompatibleWithCat = i.roundRobinCompatibleWithCat := by
  cases call <;> refine ⟨_, rfl, ?_, ?_, rfl⟩ <;>
    simp [saysPlan, ParallelizabilityInfo.setCommutative, ParallelizabilityInfo.append, plan, sameCommand, concatenation,
      MapperSpec.seqIfNone, MapperSpec.makeSeq, AggregatorSpec.concIfNone, AggregatorSpec.makeConcatenate,
      AggregatorSpec.makeAdjLinesMerge, AggregatorSpec.makeAdjLinesSeq, AggregatorSpec.makeAdjLinesFuncFromString]

/-- C89. A generator made of calls of these methods does not raise. It lists the plans that the names of the methods
say, in the order of the calls, and says commutative exactly if it was declared. -/
theorem C89_methods (calls : List ParCall) :
    ∃ i, ParCall.execAll {} calls = .ok i ∧ i.parallelizerList = calls.filterMap saysPlan ∧
      (i.isCommutative = true ↔ .setCommutative ∈ calls) ∧ i.roundRobinCompatibleWithCat = false := by
  have key : ∀ (calls : List ParCall) (i : ParallelizabilityInfo), ∃ j, ParCall.execAll i calls = .ok j ∧
      j.parallelizerList = i.parallelizerList ++ calls.filterMap saysPlan ∧
      (j.isCommutative = true ↔ i.isCommutative = true ∨ .setCommutative ∈ calls) ∧
      j.roundRobinCompatibleWithCat = i.roundRobinCompatibleWithCat := by
    intro calls
    induction calls with
    | nil => intro i; exact ⟨i, rfl, by simp, by simp, rfl⟩
    | cons call rest ih =>
        intro i
        obtain ⟨j, h1, h2, h3, h4⟩ := parcall_exec i call
        obtain ⟨k, g1, g2, g3, g4⟩ := ih j
        refine ⟨k, ?_, ?_, ?_, g4.trans h4⟩
        · show (call.exec i >>= fun i => ParCall.execAll i rest) = _
          rw [h1]; exact g1
        · rw [g2, h2, List.filterMap_cons]
          cases saysPlan call <;> simp
        · rw [g3, h3, List.mem_cons, or_assoc, eq_comm (a := call)]
  obtain ⟨j, h1, h2, h3, h4⟩ := key calls {}
  exact ⟨j, h1, by simpa using h2, by simpa using h3, h4⟩

example : ([.setCommutative, .ccSeqAdjm, .rrSeqConc, .ccSeqAdjm] : List ParCall).filterMap saysPlan =
    [plan .consecChunks (.nonFunc .adjLinesMerge false), plan .roundRobinPlain concatenation,
      plan .consecChunks (.nonFunc .adjLinesMerge false)] := rfl

/-- C89: of the questions about its kind an aggregator specification answers exactly one with yes, the one for its
kind. -/
theorem C89_questions (a : AggregatorSpec) :
    (∀ q ∈ questions, q.1 a = true ↔ a.kind = q.2) ∧ (questions.filter (fun q => q.1 a)).length = 1 := by
  constructor
  · intro q hq
    simp only [questions, List.mem_cons, List.not_mem_nil, or_false] at hq
    rcases hq with rfl | rfl | rfl | rfl | rfl | rfl <;>
      simp [AggregatorSpec.isConcatenate, AggregatorSpec.isAdjLinesMerge, AggregatorSpec.isAdjLinesSeq,
        AggregatorSpec.isAdjLinesFunc, AggregatorSpec.isCustom2Ary, AggregatorSpec.isCustomNAry]
  · cases a with
    | nonFunc k b => cases k <;> rfl
    | funcTransformer k t b => cases k <;> rfl
    | funcString k s b => cases k <;> rfl

/-- C89: the functions that make aggregator specifications make ones of the kind in their name, with the parts they are
given; a transformer that is not given is the one that changes nothing. -/
theorem C89_makers (s : String) (t : Option Transformer) (impl : Bool) :
    AggregatorSpec.makeConcatenate = .nonFunc .concatenate true ∧
    AggregatorSpec.makeAdjLinesMerge = .nonFunc .adjLinesMerge false ∧
    AggregatorSpec.makeAdjLinesSeq = .nonFunc .adjLinesSeq false ∧
    AggregatorSpec.makeAdjLinesFuncFromString s impl = .funcString .adjLinesFunc s impl ∧
    AggregatorSpec.makeCustom2AryFromString s impl = .funcString .custom2Ary s impl ∧
    AggregatorSpec.makeCustomNAryFromString s impl = .funcString .customNAry s impl ∧
    AggregatorSpec.makeAdjLinesFuncFromTransformers t impl = .funcTransformer .adjLinesFunc (t.getD .seq) impl ∧
    AggregatorSpec.makeCustom2AryFromTransformers t impl = .funcTransformer .custom2Ary (t.getD .seq) impl ∧
    AggregatorSpec.makeCustomNAryFromTransformers t impl = .funcTransformer .customNAry (t.getD .seq) impl := by
  cases t <;> exact ⟨rfl, rfl, rfl, rfl, rfl, rfl, rfl, rfl, rfl⟩

/-- C89: what authors get who leave out all that may be left out: nothing counts as implemented unless they say so, and
the transformer is the one that changes nothing. -/
theorem C89_defaults (s : String) :
    AggregatorSpec.makeAdjLinesFuncFromString s = .funcString .adjLinesFunc s false ∧
    AggregatorSpec.makeCustom2AryFromString s = .funcString .custom2Ary s false ∧
    AggregatorSpec.makeCustomNAryFromString s = .funcString .customNAry s false ∧
    AggregatorSpec.makeAdjLinesFuncFromTransformers = .funcTransformer .adjLinesFunc .seq false ∧
    AggregatorSpec.makeCustom2AryFromTransformers = .funcTransformer .custom2Ary .seq false ∧
    AggregatorSpec.makeCustomNAryFromTransformers = .funcTransformer .customNAry .seq false ∧
    MapperSpec.makeCustom s = ⟨.custom, some s, .seq, false⟩ ∧
    MapperSpec.makeCustomFromString s = MapperSpec.makeCustomFromString s false ∧
    Parallelizer.makeIndivFiles = .ok (plan .indivFiles concatenation) ∧
    Parallelizer.makeConsecChunks = .ok (plan .consecChunks concatenation) ∧
    Parallelizer.makeRoundRobin = .ok (plan .roundRobinPlain concatenation) :=
  ⟨rfl, rfl, rfl, rfl, rfl, rfl, rfl, rfl, rfl, rfl, rfl⟩

/-- C89: of the questions about its kind a splitter answers at most one with yes, and none exactly if it is for
individual files. -/
theorem C89_splitters (s : Splitter) :
    (s.isRoundRobin = true ↔ s = .roundRobinPlain) ∧ (s.isRoundRobinWithUnwrapFlag = true ↔ s = .roundRobinUnwrapFlag) ∧
    (s.isConsecChunks = true ↔ s = .consecChunks) := by
  simp [Splitter.isRoundRobin, Splitter.isRoundRobinWithUnwrapFlag, Splitter.isConsecChunks]

/-- C89: a function of adjacent lines is never obtained. If it is said to be implemented then asking for it raises, for
every text, command and streams. -/
theorem C89_adjf_false (s : String) (p : Parallelizer)
    (hp : saysPlan (.ccSeqAdjf s true) = some p ∨ saysPlan (.rrSeqAdjf s true) = some p)
    (c : CommandInvocationWithIOVars) (ins : List IOVar) (out : IOVar) :
    p.areAllPartsImplemented = true ∧ ∃ e, p.getActualAggregator c ins out = .error e := by
  have hp' : p.coreMapperSpec = sameCommand ∧ p.coreAggregatorSpec = .funcString .adjLinesFunc s true := by
    rcases hp with hp | hp <;> cases hp <;> exact ⟨rfl, rfl⟩
  refine ⟨by rw [Parallelizer.areAllPartsImplemented, hp'.1, hp'.2]; rfl, ?_⟩
  rw [Parallelizer.getActualAggregator, hp'.2]
  simp only [AggregatorSpec.getAggregator, Bool.not_true, Bool.false_eq_true, if_false]
  cases parse s with
  | error e => exact ⟨e, rfl⟩
  | ok agg =>
      show ∃ e, (onlyFlags agg.flagOptionList >>= _) = .error e
      cases onlyFlags agg.flagOptionList with
      | error e => exact ⟨e, rfl⟩
      | ok fos =>
          by_cases hl : ins.length = 1
          · exact ⟨.exception "case not yet implemented", by simp [bind, Except.bind, pyAssert, hl]⟩
          · exact ⟨.assertionError, by simp [bind, Except.bind, pyAssert, hl]⟩

/-- C89: what the plans of the named methods give when a user asks for the aggregator. Concatenation gives `cat`; the
other ones that are not said to be implemented give nothing, without raising. Missing: functions of adjacent lines
that are said to be implemented (false, above). -/
theorem C89_obtained_partial (call : ParCall) (p : Parallelizer) (hp : saysPlan call = some p) (hn : ∀ q, call ≠ .append q)
    (c : CommandInvocationWithIOVars) (ins : List IOVar) (out : IOVar) :
    (p.coreAggregatorSpec.kind = .concatenate → p.getActualAggregator c ins out =
      .ok (some ⟨.concatenate, CommandInvocationWithIOVars.makeCat ins out⟩)) ∧
    (p.areAllPartsImplemented = false → p.getActualAggregator c ins out = .ok none) := by
  cases call <;> first
    | exact absurd rfl (hn _)
    | (cases hp; done)
    | (cases hp
       constructor
       · intro h; first | rfl | cases h
       · intro h
         first
           | rfl
           | (cases h; done)
           | (simp only [Parallelizer.areAllPartsImplemented, plan, sameCommand, AggregatorSpec.isImplemented,
                Bool.true_and] at h
              subst h
              rfl))

/-- C89: a node of a plan says that it concatenates exactly if it is an aggregator of that kind; a command does not,
not even `cat`. -/
theorem C89_nodes (o : CommandObject) :
    o.isAggregatorConcatenate = true ↔ ∃ a : Aggregator, o = .aggregator a ∧ a.kind = .concatenate := by
  cases o with
  | command c => simp [CommandObject.isAggregatorConcatenate]
  | aggregator a => simp [CommandObject.isAggregatorConcatenate, Aggregator.isConcatenate]

/-- C89: the helper for writing flags and options accepts exactly the lists of one or two words. -/
theorem C89_simple (l : List String) (f : FlagOption) :
    makeArgSimple l = .ok f ↔ (∃ n, l = [n] ∧ f = .flag n) ∨ ∃ n a, l = [n, a] ∧ f = .option n a := by
  match l with
  | [] => simp [makeArgSimple]
  | [n] => simp [makeArgSimple, eq_comm]
  | [n, a] =>
      simp only [makeArgSimple, Except.ok.injEq]
      constructor
      · rintro rfl; exact .inr ⟨n, a, rfl, rfl⟩
      · rintro (⟨_, h, _⟩ | ⟨_, _, h, rfl⟩)
        · cases h
        · cases h; rfl
  | _ :: _ :: _ :: _ => simp [makeArgSimple]

/-- C89: it raises for exactly the other lists, always in the same way. -/
theorem C89_simple_raises (l : List String) (e : PyErr) :
    makeArgSimple l = .error e ↔ l.length ≠ 1 ∧ l.length ≠ 2 ∧ e = .exception "no proper kind given for Arg" := by
  match l with
  | [] => simp [makeArgSimple, eq_comm]
  | [n] => simp [makeArgSimple]
  | [n, a] => simp [makeArgSimple]
  | _ :: _ :: _ :: l => simp [makeArgSimple, eq_comm]

/-- C50 in terms of the library's own fold over lists, which gives the element first. -/
theorem C50_fold (ts : List Transformer) (l : List FlagOptionWithIOVar) :
    (Transformer.chain ts).apply l = pyFoldl Transformer.apply l ts ∧
    ∀ {α β : Type} (f : α → β → β) (b : β) (xs : List α), pyFoldl f b xs = xs.foldl (fun acc x => f x acc) b := by
  constructor
  · show Transformer.applyChain ts l = _
    induction ts generalizing l with
    | nil => rfl
    | cons t ts ih => exact ih _
  · intro α β f b xs
    induction xs generalizing b with
    | nil => rfl
    | cons x xs ih => exact ih _

/-- C89: each of the generators in the repository does what some sequence of these calls does, in which every plan that
is appended as such was made by the constructors. -/
theorem C89_shipped (name : String) (gen : ParGenerator) (hg : (name, gen) ∈ parGeneratorClasses)
    (c : CommandInvocationInitial) (i : ParallelizabilityInfo) (h : gen c = .ok i) :
    ∃ calls, (∀ p, .append p ∈ calls → Built p) ∧ ParCall.execAll {} calls = .ok i := by
  have both : ∀ j, ParGen.appendConcBoth {} = .ok j →
      ∃ calls, (∀ p, .append p ∈ calls → Built p) ∧ ParCall.execAll {} calls = .ok j :=
    fun j hj => ⟨[.ccSeqConc, .rrSeqConc], by simp, hj⟩
  have nothing : ∀ j : ParallelizabilityInfo, (.ok {} : Py ParallelizabilityInfo) = .ok j →
      ∃ calls, (∀ p, .append p ∈ calls → Built p) ∧ ParCall.execAll {} calls = .ok j :=
    fun j hj => ⟨[], by simp, hj⟩
  have one : ∀ (s : Splitter) (m : MapperSpec) (a : AggregatorSpec) (info : AdditionalInfoSplitterToMapper) (n : Nat),
      s ≠ .roundRobinPlain → Built ⟨s, m, a, info, n⟩ := fun s m a info n hs =>
    .constructed (info := some info) ((C82_plan s m a (some info) n).2 fun h => hs h.1)
  have sort : ∀ j, ParGen.sort c = .ok j →
      ∃ calls, (∀ p, .append p ∈ calls → Built p) ∧ ParCall.execAll {} calls = .ok j := by
    intro j hj
    unfold ParGen.sort at hj
    dsimp only at hj
    split at hj
    · exact ⟨[.setCommutative], by simp, hj⟩
    · cases hj
      refine ⟨[.setCommutative, .append _], ?_, rfl⟩
      intro p hp
      simp only [List.mem_cons, List.not_mem_nil, or_false, reduceCtorEq, false_or, ParCall.append.injEq] at hp
      subst hp
      exact one _ _ _ _ _ (by simp)
  simp only [parGeneratorClasses, List.mem_cons, List.not_mem_nil, or_false, Prod.mk.injEq] at hg
  rcases hg with ⟨_, rfl⟩ | ⟨_, rfl⟩ | ⟨_, rfl⟩ | ⟨_, rfl⟩ | ⟨_, rfl⟩ | ⟨_, rfl⟩ | ⟨_, rfl⟩ | ⟨_, rfl⟩ | ⟨_, rfl⟩ |
    ⟨_, rfl⟩ | ⟨_, rfl⟩ | ⟨_, rfl⟩ | ⟨_, rfl⟩ | ⟨_, rfl⟩ | ⟨_, rfl⟩
  · unfold ParGen.altBigramsAux at h
    cases hm : MapperSpec.makeCustomFromString "alt_bigrams_aux" true with
    | error e => rw [hm] at h; cases h
    | ok m =>
        rw [hm] at h; cases h
        exact ⟨[.append _], by intro p hp; cases List.mem_singleton.1 hp; exact one _ _ _ _ _ (by simp), rfl⟩
  · unfold ParGen.bigramsAux at h
    cases hm : MapperSpec.makeCustomFromString "bigram_aux_map" true with
    | error e => rw [hm] at h; cases h
    | ok m =>
        rw [hm] at h; cases h
        exact ⟨[.append _], by intro p hp; cases List.mem_singleton.1 hp; exact one _ _ _ _ _ (by simp), rfl⟩
  · exact both _ h
  · exact sort _ h
  · exact both _ h
  · exact both _ h
  · simp only [ParGen.grep] at h
    split at h
    · split at h
      · obtain ⟨cc, hcc, h⟩ := bind_ok h
        obtain ⟨rr, hrr, h⟩ := bind_ok h
        cases h
        refine ⟨[.append cc, .append rr], ?_, rfl⟩
        intro p hp
        simp only [List.mem_cons, List.not_mem_nil, or_false, ParCall.append.injEq] at hp
        rcases hp with rfl | rfl
        · exact .constructed hcc
        · exact .constructed hrr
      · exact nothing _ h
    · exact nothing _ h
  · unfold ParGen.sed at h
    obtain ⟨b, _, h⟩ := bind_ok h
    split at h
    · exact both _ h
    · exact nothing _ h
  · exact ⟨[.ccSeqConc], by simp, h⟩
  · exact sort _ h
  · cases h
    exact ⟨[.append _], by intro p hp; cases List.mem_singleton.1 hp; exact one _ _ _ _ _ (by simp), rfl⟩
  · cases h
    exact ⟨[.append _], by intro p hp; cases List.mem_singleton.1 hp; exact one _ _ _ _ _ (by simp), rfl⟩
  · unfold ParGen.tr at h
    dsimp only at h
    have inner : ∀ d q : Bool, (if d = true then do
          let i ← ParGen.appendCcSeqAdjm {}
          ParGen.appendRrSeqAdjm i
        else if q = true then do
          let i ← ParGen.appendCcSeqAdjf "PLACEHOLDER: remove first line if empty" false {}
          ParGen.appendRrSeqAdjf "PLACEHOLDER: remove first line if empty" false i
        else ParGen.appendConcBoth {}) = .ok i →
        ∃ calls, (∀ p, .append p ∈ calls → Built p) ∧ ParCall.execAll {} calls = .ok i := by
      intro d q h
      split at h
      · exact ⟨[.ccSeqAdjm, .rrSeqAdjm], by simp, h⟩
      · split at h
        · exact ⟨[.ccSeqAdjf _ _, .rrSeqAdjf _ _], by simp, h⟩
        · exact both _ h
    split at h <;> obtain ⟨d, _, h⟩ := bind_ok h <;> split at h <;> obtain ⟨q, _, h⟩ := bind_ok h <;>
      exact inner d q h
  · unfold ParGen.uniq at h
    split at h
    · split at h
      · exact ⟨[.ccSeqAdjf _ _, .rrSeqAdjf _ _], by simp, h⟩
      · exact ⟨[.ccSeqAdjs, .rrSeqAdjs], by simp, h⟩
    · exact nothing _ h
  · exact both _ h

/-- A shipped generator that returns plans. -/
example : ∃ i, ParGen.tr ⟨"tr", [.flag "-d"], ["x"]⟩ = .ok i ∧ i.parallelizerList.length = 2 := ⟨_, rfl, rfl⟩

/-- A generator that says a function of adjacent lines is implemented. -/
example : ∃ p, saysPlan (.ccSeqAdjf "uniq -c" true) = some p := ⟨_, rfl⟩

example : makeArgSimple ["-o", "result.txt"] = .ok (.option "-o" "result.txt") ∧
    makeArgSimple ["a", "b", "c"] = .error (.exception "no proper kind given for Arg") := ⟨rfl, rfl⟩

end PashAnn
