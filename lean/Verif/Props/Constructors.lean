import Verif.Spec.Constructors
import Verif.Props.ParTable

/-! Property C82: what the constructors of plans and mapper specifications accept, and which plans can come about.
Vocabulary: `Spec/Constructors.lean`. -/

namespace PashAnn
open Spec

/-- The constructor of plans refuses exactly the plans that deal out lines one by one to an aggregator that needs
more than adjacent lines; otherwise the plan has the parts that were given. -/
theorem C82_plan (s : Splitter) (m : MapperSpec) (a : AggregatorSpec) (info : Option AdditionalInfoSplitterToMapper)
    (n : Nat) :
    (s = .roundRobinPlain ∧ a.kind ∉ dealableKinds → Parallelizer.make s m a info n = .error .assertionError) ∧
    (¬ (s = .roundRobinPlain ∧ a.kind ∉ dealableKinds) →
      Parallelizer.make s m a info n = .ok ⟨s, m, a, info.getD .noAddInput, n⟩) := by
  unfold Parallelizer.make
  constructor
  · rintro ⟨rfl, h⟩
    cases hk : a.kind <;> rw [hk] at h <;>
      simp_all [dealableKinds, adjacentKinds, Splitter.isRoundRobin, AggregatorSpec.isConcatenate,
        AggregatorSpec.isAdjLinesMerge, AggregatorSpec.isAdjLinesSeq, AggregatorSpec.isAdjLinesFunc, pyAssert, bind,
        Except.bind]
  · intro h
    cases s
    case roundRobinPlain =>
      cases hk : a.kind <;> rw [hk] at h <;>
        simp_all [dealableKinds, adjacentKinds, Splitter.isRoundRobin, AggregatorSpec.isConcatenate,
          AggregatorSpec.isAdjLinesMerge, AggregatorSpec.isAdjLinesSeq, AggregatorSpec.isAdjLinesFunc, pyAssert, bind,
          Except.bind]
    all_goals rfl

/-- Both cases occur. -/
example : Parallelizer.make .roundRobinPlain sameCommand (.nonFunc .custom2Ary true) none 0 = .error .assertionError ∧
    Parallelizer.make .roundRobinPlain sameCommand concatenation none 0 = .ok (plan .roundRobinPlain concatenation) ∧
    Parallelizer.make .roundRobinUnwrapFlag sameCommand (.nonFunc .custom2Ary true) none 3 =
      .ok ⟨.roundRobinUnwrapFlag, sameCommand, .nonFunc .custom2Ary true, .noAddInput, 3⟩ := ⟨rfl, rfl, rfl⟩

/-- The functions that make plans with a given splitter fill in the unchanged command and concatenation for what is
not given. -/
theorem C82_makers (m : Option MapperSpec) (a : Option AggregatorSpec) (info : Option AdditionalInfoSplitterToMapper)
    (n : Nat) :
    Parallelizer.makeIndivFiles m a info n =
      .ok ⟨.indivFiles, m.getD sameCommand, a.getD concatenation, info.getD .noAddInput, n⟩ ∧
    Parallelizer.makeConsecChunks m a info n =
      .ok ⟨.consecChunks, m.getD sameCommand, a.getD concatenation, info.getD .noAddInput, n⟩ ∧
    ((a.getD concatenation).kind ∈ dealableKinds → Parallelizer.makeRoundRobin m a info n =
      .ok ⟨.roundRobinPlain, m.getD sameCommand, a.getD concatenation, info.getD .noAddInput, n⟩) ∧
    ((a.getD concatenation).kind ∉ dealableKinds → Parallelizer.makeRoundRobin m a info n = .error .assertionError) := by
  have hm : MapperSpec.seqIfNone m = m.getD sameCommand := by cases m <;> rfl
  have ha : AggregatorSpec.concIfNone a = a.getD concatenation := by cases a <;> rfl
  unfold Parallelizer.makeIndivFiles Parallelizer.makeConsecChunks Parallelizer.makeRoundRobin
  rw [hm, ha]
  exact ⟨rfl, rfl, fun h => (C82_plan _ _ _ _ _).2 (fun h' => h'.2 h), fun h => (C82_plan _ _ _ _ _).1 ⟨rfl, h⟩⟩

/-- Both kinds of aggregators exist. -/
example : (Option.getD none concatenation).kind ∈ dealableKinds ∧
    (Option.getD (some mergeSorted) concatenation).kind ∉ dealableKinds := by
  simp [dealableKinds, adjacentKinds, concatenation, mergeSorted, AggregatorSpec.kind]

/-- The constructor of mapper specifications refuses exactly an unchanged command with a name or a transformer of its
own; otherwise the specification has the parts that were given. -/
theorem C82_mapper_spec (kind : MapperSpecKind) (name : Option String) (t : Option Transformer) (impl : Bool) :
    (kind = .sameAsSeq ∧ (name ≠ none ∨ t.isSome) → MapperSpec.make kind name t impl = .error .assertionError) ∧
    (¬ (kind = .sameAsSeq ∧ (name ≠ none ∨ t.isSome)) →
      MapperSpec.make kind name t impl = .ok ⟨kind, name, t.getD .seq, impl⟩) := by
  cases kind <;> cases name <;> cases t <;>
    simp [MapperSpec.make, pyAssert, bind, Except.bind, transformerSameAsSeqIfNone]

/-- The two ready-made specifications are what the constructor makes of their parts. -/
theorem C82_mapper_makers (name : String) (t : Option Transformer) (impl : Bool) :
    MapperSpec.make .sameAsSeq none none true = .ok MapperSpec.makeSeq ∧ MapperSpec.makeSeq = sameCommand ∧
    MapperSpec.make .custom (some name) (some (t.getD .seq)) impl = .ok (MapperSpec.makeCustom name t impl) ∧
    MapperSpec.makeCustom name t impl = ⟨.custom, some name, t.getD .seq, impl⟩ := by
  cases t <;> exact ⟨rfl, rfl, rfl, rfl⟩

/-- Both cases occur. -/
example : MapperSpec.make .sameAsSeq (some "cat") none true = .error .assertionError ∧
    MapperSpec.make .sameAsSeq none (some .seq) true = .error .assertionError ∧
    MapperSpec.make .sameAsSeq none none false = .ok ⟨.sameAsSeq, none, .seq, false⟩ ∧
    MapperSpec.make .custom none none true = .ok ⟨.custom, none, .seq, true⟩ := ⟨rfl, rfl, rfl, rfl⟩

/-- A plan that a user can have deals out lines one by one only to aggregators that look at adjacent lines at most. -/
theorem C82_built {p : Parallelizer} (h : Built p) (hs : p.splitter = .roundRobinPlain) :
    p.coreAggregatorSpec.kind ∈ dealableKinds := by
  cases h with
  | @constructed s m a info n _ h =>
      by_cases hc : s = .roundRobinPlain ∧ a.kind ∉ dealableKinds
      · rw [(C82_plan s m a info n).1 hc] at h; cases h
      · rw [(C82_plan s m a info n).2 hc] at h
        cases h
        exact Decidable.byContradiction fun hk => hc ⟨hs, hk⟩
  | unwrapped h => cases hs

/-- So for every plan in every information object that a user can have, and in every list that is inferred from it. -/
theorem C82_information {i : ParallelizabilityInfo} (h : BuiltInfo i) (p : Parallelizer)
    (hp : p ∈ i.parallelizerList ∨ p ∈ i.getInferredParallelizerList.1) : Built p := by
  have key : ∀ j : ParallelizabilityInfo, (∀ q ∈ j.parallelizerList, Built q) →
      ∀ q ∈ j.getInferredParallelizerList.1, Built q := by
    intro j hj q hq
    rw [inferred_eq] at hq
    rcases List.mem_append.1 hq with hq | hq
    · exact hj q hq
    · split at hq
      · obtain ⟨r, hr, rfl⟩ := List.mem_map.1 hq
        exact .unwrapped (hj r (List.mem_filter.1 hr).1)
      · cases hq
  have all : ∀ q ∈ i.parallelizerList, Built q := by
    clear hp
    induction h with
    | empty => intro q hq; cases hq
    | appended _ hb ih =>
        intro q hq
        rcases List.mem_append.1 hq with hq | hq
        · exact ih q hq
        · rw [List.mem_singleton.1 hq]; exact hb
    | declared _ ih => exact ih
    | inferred _ ih => exact key _ ih
    | unpacked _ ih => exact key _ ih
  exact hp.elim (all p) (key i all p)

/-- A user's object that was declared commutative and asked twice. -/
example : BuiltInfo ((((({} : ParallelizabilityInfo).append (plan .consecChunks mergeSorted)).setCommutative).getInferredParallelizerList.2).unpackInfo.2) :=
  .unpacked (.inferred (.declared (.appended .empty (.constructed (info := none) ((C82_plan .consecChunks sameCommand mergeSorted none 0).2
    (fun h => by cases h.1))))))

/-- Round robin with unwrapping escapes the check: for sort the inferred plans deal out lines one by one to a pairwise
merge. The constructor refuses this for plain round robin. -/
theorem C82_unwrapped : ∃ p, Built p ∧ p.splitter = .roundRobinUnwrapFlag ∧ p.coreAggregatorSpec.kind ∉ dealableKinds ∧
    Parallelizer.make .roundRobinPlain p.coreMapperSpec p.coreAggregatorSpec none 0 = .error .assertionError ∧
    Offered ⟨"sort", [], []⟩ p := by
  have hk : mergeSorted.kind ∉ dealableKinds := by
    simp [dealableKinds, adjacentKinds, mergeSorted, AggregatorSpec.kind]
  refine ⟨plan .roundRobinUnwrapFlag mergeSorted, .unwrapped (p := plan .consecChunks mergeSorted)
    (.constructed (info := none) ((C82_plan .consecChunks sameCommand mergeSorted none 0).2 (fun h => by cases h.1))),
    rfl, hk, (C82_plan _ _ _ _ _).1 ⟨rfl, hk⟩, ?_⟩
  refine offered_iff.2 ⟨_, (getPar_gen rfl (show ("sort", ParGen.sort) ∈ parTable by simp [parTable]) _).2
    (par_sort ⟨"sort", [], []⟩ (by rintro ⟨n, -, h⟩; rcases h with h | ⟨a, h⟩ <;> cases h)), .inr ⟨rfl, plan .consecChunks mergeSorted, ?_, rfl, rfl⟩⟩
  exact List.mem_singleton.2 rfl

end PashAnn
