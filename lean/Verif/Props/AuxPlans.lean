import Verif.Props.Aggregators
import Verif.Props.TextPlans

/-! Property C69: executing parallelizers with auxiliary pipes. Specification: `Spec/Programs.lean`. -/

namespace PashAnn
open Spec

/-- The mapper of a parallelizer with auxiliary pipes, as a run. -/
theorem auxMapper_output {prog : FilePrograms} {p : Parallelizer} {c : CommandInvocationWithIOVars} {part : Stream}
    {outs : List Stream} (hn : 0 < p.infoMapperAggregator) (h : AuxMapperRun prog p c part outs) :
    outs = prog (p.coreMapperSpec.initialMapper c).cmdName [part] ∧ outs.length = p.infoMapperAggregator + 1 := by
  obtain ⟨i, o, aux, m, env, _, hm, ⟨_, _, vs, hvs, hrun⟩, rfl, rfl⟩ := h
  have haux : aux ≠ [] := by
    rintro rfl
    have := C49_mapper_rejected p c i o [] (by simp; omega)
    rw [this] at hm; cases hm
  obtain ⟨hl, hops, _⟩ := C49_mapper p c m i o aux haux hm
  have hv : vs = i :: o :: aux := by
    rw [hops] at hvs
    exact (List.map_inj_right (fun a b h => by cases h; rfl)).1 hvs.symm
  subst hv
  have hname : m.cmdName = (p.coreMapperSpec.initialMapper c).cmdName := by
    unfold Parallelizer.getActualMapper at hm
    obtain ⟨_, _, hm⟩ := bind_ok hm
    have hlen : ¬ aux.length = 0 := fun h => haux (List.length_eq_zero_iff.1 h)
    unfold MapperSpec.getMapper at hm
    by_cases himpl : p.coreMapperSpec.isImplemented
    · simp only [himpl, Bool.not_true, Bool.false_eq_true, if_false, hlen] at hm
      obtain ⟨am, _, hm⟩ := bind_ok hm
      cases hm; rfl
    · simp [himpl] at hm
  refine ⟨?_, by simp [hl]⟩
  rw [← hname]
  simpa using hrun

/-- A node of the tree, as the aggregator's command on the contents of its inputs. -/
theorem auxNode_output {prog : FilePrograms} {p : Parallelizer} {kind : AggregatorKind} {s : String} {impl : Bool}
    (hagg : p.coreAggregatorSpec = .funcString kind s impl) {inv : CommandInvocationInitial} {ns : List String}
    (hparse : parse s = .ok inv) (hflags : inv.flagOptionList = ns.map FlagOption.flag) {n : Nat} {a b : List Stream}
    {i₁ i₂ o : IOVar} {aux₁ aux₂ auxo : List IOVar} {agg : Aggregator} {env : IOVar → Stream}
    (hag : p.getActual2AryAggregatorWithAux i₁ aux₁ i₂ aux₂ o auxo = .ok agg)
    (hlen : aux₁.length = n ∧ aux₂.length = n) (hrun : FileRun prog (2 * (n + 1)) agg.cmd env)
    (ha : (i₁ :: aux₁).map env = a) (hb : (i₂ :: aux₂).map env = b) :
    (o :: auxo).map env = prog inv.cmdName (a ++ b) := by
  have hauxo : aux₁.length = auxo.length := by
    by_cases h : aux₁.length = auxo.length
    · exact h
    · have := (C49_aggregator_rejected p i₁ i₂ o aux₁ aux₂ auxo).1 kind s impl hagg (.inr h)
      rw [this] at hag; cases hag
  obtain ⟨agg', hag', _, hname, _, hops, _⟩ :=
    C49_aggregator p kind s impl hagg inv ns hparse hflags i₁ i₂ o aux₁ aux₂ auxo (hlen.1.trans hlen.2.symm) hauxo
  rw [hag] at hag'; cases hag'
  obtain ⟨_, _, vs, hvs, hrun⟩ := hrun
  have hv : vs = (i₁ :: aux₁ ++ i₂ :: aux₂) ++ o :: auxo := by
    rw [hops] at hvs
    exact ((List.map_inj_right (fun a b h => by cases h; rfl)).1 hvs.symm)
  have hk : (i₁ :: aux₁ ++ i₂ :: aux₂).length = 2 * (n + 1) := by simp [hlen.1, hlen.2]; omega
  rw [hv, ← hk, List.drop_left, List.take_left, hname, List.map_append, ha, hb] at hrun
  exact hrun

/-- C69. Parallelizers with auxiliary pipes: if the mapper computes a summary of its part (the output and what goes to
the auxiliary pipes), and the aggregator computes, from two summaries, the summary of the concatenation, then every
execution computes the summary of the whole input. The parts are restricted to a class of parts closed under
concatenation. -/
theorem C69_summary (p : Parallelizer) (hn : 0 < p.infoMapperAggregator) (kind : AggregatorKind) (s : String)
    (impl : Bool) (hagg : p.coreAggregatorSpec = .funcString kind s impl) (inv : CommandInvocationInitial)
    (ns : List String) (hparse : parse s = .ok inv) (hflags : inv.flagOptionList = ns.map FlagOption.flag)
    (c : CommandInvocationWithIOVars) (prog : FilePrograms) (summary : Stream → List Stream) (good : Stream → Prop)
    (hgood : ∀ x y, good x → good y → good (x ++ y))
    (hmap : ∀ x, good x → prog (p.coreMapperSpec.initialMapper c).cmdName [x] = summary x)
    (hreduce : ∀ x y, good x → good y → prog inv.cmdName (summary x ++ summary y) = summary (x ++ y))
    (parts : List Stream) (hparts : ∀ x ∈ parts, good x) (ys : List Stream) (h : AuxExecutes prog p c parts ys) :
    ys = summary parts.flatten := by
  obtain ⟨runs, rfl, hruns, hj⟩ := h
  have hruns' : ∀ r ∈ runs, good r.1 ∧ r.2 = summary r.1 := by
    intro r hr
    have hg := hparts r.1 (List.mem_map_of_mem hr)
    exact ⟨hg, (auxMapper_output hn (hruns r hr)).1.trans (hmap _ hg)⟩
  generalize hq : runs.map Prod.snd = outs at hj
  have key : ∀ (runs : List (Stream × List Stream)), runs.map Prod.snd = outs →
      (∀ r ∈ runs, good r.1 ∧ r.2 = summary r.1) →
      good (runs.map Prod.fst).flatten ∧ ys = summary (runs.map Prod.fst).flatten := by
    clear hq hruns' hruns hparts
    induction hj with
    | leaf s =>
        intro runs hq hr
        obtain ⟨r, rfl⟩ : ∃ r, runs = [r] := List.length_eq_one_iff.1 (by rw [← List.length_map (f := Prod.snd), hq]; rfl)
        cases hq
        have := hr r (by simp)
        simpa using this
    | @node l r a b i₁ i₂ o aux₁ aux₂ auxo agg env hl hr hnd hag hlen hrun ha hb ihl ihr =>
        intro runs hq hr'
        obtain ⟨runs₁, runs₂, rfl, q1, q2⟩ := List.map_eq_append_iff.1 hq
        obtain ⟨g1, e1⟩ := ihl runs₁ q1 (fun r hr => hr' r (by simp [hr]))
        obtain ⟨g2, e2⟩ := ihr runs₂ q2 (fun r hr => hr' r (by simp [hr]))
        rw [List.map_append, List.flatten_append]
        refine ⟨hgood _ _ g1 g2, ?_⟩
        rw [auxNode_output hagg hparse hflags hag hlen hrun ha hb, e1, e2, hreduce _ _ g1 g2]
  exact (key runs hq hruns').2

/-! Bigrams. -/

theorem bigrams_append (x y : Stream) : bigrams (x ++ y) =
    bigrams x ++ (match x.getLast?, y.head? with
      | some a, some b => [a ++ "\t" ++ b]
      | _, _ => []) ++ bigrams y := by
  match x with
  | [] => simp [bigrams]
  | [a] => cases y <;> simp [bigrams]
  | a :: b :: x =>
      have := bigrams_append (b :: x) y
      simp only [List.cons_append] at this ⊢
      rw [bigrams, bigrams, this]
      simp [List.getLast?_cons_cons]

/-- What is offered for `bigrams_aux`. -/
def bigramPlan : Parallelizer :=
  ⟨.consecChunks, ⟨.custom, some "bigram_aux_map", .custom [], true⟩,
    .funcString .custom2Ary "bigram_aux_reduce" true, .noAddInput, 2⟩

theorem offered_bigrams {inv : CommandInvocationInitial} (hn : inv.cmdName = "bigrams_aux") (p : Parallelizer) :
    Offered inv p ↔ p = bigramPlan := by
  have hi : getParallelizabilityInfo inv = some (offers [bigramPlan]) :=
    (getPar_gen hn (show ("bigrams_aux", ParGen.bigramsAux) ∈ parTable by simp [parTable]) _).2 (par_bigramsAux inv)
  rw [offered_iff]
  constructor
  · rintro ⟨i, h, hp⟩
    rw [hi] at h; cases h
    rcases hp with hp | ⟨hp, _⟩
    · simpa using hp
    · cases hp
  · rintro rfl
    exact ⟨_, hi, .inl (by simp)⟩

/-- C69. `bigrams_aux` on non-empty parts: every execution of what is offered gives the bigrams of the whole input, its
first line and its last line. Missing: empty parts, for which it is false (below). -/
theorem C69_bigrams_partial (inv : CommandInvocationInitial) (hn : inv.cmdName = "bigrams_aux") (p : Parallelizer)
    (hp : Offered inv p) (c : CommandInvocationWithIOVars) (prog : FilePrograms) (hb : BigramPrograms prog)
    (x : Stream) (parts : List Stream) (hsp : Split p.splitter x parts) (hne : ∀ part ∈ parts, part ≠ [])
    (ys : List Stream) (h : AuxExecutes prog p c parts ys) : ys = [bigrams x, x.take 1, x.getLast?.toList] := by
  rw [(offered_bigrams hn p).1 hp] at hsp h
  have hsp : parts.flatten = x := hsp
  rw [← hsp]
  refine C69_summary bigramPlan (by decide) .custom2Ary "bigram_aux_reduce" true rfl ⟨"bigram_aux_reduce", [], []⟩ []
    (by decide +kernel) rfl c prog (fun x => [bigrams x, x.take 1, x.getLast?.toList]) (· ≠ []) ?_ ?_ ?_ parts hne ys h
  · intro x y hx _ h; exact hx (List.append_eq_nil_iff.1 h).1
  · intro x _; exact hb.map x
  · intro x y hx hy
    have := hb.reduce (bigrams x) (x.take 1) x.getLast?.toList (bigrams y) (y.take 1) y.getLast?.toList
    refine this.trans ?_
    obtain ⟨x', a, rfl⟩ := (List.eq_nil_or_concat x).resolve_left hx
    obtain ⟨b, y', rfl⟩ := List.exists_cons_of_ne_nil hy
    rw [bigrams_append]
    have h1 : (x' ++ [a] ++ b :: y').take 1 = (x' ++ [a]).take 1 := by cases x' <;> simp
    have h2 : (x' ++ [a] ++ b :: y').getLast? = (b :: y').getLast? := by rw [List.getLast?_append]; simp [List.getLast?_cons]
    show _ = [_, List.take 1 _, Option.toList (List.getLast? _)]
    rw [List.concat_eq_append, h1, h2]
    simp [pasteLines]

/-- C69. An execution exists for every non-empty list of parts and every original without operands. -/
theorem C69_executable (c : CommandInvocationWithIOVars) (hops : c.operandList = []) (prog : FilePrograms)
    (hb : BigramPrograms prog) (parts : List Stream) (hne : parts ≠ []) : ∃ ys, AuxExecutes prog bigramPlan c parts ys := by
  have hmap : ∀ x, AuxMapperRun prog bigramPlan c x [bigrams x, x.take 1, x.getLast?.toList] := by
    intro x
    obtain ⟨m, hm, hname, _, _⟩ := C49_mapper_exists bigramPlan c [] 1 2 [3, 4] rfl rfl (by simp) (by simp [hops])
      (by simp) (by simp)
    obtain ⟨_, hops', hi, ho, _⟩ := C49_mapper bigramPlan c m 1 2 [3, 4] (by simp) hm
    refine ⟨1, 2, [3, 4], m, fun v => if v = 1 then x else if v = 2 then bigrams x else if v = 3 then x.take 1 else
      x.getLast?.toList, by decide, hm, ⟨hi, ho, [1, 2, 3, 4], hops', ?_⟩, rfl, by simp⟩
    rw [hname]
    show _ = prog "bigram_aux_map" [x]
    rw [hb.map]; simp
  have hnode : ∀ a₁ a₂ a₃ b₁ b₂ b₃ l r, AuxJoined prog bigramPlan 2 l [a₁, a₂, a₃] →
      AuxJoined prog bigramPlan 2 r [b₁, b₂, b₃] → ∃ y₁ y₂ y₃, AuxJoined prog bigramPlan 2 (l ++ r) [y₁, y₂, y₃] := by
    intro a₁ a₂ a₃ b₁ b₂ b₃ l r hl hr
    obtain ⟨agg, hag, _, hname, _, hops, hi, ho, _⟩ := C49_aggregator bigramPlan .custom2Ary "bigram_aux_reduce" true rfl
      ⟨"bigram_aux_reduce", [], []⟩ [] (by decide +kernel) rfl 1 4 7 [2, 3] [5, 6] [8, 9] rfl rfl
    have := AuxJoined.node (prog := prog) (env := fun v => if v = 1 then a₁ else if v = 2 then a₂ else if v = 3 then a₃ else
      if v = 4 then b₁ else if v = 5 then b₂ else if v = 6 then b₃ else if v = 7 then a₁ ++ pasteLines a₃ b₂ ++ b₁ else
      if v = 8 then a₂ else b₃) hl hr (by decide) hag ⟨rfl, rfl⟩ ⟨hi, ho, _, hops, by
        rw [hname]
        show _ = prog "bigram_aux_reduce" [a₁, a₂, a₃, b₁, b₂, b₃]
        rw [hb.reduce]; simp⟩ (by simp) (by simp)
    exact ⟨_, _, _, this⟩
  have hjoin : ∀ (l : List Stream), l ≠ [] → ∃ y₁ y₂ y₃, AuxJoined prog bigramPlan 2
      (l.map fun x => [bigrams x, x.take 1, x.getLast?.toList]) [y₁, y₂, y₃] := by
    intro l hl
    induction l with
    | nil => exact absurd rfl hl
    | cons x l ih =>
        cases l with
        | nil => exact ⟨_, _, _, .leaf _⟩
        | cons y l =>
            obtain ⟨y₁, y₂, y₃, h⟩ := ih (by simp)
            exact hnode _ _ _ _ _ _ [_] _ (.leaf _) h
  obtain ⟨y₁, y₂, y₃, hj⟩ := hjoin parts hne
  refine ⟨[y₁, y₂, y₃], parts.map fun x => (x, [bigrams x, x.take 1, x.getLast?.toList]), by simp [Function.comp_def], ?_, ?_⟩
  · intro r hr
    obtain ⟨x, _, rfl⟩ := List.mem_map.1 hr
    exact hmap x
  · rw [List.map_map]; exact hj

theorem auxJoined_ne {prog : FilePrograms} {p : Parallelizer} {n : Nat} {outs : List (List Stream)} {ys : List Stream}
    (h : AuxJoined prog p n outs ys) : outs ≠ [] := by
  induction h with
  | leaf s => simp
  | node _ _ _ _ _ _ _ _ ihl _ => intro h; exact ihl (List.append_eq_nil_iff.1 h).1

theorem auxJoined_one {prog : FilePrograms} {p : Parallelizer} {n : Nat} {s ys : List Stream}
    (h : AuxJoined prog p n [s] ys) : ys = s := by
  generalize ho : [s] = outs at h
  cases h with
  | leaf s => cases ho; rfl
  | node hl hr _ _ _ _ _ _ =>
      have h1 := List.length_pos_iff.2 (auxJoined_ne hl)
      have h2 := List.length_pos_iff.2 (auxJoined_ne hr)
      have := congrArg List.length ho
      simp at this
      omega

/-- C69 is false of the code for empty parts, which arise when the input has fewer lines than there are parts: for
programs as described, an input of one line split into itself and an empty part gives a wrong output. -/
theorem C69_empty_part_false (inv : CommandInvocationInitial) (hn : inv.cmdName = "bigrams_aux") (p : Parallelizer)
    (hp : Offered inv p) (c : CommandInvocationWithIOVars) (hops : c.operandList = []) (prog : FilePrograms)
    (hb : BigramPrograms prog) (l : String) : Split p.splitter [l] [[l], []] ∧
      (∃ ys, AuxExecutes prog p c [[l], []] ys) ∧
      ∀ ys, AuxExecutes prog p c [[l], []] ys → ys.head? = some [l ++ "\t"] ∧ ys.head? ≠ some (bigrams [l]) := by
  rw [(offered_bigrams hn p).1 hp]
  refine ⟨by simp [bigramPlan, Split], C69_executable c hops prog hb _ (by simp), ?_⟩
  intro ys h
  suffices hy : ys = [[l ++ "\t"], [l], []] by rw [hy]; simp [bigrams]
  obtain ⟨runs, hq, hruns, hj⟩ := h
  match runs, hq with
  | [(x₁, s₁), (x₂, s₂)], hq =>
    simp only [List.map_cons, List.map_nil, List.cons.injEq, and_true] at hq
    obtain ⟨rfl, rfl⟩ := hq
    have m1 : s₁ = _ := ((auxMapper_output (by decide) (hruns _ (List.mem_cons_self ..))).1).trans (hb.map _)
    have m2 : s₂ = _ := ((auxMapper_output (by decide) (hruns _ (List.mem_cons_of_mem _ (List.mem_cons_self ..)))).1).trans
      (hb.map _)
    simp only [List.map_cons, List.map_nil] at hj
    generalize ho : [s₁, s₂] = outs at hj
    cases hj with
    | leaf s => simp at ho
    | @node ll rr a b _ _ _ _ _ _ _ _ hl hr _ hag hlen hrun ha' hb' =>
        have hlne := auxJoined_ne hl
        have hrne := auxJoined_ne hr
        have e : ll = [s₁] ∧ rr = [s₂] := by
          match ll, rr, ho with
          | [_], [_], ho => simpa [eq_comm] using ho
          | [], _, _ => exact absurd rfl hlne
          | _, [], _ => exact absurd rfl hrne
          | _ :: _ :: _, _ :: _, ho => simp at ho
          | [_], _ :: _ :: _, ho => simp at ho
        obtain ⟨rfl, rfl⟩ := e
        rw [auxNode_output (p := bigramPlan) rfl (ns := []) (inv := ⟨"bigram_aux_reduce", [], []⟩) (by decide +kernel) rfl
          hag hlen hrun ha' hb', auxJoined_one hl, auxJoined_one hr, m1, m2]
        refine (hb.reduce _ _ _ _ _ _).trans ?_
        simp [bigrams, pasteLines]

/-- C69. The access kinds recorded for the mapper's operands are those of old_annotations/bigram_aux_map.json: the first
is read and the other three are written. (For the aggregator this is `C49_aggregator`.) -/
theorem C69_access (c m : CommandInvocationWithIOVars) (i o h t : IOVar) (hn : [i, o, h, t].Nodup)
    (hm : bigramPlan.getActualMapper c i o [h, t] = .ok (some m)) :
    m.operandList = [.var i, .var o, .var h, .var t] ∧ accessOf m i = some .streamInput ∧
      ∀ v ∈ [o, h, t], accessOf m v = some .streamOutput := by
  obtain ⟨_, h1, _, _, h2, h3⟩ := C49_mapper bigramPlan c m i o [h, t] (by simp) hm
  exact ⟨h1, h3 (List.nodup_cons.1 hn).1, h2⟩

/-- Programs with the two functions, for the examples. -/
def bigramProgs : FilePrograms := fun n ins =>
  match n, ins with
  | "bigram_aux_map", [x] => [bigrams x, x.take 1, x.getLast?.toList]
  | "bigram_aux_reduce", [o₁, h₁, t₁, o₂, h₂, t₂] => [o₁ ++ pasteLines t₁ h₂ ++ o₂, h₁, t₂]
  | _, _ => []

theorem bigramProgs_ok : BigramPrograms bigramProgs := ⟨fun _ => rfl, fun _ _ _ _ _ _ => rfl⟩

example : ∃ inv, parse "bigrams_aux" = .ok inv ∧ inv.cmdName = "bigrams_aux" ∧ Offered inv bigramPlan ∧
    Split bigramPlan.splitter ["a", "b", "c", "d"] [["a", "b"], ["c"], ["d"]] ∧
    (∃ ys, AuxExecutes bigramProgs bigramPlan ⟨"bigrams_aux", [], [], some 0, some 10, []⟩ [["a", "b"], ["c"], ["d"]] ys) ∧
    bigrams ["a", "b", "c", "d"] = ["a\tb", "b\tc", "c\td"] :=
  ⟨⟨"bigrams_aux", [], []⟩, by decide +kernel, rfl, (offered_bigrams rfl _).2 rfl, by simp [bigramPlan, Split],
    C69_executable _ rfl _ bigramProgs_ok _ (by simp), by decide +kernel⟩

end PashAnn
