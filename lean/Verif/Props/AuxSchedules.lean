import Verif.Props.AuxPlans
import Verif.Props.Runs
import Verif.Lemmas.AuxSchedules

/-! Property C118: the commands that carry out a parallelizer with auxiliary pipes can run at the same time. Specification:
`Spec/AuxSchedules.lean`. -/

namespace PashAnn
open Spec

theorem operandsWith_split {c : CommandInvocationWithIOVars} {xs ys : List IOVar} (ho : c.operandList = (xs ++ ys).map VArg.var)
    (hx : ∀ v ∈ xs, accessOf c v = some .streamInput) (hy : ∀ v ∈ ys, accessOf c v = some .streamOutput) :
    operandsWith c .streamInput = xs ∧ operandsWith c .streamOutput = ys := by
  have h1 : ∀ a (l : List IOVar), (∀ v ∈ l, accessOf c v = some a) → ∀ b, (l.map VArg.var).filterMap (fun
      | .var v => if accessOf c v = some b then some v else none
      | _ => none) = if a = b then l else [] := by
    intro a l hl b
    induction l with
    | nil => simp
    | cons v l ih =>
        have := ih fun w hw => hl w (List.mem_cons_of_mem _ hw)
        have hv := hl v List.mem_cons_self
        rw [List.map_cons, List.filterMap_cons, this]
        simp only [hv, Option.some.injEq]
        by_cases hab : a = b <;> simp [hab]
  constructor <;> unfold operandsWith <;> rw [ho, List.map_append, List.filterMap_append]
  · erw [h1 _ _ hx, h1 _ _ hy]; simp
  · erw [h1 _ _ hx, h1 _ _ hy]; simp

theorem writersOf_vars (prog : FilePrograms) (c : CommandInvocationWithIOVars) :
    (writersOf prog c).map (·.var) = operandsWith c .streamOutput := by
  unfold writersOf
  apply List.ext_getElem <;> simp

theorem writersOf_reads {prog : FilePrograms} {c : CommandInvocationWithIOVars} {u : Writer} (h : u ∈ writersOf prog c) :
    u.reads = operandsWith c .streamInput := by
  unfold writersOf at h
  obtain ⟨k, hk, rfl⟩ := List.mem_mapIdx.1 h
  rfl

theorem flatMap_vars (prog : FilePrograms) (cmds : List CommandInvocationWithIOVars) :
    (cmds.flatMap (writersOf prog)).map (·.var) = cmds.flatMap (operandsWith · .streamOutput) := by
  rw [List.map_flatMap]
  exact congrArg (cmds.flatMap ·) (funext fun c => writersOf_vars prog c)

theorem writersOf_env {prog : FilePrograms} {c : CommandInvocationWithIOVars} {env : IOVar → Stream}
    (h : ∀ u ∈ writersOf prog c, env u.var = u.content (u.reads.map env))
    (hl : (prog c.cmdName ((operandsWith c .streamInput).map env)).length = (operandsWith c .streamOutput).length) :
    (operandsWith c .streamOutput).map env = prog c.cmdName ((operandsWith c .streamInput).map env) := by
  apply List.ext_getElem
  · simp [hl]
  · intro k h1 h2
    have hk : k < (writersOf prog c).length := by simpa [writersOf] using h1
    have := h _ (List.getElem_mem hk)
    simp only [writersOf, List.getElem_mapIdx] at this
    rw [List.getElem_map, this, List.getElem?_eq_getElem h2]
    rfl

/-- What a mapper with auxiliary pipes reads and writes. -/
theorem auxMapper_wired {p : Parallelizer} (hn : 0 < p.infoMapperAggregator) {c m : CommandInvocationWithIOVars} {i o : IOVar}
    {aux : List IOVar} (h : p.getActualMapper c i o aux = .ok (some m)) (hd : (i :: o :: aux).Nodup) :
    operandsWith m .streamInput = [i] ∧ operandsWith m .streamOutput = o :: aux ∧ (o :: aux).length = p.infoMapperAggregator + 1 ∧
    m.operandList = (i :: o :: aux).map VArg.var ∧ m.implicitInput = none ∧ m.implicitOutput = none ∧
    m.cmdName = (p.coreMapperSpec.initialMapper c).cmdName := by
  have haux : aux ≠ [] := by
    rintro rfl
    have := C49_mapper_rejected p c i o [] (by simp; omega)
    rw [this] at h; cases h
  obtain ⟨h1, h2, h3, h4, h5, h6⟩ := C49_mapper p c m i o aux haux h
  obtain ⟨h7, h8⟩ := operandsWith_split (c := m) (xs := [i]) (ys := o :: aux) h2 (by simpa using h6 (List.nodup_cons.1 hd).1) h5
  refine ⟨h7, h8, by simp [h1], h2, h3, h4, ?_⟩
  unfold Parallelizer.getActualMapper at h
  obtain ⟨_, _, h⟩ := bind_ok h
  have hlen : ¬ aux.length = 0 := fun h => haux (List.length_eq_zero_iff.1 h)
  unfold MapperSpec.getMapper at h
  by_cases himpl : p.coreMapperSpec.isImplemented
  · simp only [himpl, Bool.not_true, Bool.false_eq_true, if_false, hlen] at h
    obtain ⟨am, _, h⟩ := bind_ok h
    cases h; rfl
  · simp [himpl] at h

/-- What a two-way aggregator with auxiliary pipes reads and writes. -/
theorem auxAggregator_wired {p : Parallelizer} {kind : AggregatorKind} {s : String} {impl : Bool}
    (hagg : p.coreAggregatorSpec = .funcString kind s impl) {inv : CommandInvocationInitial} {ns : List String}
    (hparse : parse s = .ok inv) (hflags : inv.flagOptionList = ns.map FlagOption.flag) {i₁ i₂ o : IOVar}
    {aux₁ aux₂ auxo : List IOVar} {agg : Aggregator} (h : p.getActual2AryAggregatorWithAux i₁ aux₁ i₂ aux₂ o auxo = .ok agg)
    (hd : (i₁ :: aux₁ ++ i₂ :: aux₂ ++ o :: auxo).Nodup) :
    operandsWith agg.cmd .streamInput = i₁ :: aux₁ ++ i₂ :: aux₂ ∧ operandsWith agg.cmd .streamOutput = o :: auxo ∧
    aux₁.length = aux₂.length ∧ aux₁.length = auxo.length ∧
    agg.cmd.operandList = (i₁ :: aux₁ ++ i₂ :: aux₂ ++ o :: auxo).map VArg.var ∧ agg.cmd.implicitInput = none ∧
    agg.cmd.implicitOutput = none ∧ agg.cmd.cmdName = inv.cmdName := by
  have hl : aux₁.length = aux₂.length ∧ aux₁.length = auxo.length := by
    by_cases hh : aux₁.length = aux₂.length ∧ aux₁.length = auxo.length
    · exact hh
    · have := (C49_aggregator_rejected p i₁ i₂ o aux₁ aux₂ auxo).1 kind s impl hagg (by
        by_cases h1 : aux₁.length = aux₂.length
        · exact .inr fun h2 => hh ⟨h1, h2⟩
        · exact .inl h1)
      rw [this] at h; cases h
  obtain ⟨agg', hag', _, hname, _, hops, hi, ho, hacc⟩ :=
    C49_aggregator p kind s impl hagg inv ns hparse hflags i₁ i₂ o aux₁ aux₂ auxo hl.1 hl.2
  rw [h] at hag'; cases hag'
  obtain ⟨_, _, hdis⟩ := List.nodup_append.1 hd
  obtain ⟨h7, h8⟩ := operandsWith_split (c := agg.cmd) (xs := i₁ :: aux₁ ++ i₂ :: aux₂) (ys := o :: auxo) hops
    (fun v hv => by rw [hacc, if_neg (fun hw => hdis v hv v hw rfl), if_pos hv]) (fun v hv => by rw [hacc, if_pos hv])
  exact ⟨h7, h8, hl.1, hl.2, hops, hi, ho, hname⟩

/-- What is true of commands: what they write and read, and that they are ordered. -/
structure Wires (prog : FilePrograms) (known : List IOVar) (cmds : List CommandInvocationWithIOVars) (made left : List IOVar) :
    Prop where
  writes : cmds.flatMap (operandsWith · .streamOutput) = made
  reads : (cmds.flatMap (operandsWith · .streamInput) ++ left).Perm (known ++ made)
  none : ∀ c ∈ cmds, c.implicitInput = none ∧ c.implicitOutput = none
  order : InOrder known (cmds.flatMap (writersOf prog))

theorem workers_wires (prog : FilePrograms) {p : Parallelizer} (hn : 0 < p.infoMapperAggregator)
    {c : CommandInvocationWithIOVars} {ins : List IOVar} {cmds : List CommandInvocationWithIOVars} {groups : List (List IOVar)}
    (h : AuxWorkers p c ins cmds groups) (hd : (ins ++ groups.flatten).Nodup) :
    Wires prog ins cmds groups.flatten groups.flatten ∧ cmds.flatMap (operandsWith · .streamInput) = ins ∧
    (∀ g ∈ groups, g.length = p.infoMapperAggregator + 1) ∧
    (∀ env : IOVar → Stream, WritesMany prog (p.coreMapperSpec.initialMapper c).cmdName 1 (p.infoMapperAggregator + 1) →
      (∀ u ∈ cmds.flatMap (writersOf prog), env u.var = u.content (u.reads.map env)) →
      ∃ runs : List (Stream × List Stream), runs.map Prod.fst = ins.map env ∧ runs.map Prod.snd = groups.map (·.map env) ∧
        ∀ r ∈ runs, AuxMapperRun prog p c r.1 r.2) := by
  have key : cmds.flatMap (operandsWith · .streamOutput) = groups.flatten ∧ cmds.flatMap (operandsWith · .streamInput) = ins ∧
      (∀ c ∈ cmds, c.implicitInput = none ∧ c.implicitOutput = none) ∧
      (∀ g ∈ groups, g.length = p.infoMapperAggregator + 1) ∧
      (∀ env : IOVar → Stream, WritesMany prog (p.coreMapperSpec.initialMapper c).cmdName 1 (p.infoMapperAggregator + 1) →
      (∀ u ∈ cmds.flatMap (writersOf prog), env u.var = u.content (u.reads.map env)) →
      ∃ runs : List (Stream × List Stream), runs.map Prod.fst = ins.map env ∧ runs.map Prod.snd = groups.map (·.map env) ∧
        ∀ r ∈ runs, AuxMapperRun prog p c r.1 r.2) := by
    induction h with
    | none => exact ⟨rfl, rfl, by simp, by simp, fun _ _ _ => ⟨[], rfl, rfl, by simp⟩⟩
    | @part i o aux ins m cmds groups h hl ih =>
        have hp : (i :: ins ++ ((o :: aux) :: groups).flatten).Perm ((i :: o :: aux) ++ (ins ++ groups.flatten)) := by
          rw [List.perm_iff_count]; intro a; simp only [List.flatten_cons, List.count_append, List.count_cons]; omega
        obtain ⟨hd1, hd2, -⟩ := List.nodup_append.1 (hp.nodup_iff.1 hd)
        obtain ⟨i1, i2, i3, i4, i5⟩ := ih hd2
        obtain ⟨m1, m2, m3, m4, m5, m6, m7⟩ := auxMapper_wired hn h hd1
        refine ⟨?_, ?_, ?_, ?_, ?_⟩
        · rw [List.flatMap_cons, m2, i1]; rfl
        · rw [List.flatMap_cons, m1, i2]; rfl
        · intro d hdm
          rcases List.mem_cons.1 hdm with rfl | hdm
          · exact ⟨m5, m6⟩
          · exact i3 d hdm
        · intro g hg
          rcases List.mem_cons.1 hg with rfl | hg
          · exact m3
          · exact i4 g hg
        · intro env hw hu
          rw [List.flatMap_cons] at hu
          obtain ⟨runs, r1, r2, r3⟩ := i5 env hw fun u hh => hu u (List.mem_append_right _ hh)
          have he := writersOf_env (prog := prog) (c := m) (env := env) (fun u hh => hu u (List.mem_append_left _ hh)) (by
            rw [m1, m2, m3, m7]; exact hw _ rfl)
          rw [m1, m2] at he
          refine ⟨(env i, (o :: aux).map env) :: runs, by simp [r1], by simp [r2], ?_⟩
          intro r hr
          rcases List.mem_cons.1 hr with rfl | hr
          · exact ⟨i, o, aux, m, env, hd1, h, ⟨m5, m6, i :: o :: aux, m4, he⟩, rfl, rfl⟩
          · exact r3 r hr
  obtain ⟨k1, k2, k3, k4, k5⟩ := key
  refine ⟨⟨k1, by rw [k2], k3, inOrder_all ?_ ?_⟩, k2, k4, k5⟩
  · intro u hu v hv
    obtain ⟨d, hdm, hu⟩ := List.mem_flatMap.1 hu
    rw [writersOf_reads hu] at hv
    rw [← k2]
    exact List.mem_flatMap.2 ⟨d, hdm, hv⟩
  · rw [flatMap_vars, k1]
    exact (List.perm_append_comm.nodup_iff).1 hd

theorem tree_wires (prog : FilePrograms) {p : Parallelizer} {kind : AggregatorKind} {s : String} {impl : Bool}
    (hagg : p.coreAggregatorSpec = .funcString kind s impl) {inv : CommandInvocationInitial} {ns : List String}
    (hparse : parse s = .ok inv) (hflags : inv.flagOptionList = ns.map FlagOption.flag) {groups : List (List IOVar)}
    {cmds : List CommandInvocationWithIOVars} {made outs : List IOVar} (h : AuxTree p groups cmds made outs)
    (hd : (groups.flatten ++ made).Nodup) {n : Nat} (hg : ∀ g ∈ groups, g.length = n + 1) :
    Wires prog groups.flatten cmds made outs ∧ outs.length = n + 1 ∧
    (∀ env : IOVar → Stream, WritesMany prog inv.cmdName (2 * (n + 1)) (n + 1) →
      (∀ u ∈ cmds.flatMap (writersOf prog), env u.var = u.content (u.reads.map env)) →
      AuxJoined prog p n (groups.map (·.map env)) (outs.map env)) := by
  induction h with
  | leaf g =>
      exact ⟨⟨rfl, by simp, by simp, .nil _⟩, hg g (by simp), fun env _ _ => by simpa using AuxJoined.leaf _⟩
  | @node l r cmds cmds' made made' aux₁ aux₂ auxo i₁ i₂ o agg hl hr h ihl ihr =>
      have hp : ((l ++ r).flatten ++ (made ++ made' ++ o :: auxo)).Perm
          ((l.flatten ++ made) ++ ((r.flatten ++ made') ++ o :: auxo)) := by
        rw [List.perm_iff_count]; intro a; simp only [List.flatten_append, List.count_append]; omega
      obtain ⟨hd1, hd', hdis1⟩ := List.nodup_append.1 (hp.nodup_iff.1 hd)
      obtain ⟨hd2, hdo, hdis2⟩ := List.nodup_append.1 hd'
      obtain ⟨l1, l2, l3⟩ := ihl hd1 fun g hh => hg g (List.mem_append_left _ hh)
      obtain ⟨r1, r2, r3⟩ := ihr hd2 fun g hh => hg g (List.mem_append_right _ hh)
      have hsub1 : ∀ v ∈ i₁ :: aux₁, v ∈ l.flatten ++ made := fun v hv => l1.reads.mem_iff.1 (List.mem_append_right _ hv)
      have hsub2 : ∀ v ∈ i₂ :: aux₂, v ∈ r.flatten ++ made' := fun v hv => r1.reads.mem_iff.1 (List.mem_append_right _ hv)
      have hdn : (i₁ :: aux₁ ++ i₂ :: aux₂ ++ o :: auxo).Nodup := by
        refine List.nodup_append.2 ⟨List.nodup_append.2 ⟨?_, ?_, ?_⟩, hdo, ?_⟩
        · exact (List.nodup_append.1 (l1.reads.nodup_iff.2 hd1)).2.1
        · exact (List.nodup_append.1 (r1.reads.nodup_iff.2 hd2)).2.1
        · exact fun a ha b hb => hdis1 a (hsub1 a ha) b (List.mem_append_left _ (hsub2 b hb))
        · intro a ha b hb
          rcases List.mem_append.1 ha with ha | ha
          · exact hdis1 a (hsub1 a ha) b (List.mem_append_right _ hb)
          · exact hdis2 a (hsub2 a ha) b hb
      obtain ⟨a1, a2, a3, a4, a5, a6, a7, a8⟩ := auxAggregator_wired hagg hparse hflags h hdn
      have hlen1 : aux₁.length = n := by simpa using l2
      have hlen2 : aux₂.length = n := by simpa using r2
      refine ⟨⟨?_, ?_, ?_, ?_⟩, ?_, ?_⟩
      · rw [List.flatMap_append, List.flatMap_append, l1.writes, r1.writes]
        simp [a2]
      · rw [List.flatMap_append, List.flatMap_append, List.flatMap_singleton, a1]
        have e1 := l1.reads
        have e2 := r1.reads
        rw [List.perm_iff_count] at e1 e2 ⊢
        intro a
        have e1 := e1 a
        have e2 := e2 a
        simp only [List.flatten_append, List.count_append] at e1 e2 ⊢
        omega
      · intro d hdm
        rcases List.mem_append.1 hdm with hdm | hdm
        · rcases List.mem_append.1 hdm with hdm | hdm
          · exact l1.none d hdm
          · exact r1.none d hdm
        · rw [List.mem_singleton.1 hdm]; exact ⟨a6, a7⟩
      · rw [List.flatMap_append, List.flatMap_append, List.flatMap_singleton]
        have hv1 := flatMap_vars prog cmds
        have hv2 := flatMap_vars prog cmds'
        rw [l1.writes] at hv1
        rw [r1.writes] at hv2
        have hall : ((made ++ made' ++ o :: auxo) ++ (l ++ r).flatten).Nodup := (List.perm_append_comm.nodup_iff).1 hd
        have hmm : ((made ++ made') ++ (l ++ r).flatten).Nodup := by
          have q : ((made ++ made' ++ o :: auxo) ++ (l ++ r).flatten).Perm
              (((made ++ made') ++ (l ++ r).flatten) ++ o :: auxo) := by
            rw [List.perm_iff_count]; intro a; simp only [List.count_append]; omega
          exact (List.nodup_append.1 (q.nodup_iff.1 hall)).1
        refine inOrder_append (inOrder_append (inOrder_mono l1.order ?_ ?_) (inOrder_mono r1.order ?_ ?_) ?_) (inOrder_all ?_ ?_) ?_
        · intro v hv; rw [List.flatten_append]; exact List.mem_append_left _ hv
        · rw [hv1]
          have q : ((made ++ made') ++ (l ++ r).flatten).Perm ((made ++ (l ++ r).flatten) ++ made') := by
            rw [List.perm_iff_count]; intro a; simp only [List.count_append]; omega
          exact (List.nodup_append.1 (q.nodup_iff.1 hmm)).1
        · intro v hv; rw [List.flatten_append]; exact List.mem_append_right _ (List.mem_append_right _ hv)
        · rw [hv1, hv2]
          have q : ((made ++ made') ++ (l ++ r).flatten).Perm (made' ++ (made ++ (l ++ r).flatten)) := by
            rw [List.perm_iff_count]; intro a; simp only [List.count_append]; omega
          exact q.nodup_iff.1 hmm
        · rw [List.map_append, hv1, hv2]; exact hmm
        · intro u hu v hv
          rw [writersOf_reads hu, a1] at hv
          rw [List.map_append, hv1, hv2, List.flatten_append]
          rcases List.mem_append.1 hv with hv | hv
          · have := hsub1 v hv; simp only [List.mem_append] at this ⊢; grind
          · have := hsub2 v hv; simp only [List.mem_append] at this ⊢; grind
        · rw [writersOf_vars, a2, List.map_append, hv1, hv2]
          have q : ((made ++ made' ++ o :: auxo) ++ (l ++ r).flatten).Perm
              (o :: auxo ++ ((made ++ made') ++ (l ++ r).flatten)) := by
            rw [List.perm_iff_count]; intro a; simp only [List.count_append]; omega
          exact q.nodup_iff.1 hall
        · rw [List.map_append, List.map_append, hv1, hv2, writersOf_vars, a2]; exact hall
      · simp [← a4, hlen1]
      · intro env hw hu
        rw [List.flatMap_append, List.flatMap_append, List.flatMap_singleton] at hu
        have j1 := l3 env hw fun u hh => hu u (List.mem_append_left _ (List.mem_append_left _ hh))
        have j2 := r3 env hw fun u hh => hu u (List.mem_append_left _ (List.mem_append_right _ hh))
        have hk : (i₁ :: aux₁ ++ i₂ :: aux₂).length = 2 * (n + 1) := by simp [hlen1, hlen2]; omega
        have he := writersOf_env (prog := prog) (c := agg.cmd) (env := env) (fun u hh => hu u (List.mem_append_right _ hh)) (by
          rw [a1, a2, a8, hw _ (by rw [List.length_map, hk])]; simp [← a4, hlen1])
        rw [a1, a2] at he
        rw [List.map_append]
        exact .node j1 j2 hdn h ⟨hlen1, hlen2⟩ ⟨a6, a7, _, a5, by rw [← hk, List.drop_left, List.take_left]; exact he⟩ rfl rfl

theorem auxNetwork_wires (prog : FilePrograms) {p : Parallelizer} (hn : 0 < p.infoMapperAggregator) {kind : AggregatorKind}
    {s : String} {impl : Bool} (hagg : p.coreAggregatorSpec = .funcString kind s impl) {inv : CommandInvocationInitial}
    {ns : List String} (hparse : parse s = .ok inv) (hflags : inv.flagOptionList = ns.map FlagOption.flag)
    {c : CommandInvocationWithIOVars} {ins made outs : List IOVar} {cmds : List CommandInvocationWithIOVars}
    (h : AuxNetwork p c ins cmds made outs) :
    Wires prog ins cmds made outs ∧ outs.length = p.infoMapperAggregator + 1 ∧
    (∀ env : IOVar → Stream, WritesMany prog (p.coreMapperSpec.initialMapper c).cmdName 1 (p.infoMapperAggregator + 1) →
      WritesMany prog inv.cmdName (2 * (p.infoMapperAggregator + 1)) (p.infoMapperAggregator + 1) →
      (∀ u ∈ cmds.flatMap (writersOf prog), env u.var = u.content (u.reads.map env)) →
      AuxExecutes prog p c (ins.map env) (outs.map env)) := by
  obtain ⟨cw, groups, ct, mt, hw, ht, rfl, rfl⟩ := h.commands
  have hd := h.distinct
  have hd1 : (ins ++ groups.flatten).Nodup := by
    rw [← List.append_assoc] at hd; exact (List.nodup_append.1 hd).1
  have hd2 : (groups.flatten ++ mt).Nodup := (List.nodup_append.1 hd).2.1
  obtain ⟨w1, w2, w3, w4⟩ := workers_wires prog hn hw hd1
  obtain ⟨t1, t2, t3⟩ := tree_wires prog hagg hparse hflags ht hd2 w3
  refine ⟨⟨?_, ?_, ?_, ?_⟩, t2, ?_⟩
  · rw [List.flatMap_append, w1.writes, t1.writes]
  · rw [List.flatMap_append, w2, List.append_assoc]
    exact List.Perm.append_left _ t1.reads
  · intro d hdm
    rcases List.mem_append.1 hdm with hdm | hdm
    · exact w1.none d hdm
    · exact t1.none d hdm
  · rw [List.flatMap_append]
    have hv1 := flatMap_vars prog cw
    have hv2 := flatMap_vars prog ct
    rw [w1.writes] at hv1
    rw [t1.writes] at hv2
    refine inOrder_append w1.order (inOrder_mono t1.order ?_ ?_) ?_
    · intro v hv; rw [hv1]; exact List.mem_append_left _ hv
    · rw [hv1, hv2]
      have q : (ins ++ (groups.flatten ++ mt)).Perm (mt ++ (groups.flatten ++ ins)) := by
        rw [List.perm_iff_count]; intro a; simp only [List.count_append]; omega
      exact q.nodup_iff.1 hd
    · rw [List.map_append, hv1, hv2]; exact (List.perm_append_comm.nodup_iff).1 hd
  · intro env hm ha hu
    rw [List.flatMap_append] at hu
    obtain ⟨runs, r1, r2, r3⟩ := w4 env hm fun u hh => hu u (List.mem_append_left _ hh)
    exact ⟨runs, r1.symm, r3, by rw [r2]; exact t3 env ha fun u hh => hu u (List.mem_append_right _ hh)⟩

theorem auxNetwork_ends (prog : FilePrograms) {ins made outs : List IOVar} {cmds : List CommandInvocationWithIOVars}
    (hw : Wires prog ins cmds made outs) (hd : ins.Nodup) (parts : List Stream) (hlen : parts.length = ins.length) :
    ∃ env, WriterEnds (cmds.flatMap (writersOf prog)) (ins.zip parts) env ∧ ins.map env = parts := by
  have hex : ∃ env : IOVar → Stream, ins.map env = parts := by
    clear hw
    induction ins generalizing parts with
    | nil => exact ⟨fun _ => [], by simpa using hlen⟩
    | cons i ins ih =>
        match parts, hlen with
        | x :: parts, hlen =>
            obtain ⟨env, he⟩ := ih (List.nodup_cons.1 hd).2 parts (by simpa using hlen)
            refine ⟨fun v => if v = i then x else env v, ?_⟩
            rw [List.map_cons, if_pos rfl]
            refine congrArg _ ?_
            rw [← he]
            refine List.map_congr_left fun v hv => ?_
            have hne : ¬ v = i := fun e => (List.nodup_cons.1 hd).1 (e ▸ hv)
            exact if_neg hne
  obtain ⟨env, he⟩ := hex
  obtain ⟨env', h1, h2⟩ := inOrder_ends hw.order env
  have hm : ins.map env' = parts := by rw [← he]; exact List.map_congr_left h1
  refine ⟨env', ⟨?_, h2⟩, hm⟩
  rintro ⟨v, x⟩ hq
  subst hm
  obtain ⟨k, hk, e⟩ := List.getElem_of_mem hq
  simp only [List.getElem_zip, List.getElem_map, Prod.mk.injEq] at e
  obtain ⟨rfl, rfl⟩ := e
  rfl

/-- C118, the pipes: every variable that is made is written by one command, and every variable other than the results is read by
exactly one command. No command uses the standard input or output. -/
theorem C118_wired {p : Parallelizer} (hn : 0 < p.infoMapperAggregator) {kind : AggregatorKind} {s : String} {impl : Bool}
    (hagg : p.coreAggregatorSpec = .funcString kind s impl) {inv : CommandInvocationInitial} {ns : List String}
    (hparse : parse s = .ok inv) (hflags : inv.flagOptionList = ns.map FlagOption.flag) {c : CommandInvocationWithIOVars}
    {ins made outs : List IOVar} {cmds : List CommandInvocationWithIOVars} (h : AuxNetwork p c ins cmds made outs) :
    cmds.flatMap (operandsWith · .streamOutput) = made ∧
    (cmds.flatMap (operandsWith · .streamInput) ++ outs).Perm (ins ++ made) ∧ outs.length = p.infoMapperAggregator + 1 ∧
    ∀ d ∈ cmds, d.implicitInput = none ∧ d.implicitOutput = none := by
  obtain ⟨h1, h2, -⟩ := auxNetwork_wires (fun _ _ => []) hn hagg hparse hflags h
  exact ⟨h1.writes, h1.reads, h2, h1.none⟩

/-- C118. Whatever the order in which the commands work and the inputs arrive, there is one execution of the parallelizer such
that what has been written to the output and the auxiliary outputs is always a beginning of what it gives, and all of it once
their writers have stopped. As long as something has not been written completely, something can be done. -/
theorem C118_schedules {p : Parallelizer} (hn : 0 < p.infoMapperAggregator) {kind : AggregatorKind} {s : String} {impl : Bool}
    (hagg : p.coreAggregatorSpec = .funcString kind s impl) {inv : CommandInvocationInitial} {ns : List String}
    (hparse : parse s = .ok inv) (hflags : inv.flagOptionList = ns.map FlagOption.flag) {c : CommandInvocationWithIOVars}
    {ins made outs : List IOVar} {cmds : List CommandInvocationWithIOVars} (h : AuxNetwork p c ins cmds made outs)
    (prog : FilePrograms) (hm : WritesMany prog (p.coreMapperSpec.initialMapper c).cmdName 1 (p.infoMapperAggregator + 1))
    (ha : WritesMany prog inv.cmdName (2 * (p.infoMapperAggregator + 1)) (p.infoMapperAggregator + 1))
    (parts : List Stream) (hlen : parts.length = ins.length) :
    ∃ ys, AuxExecutes prog p c parts ys ∧ ys.length = outs.length ∧
      ∀ n t, WriterRun (cmds.flatMap (writersOf prog)) (ins.zip parts) n t →
        (∀ q ∈ outs.zip ys, t.written q.1 <+: q.2 ∧ (t.closed q.1 = true → t.written q.1 = q.2)) ∧
        ((∀ t', ¬ WriterStep (cmds.flatMap (writersOf prog)) (ins.zip parts) t t') →
          (∀ v ∈ ins ++ made, t.closed v = true) ∧ outs.map t.written = ys) := by
  obtain ⟨h1, -, h3⟩ := auxNetwork_wires prog hn hagg hparse hflags h
  obtain ⟨env, he, hmap⟩ := auxNetwork_ends prog h1 (List.nodup_append.1 h.distinct).1 parts hlen
  refine ⟨outs.map env, hmap ▸ h3 env hm ha he.made, by simp, fun n t hr => ?_⟩
  have ht := writerRun_towards he hr
  refine ⟨?_, fun hend => ?_⟩
  · rintro ⟨v, x⟩ hq
    obtain ⟨k, hk, e⟩ := List.getElem_of_mem hq
    simp only [List.getElem_zip, List.getElem_map, Prod.mk.injEq] at e
    obtain ⟨rfl, rfl⟩ := e
    exact ht _
  · have hin : ∀ v ∈ ins, t.closed v = true := by
      intro v hv
      obtain ⟨q, hq, rfl⟩ : ∃ q ∈ ins.zip parts, q.1 = v := by
        have : v ∈ (ins.zip parts).map Prod.fst := by rw [List.map_fst_zip (by omega)]; exact hv
        exact List.mem_map.1 this
      exact writer_given_closed he ht hend q hq
    have hall : ∀ v ∈ ins ++ made, t.closed v = true := by
      intro v hv
      rcases List.mem_append.1 hv with hv | hv
      · exact hin v hv
      · rw [← h1.writes, ← flatMap_vars prog] at hv
        obtain ⟨u, hu, rfl⟩ := List.mem_map.1 hv
        exact writer_progress h1.order (fun _ hh => hh) he ht hin hend u hu
    refine ⟨hall, List.map_congr_left fun v hv => (ht v).2 (hall v ?_)⟩
    exact h1.reads.mem_iff.1 (List.mem_append_right _ hv)

/-- C118. Every run ends: there is a bound on the number of steps. -/
theorem C118_ends {p : Parallelizer} (hn : 0 < p.infoMapperAggregator) {kind : AggregatorKind} {s : String} {impl : Bool}
    (hagg : p.coreAggregatorSpec = .funcString kind s impl) {inv : CommandInvocationInitial} {ns : List String}
    (hparse : parse s = .ok inv) (hflags : inv.flagOptionList = ns.map FlagOption.flag) {c : CommandInvocationWithIOVars}
    {ins made outs : List IOVar} {cmds : List CommandInvocationWithIOVars} (h : AuxNetwork p c ins cmds made outs)
    (prog : FilePrograms) (parts : List Stream) (hlen : parts.length = ins.length) :
    ∃ bound, ∀ n t, WriterRun (cmds.flatMap (writersOf prog)) (ins.zip parts) n t → n ≤ bound := by
  obtain ⟨h1, -, -⟩ := auxNetwork_wires prog hn hagg hparse hflags h
  obtain ⟨env, he, -⟩ := auxNetwork_ends prog h1 (List.nodup_append.1 h.distinct).1 parts hlen
  refine ⟨((ins ++ made).map fun v => (env v).length + 1).sum, fun n s hr => ?_⟩
  have := writerRun_bounded (vars := ins ++ made) he (fun q hq => List.mem_append_left _ (List.of_mem_zip hq).1) (fun u hu => by
    refine List.mem_append_right _ ?_
    rw [← h1.writes, ← flatMap_vars prog]
    exact List.mem_map_of_mem hu) hr
  omega

/-- C118 with C69. For `bigrams_aux` on non-empty parts, at the end of every run of the commands that carry out what is offered,
the output holds the bigrams of the whole input, and the auxiliary outputs its first and its last line. (For empty parts see
`C69_empty_part_false`.) -/
theorem C118_bigrams {inv : CommandInvocationInitial} (hname : inv.cmdName = "bigrams_aux") {p : Parallelizer}
    (hp : Offered inv p) {c : CommandInvocationWithIOVars} {ins made outs : List IOVar} {cmds : List CommandInvocationWithIOVars}
    (h : AuxNetwork p c ins cmds made outs) (prog : FilePrograms) (hb : BigramPrograms prog) (x : Stream) (parts : List Stream)
    (hlen : parts.length = ins.length) (hx : Split p.splitter x parts) (hne : ∀ part ∈ parts, part ≠ []) {n : Nat}
    {t : PipeState String} (hrun : WriterRun (cmds.flatMap (writersOf prog)) (ins.zip parts) n t)
    (hend : ∀ t', ¬ WriterStep (cmds.flatMap (writersOf prog)) (ins.zip parts) t t') :
    (∀ v ∈ ins ++ made, t.closed v = true) ∧ outs.map t.written = [bigrams x, x.take 1, x.getLast?.toList] := by
  have hp' := (offered_bigrams hname p).1 hp
  subst hp'
  have hm : WritesMany prog (bigramPlan.coreMapperSpec.initialMapper c).cmdName 1 3 := by
    intro xs hxs
    obtain ⟨y, rfl⟩ := List.length_eq_one_iff.1 hxs
    show (prog "bigram_aux_map" [y]).length = 3
    rw [hb.map]; rfl
  have ha : WritesMany prog "bigram_aux_reduce" 6 3 := by
    intro xs hxs
    match xs, hxs with
    | [a, b, c, d, e, f], _ => rw [hb.reduce]; rfl
  obtain ⟨ys, h1, -, h2⟩ := C118_schedules (p := bigramPlan) (by decide) (kind := .custom2Ary) (s := "bigram_aux_reduce") (impl := true)
    rfl (inv := ⟨"bigram_aux_reduce", [], []⟩) (ns := []) (by decide +kernel) rfl h prog hm ha parts hlen
  have hy := C69_bigrams_partial inv hname bigramPlan hp c prog hb x parts hx hne ys h1
  rw [← hy]
  exact (h2 n t hrun).2 hend

theorem exists_other (used : List IOVar) : ∃ v : IOVar, v ∉ used := by
  refine ⟨((used.map Int.natAbs).sum + 1 : Nat), fun h => ?_⟩
  have key : ∀ (l : List Int), ∀ v ∈ l, v.natAbs ≤ (l.map Int.natAbs).sum := by
    intro l
    induction l with
    | nil => simp
    | cons a l ih =>
        intro v hv
        simp only [List.map_cons, List.sum_cons]
        rcases List.mem_cons.1 hv with rfl | hv
        · omega
        · have := ih v hv; omega
  have := key used _ h
  rw [Int.natAbs_natCast] at this
  omega

theorem exists_group (used : List IOVar) (hu : used.Nodup) : ∀ k : Nat, ∃ g : List IOVar, g.length = k ∧ (g ++ used).Nodup
  | 0 => ⟨[], rfl, hu⟩
  | k + 1 => by
      obtain ⟨g, hl, hn⟩ := exists_group used hu k
      obtain ⟨v, hv⟩ := exists_other (g ++ used)
      exact ⟨v :: g, by simp [hl], List.nodup_cons.2 ⟨hv, hn⟩⟩

theorem auxWorkers_exist {p : Parallelizer} (hn : 0 < p.infoMapperAggregator) (himpl : p.coreMapperSpec.isImplemented = true)
    {c : CommandInvocationWithIOVars} {ops : List IOVar} (hops : c.operandList = ops.map VArg.var) (hd : ops.Nodup)
    (ha : ∀ v ∈ ops, accessOf c v ≠ none) (ins : List IOVar) (used : List IOVar) (hu : used.Nodup) :
    ∃ cmds groups, AuxWorkers p c ins cmds groups ∧ (groups.flatten ++ used).Nodup ∧ groups.length = ins.length ∧
      ∀ g ∈ groups, g.length = p.infoMapperAggregator + 1 := by
  induction ins with
  | nil => exact ⟨[], [], .none, by simpa using hu, rfl, by simp⟩
  | cons i ins ih =>
      obtain ⟨cmds, groups, h1, h2, h3, h4⟩ := ih
      obtain ⟨g, hg, hgn⟩ := exists_group (groups.flatten ++ used) h2 (p.infoMapperAggregator + 1)
      match g, hg with
      | o :: aux, hg =>
          have hl : aux.length = p.infoMapperAggregator := by simpa using hg
          obtain ⟨m, hm, -⟩ := C49_mapper_exists p c ops i o aux himpl hl (by rintro rfl; simp at hl; omega) hops hd ha
          refine ⟨m :: cmds, (o :: aux) :: groups, .part hm h1, ?_, by simp [h3], ?_⟩
          · rw [List.flatten_cons, List.append_assoc]; exact hgn
          · intro g hgm
            rcases List.mem_cons.1 hgm with rfl | hgm
            · exact hg
            · exact h4 g hgm

theorem auxTree_exists {p : Parallelizer} {kind : AggregatorKind} {s : String} {impl : Bool}
    (hagg : p.coreAggregatorSpec = .funcString kind s impl) {inv : CommandInvocationInitial} {ns : List String}
    (hparse : parse s = .ok inv) (hflags : inv.flagOptionList = ns.map FlagOption.flag) {n : Nat} (groups : List (List IOVar))
    (hne : groups ≠ []) (hg : ∀ g ∈ groups, g.length = n + 1) (used : List IOVar) (hu : used.Nodup) :
    ∃ cmds made outs, AuxTree p groups cmds made outs ∧ (made ++ used).Nodup ∧ outs.length = n + 1 := by
  induction groups with
  | nil => exact absurd rfl hne
  | cons g groups ih =>
      by_cases h0 : groups = []
      · subst h0
        exact ⟨[], [], g, .leaf g, hu, hg g List.mem_cons_self⟩
      · obtain ⟨cmds, made, outs, h1, h2, h3⟩ := ih h0 fun x hx => hg x (List.mem_cons_of_mem _ hx)
        obtain ⟨r, hr, hrn⟩ := exists_group (made ++ used) h2 (n + 1)
        have hgl := hg g List.mem_cons_self
        match g, outs, r, hgl, h1, h3, hr, hrn with
        | i₁ :: aux₁, i₂ :: aux₂, o :: auxo, hgl, h1, h3, hr, hrn =>
            simp only [List.length_cons, Nat.add_right_cancel_iff] at hgl h3 hr
            obtain ⟨agg, hag, -⟩ := C49_aggregator p kind s impl hagg inv ns hparse hflags i₁ i₂ o aux₁ aux₂ auxo
              (hgl.trans h3.symm) (hgl.trans hr.symm)
            refine ⟨[] ++ cmds ++ [agg.cmd], [] ++ made ++ o :: auxo, o :: auxo, .node (l := [i₁ :: aux₁]) (.leaf _) h1 hag, ?_,
              by simp [hr]⟩
            have q : (o :: auxo ++ (made ++ used)).Perm ([] ++ made ++ o :: auxo ++ used) := by
              rw [List.perm_iff_count]; intro a; simp only [List.nil_append, List.count_append]; omega
            exact q.nodup_iff.1 hrn

/-- C118, the theorems are not about nothing: if the mapper is declared to be implemented and the operands of the invocation are
different variables with an access kind, then for any positive number of parts, in any variables, there are commands that carry
out the parallelizer. -/
theorem C118_commands {p : Parallelizer} (hn : 0 < p.infoMapperAggregator) {kind : AggregatorKind} {s : String} {impl : Bool}
    (hagg : p.coreAggregatorSpec = .funcString kind s impl) {inv : CommandInvocationInitial} {ns : List String}
    (hparse : parse s = .ok inv) (hflags : inv.flagOptionList = ns.map FlagOption.flag)
    (himpl : p.coreMapperSpec.isImplemented = true) {c : CommandInvocationWithIOVars} {ops : List IOVar}
    (hops : c.operandList = ops.map VArg.var) (hd : ops.Nodup) (ha : ∀ v ∈ ops, accessOf c v ≠ none)
    (ins : List IOVar) (hin : ins.Nodup) (hne : ins ≠ []) : ∃ cmds made outs, AuxNetwork p c ins cmds made outs := by
  obtain ⟨cw, groups, h1, h2, h3, h4⟩ := auxWorkers_exist hn himpl hops hd ha ins ins hin
  obtain ⟨ct, mt, outs, t1, t2, -⟩ := auxTree_exists hagg hparse hflags groups (by
    rintro rfl; exact hne (List.length_eq_zero_iff.1 h3.symm)) h4 (groups.flatten ++ ins) h2
  refine ⟨cw ++ ct, groups.flatten ++ mt, outs, ⟨cw, groups, ct, mt, h1, t1, rfl, rfl⟩, ?_⟩
  have q : (mt ++ (groups.flatten ++ ins)).Perm (ins ++ (groups.flatten ++ mt)) := by
    rw [List.perm_iff_count]; intro a; simp only [List.count_append]; omega
  exact q.nodup_iff.1 t2

/-- C118: so it is for every typed invocation of `bigrams_aux`, whatever variables stand for its files. -/
theorem C118_bigrams_commands {inv : CommandInvocationInitial} {c : CommandInvocationWithIO} {what : IOVar → FileWithIO}
    {v : CommandInvocationWithIOVars} {p : Parallelizer} (ht : Typed inv c) (hs : StandsFor what c v) (ho : Offered inv p)
    (hb : inv.cmdName = "bigrams_aux") (ins : List IOVar) (hin : ins.Nodup) (hne : ins ≠ []) :
    ∃ cmds made outs, AuxNetwork p v ins cmds made outs := by
  have hp := (offered_bigrams hb p).1 ho
  subst hp
  obtain ⟨vs, hvs, hnd, hacc⟩ := bigrams_operands ht hs hb
  exact C118_commands (p := bigramPlan) (by decide) (kind := .custom2Ary) (s := "bigram_aux_reduce") (impl := true) rfl
    (inv := ⟨"bigram_aux_reduce", [], []⟩) (ns := []) (by decide +kernel) rfl rfl hvs hnd hacc ins hin hne

/-- For `bigrams_aux` there are commands for three parts, and programs. -/
example : ∃ cmds made outs, AuxNetwork bigramPlan ⟨"bigrams_aux", [], [], some 0, some 10, []⟩ [1, 2, 3] cmds made outs ∧
    BigramPrograms bigramProgs ∧ Split bigramPlan.splitter ["a", "b", "c", "d"] [["a", "b"], ["c"], ["d"]] := by
  obtain ⟨cmds, made, outs, h⟩ := C118_commands (p := bigramPlan) (by decide) (kind := .custom2Ary) (s := "bigram_aux_reduce")
    (impl := true) rfl (inv := ⟨"bigram_aux_reduce", [], []⟩) (ns := []) (by decide +kernel) rfl rfl
    (c := ⟨"bigrams_aux", [], [], some 0, some 10, []⟩) (ops := []) rfl List.nodup_nil (by simp) [1, 2, 3] (by decide) (by simp)
  exact ⟨cmds, made, outs, h, bigramProgs_ok, by simp [bigramPlan, Split]⟩

end PashAnn
