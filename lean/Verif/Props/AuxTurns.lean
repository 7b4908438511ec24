import Verif.Lemmas.AuxTurns
import Verif.Props.AuxBuffers

/-! C125, for commands that read their inputs and write their outputs one after the other. -/

namespace PashAnn
open Spec

variable {σ : Type}

private theorem workers_groups {p : Parallelizer} (hn : 0 < p.infoMapperAggregator)
    {c : CommandInvocationWithIOVars} {ins : List IOVar} {cmds : List CommandInvocationWithIOVars} {groups : List (List IOVar)}
    (h : AuxWorkers p c ins cmds groups) (hd : (ins ++ groups.flatten).Nodup) :
    cmds.map (operandsWith · .streamOutput) = groups ∧ (∀ g ∈ groups, g ≠ []) ∧
    ∀ d ∈ cmds, ∀ v ∈ operandsWith d .streamInput, v ∈ ins := by
  induction h with
  | none => simp
  | @part i o aux ins m cmds groups h hl ih =>
      have hp : (i :: ins ++ ((o :: aux) :: groups).flatten).Perm ((i :: o :: aux) ++ (ins ++ groups.flatten)) := by
        rw [List.perm_iff_count]; intro a; simp only [List.flatten_cons, List.count_append, List.count_cons]; omega
      obtain ⟨hd1, hd2, -⟩ := List.nodup_append.1 (hp.nodup_iff.1 hd)
      obtain ⟨i1, i2, i3⟩ := ih hd2
      obtain ⟨m1, m2, -⟩ := auxMapper_wired hn h hd1
      refine ⟨by rw [List.map_cons, m2, i1], ?_, ?_⟩
      · intro g hg
        rcases List.mem_cons.1 hg with rfl | hg
        · simp
        · exact i2 g hg
      · intro d hd v hv
        rcases List.mem_cons.1 hd with rfl | hd
        · rw [m1] at hv
          rw [List.mem_singleton.1 hv]
          exact List.mem_cons_self
        · exact List.mem_cons_of_mem _ (i3 d hd v hv)

private theorem tree_groups (prog : FilePrograms) {p : Parallelizer} {kind : AggregatorKind} {s : String} {impl : Bool}
    (hagg : p.coreAggregatorSpec = .funcString kind s impl) {inv : CommandInvocationInitial} {ns : List String}
    (hparse : parse s = .ok inv) (hflags : inv.flagOptionList = ns.map FlagOption.flag) {groups : List (List IOVar)}
    {cmds : List CommandInvocationWithIOVars} {made outs : List IOVar} (h : AuxTree p groups cmds made outs)
    (hd : (groups.flatten ++ made).Nodup) {n : Nat} (hg : ∀ g ∈ groups, g.length = n + 1) :
    outs ∈ groups ++ cmds.map (operandsWith · .streamOutput) ∧
    (∀ d ∈ cmds, operandsWith d .streamOutput ≠ [] ∧ ∃ g₁ g₂, g₁ ∈ groups ++ cmds.map (operandsWith · .streamOutput) ∧
      g₂ ∈ groups ++ cmds.map (operandsWith · .streamOutput) ∧ operandsWith d .streamInput = g₁ ++ g₂) := by
  induction h with
  | leaf g => simp
  | @node l r cmds cmds' made made' aux₁ aux₂ auxo i₁ i₂ o agg hl hr h ihl ihr =>
      have hp : ((l ++ r).flatten ++ (made ++ made' ++ o :: auxo)).Perm
          ((l.flatten ++ made) ++ ((r.flatten ++ made') ++ o :: auxo)) := by
        rw [List.perm_iff_count]; intro a; simp only [List.flatten_append, List.count_append]; omega
      obtain ⟨hd1, hd', hdis1⟩ := List.nodup_append.1 (hp.nodup_iff.1 hd)
      obtain ⟨hd2, hdo, hdis2⟩ := List.nodup_append.1 hd'
      obtain ⟨l1, -, -⟩ := tree_wires prog hagg hparse hflags hl hd1 fun g hh => hg g (List.mem_append_left _ hh)
      obtain ⟨r1, -, -⟩ := tree_wires prog hagg hparse hflags hr hd2 fun g hh => hg g (List.mem_append_right _ hh)
      obtain ⟨l2, l3⟩ := ihl hd1 fun g hh => hg g (List.mem_append_left _ hh)
      obtain ⟨r2, r3⟩ := ihr hd2 fun g hh => hg g (List.mem_append_right _ hh)
      have hsub1 : ∀ v ∈ i₁ :: aux₁, v ∈ l.flatten ++ made := fun v hv => l1.reads.mem_iff.1 (List.mem_append_right _ hv)
      have hsub2 : ∀ v ∈ i₂ :: aux₂, v ∈ r.flatten ++ made' := fun v hv => r1.reads.mem_iff.1 (List.mem_append_right _ hv)
      have hdn : (i₁ :: aux₁ ++ i₂ :: aux₂ ++ o :: auxo).Nodup := by
        refine List.nodup_append.2 ⟨List.nodup_append.2 ⟨?_, ?_, ?_⟩, hdo, ?_⟩
        · exact (List.nodup_append.1 (l1.reads.nodup_iff.2 hd1)).2.1
        · exact (List.nodup_append.1 (r1.reads.nodup_iff.2 hd2)).2.1
        · exact fun a ha b hb => hdis1 a (hsub1 a ha) b (List.mem_append_left _ (hsub2 b hb))
        · intro a ha b hb
          rcases List.mem_append.1 ha with ha | ha
          · exact hdis1 a (hsub1 a ha) b (List.mem_append_right _ hb)
          · exact hdis2 a (hsub2 a ha) b hb
      obtain ⟨a1, a2, -⟩ := auxAggregator_wired hagg hparse hflags h hdn
      have hleft : ∀ g, g ∈ l ++ cmds.map (operandsWith · .streamOutput) →
          g ∈ l ++ r ++ (cmds ++ cmds' ++ [agg.cmd]).map (operandsWith · .streamOutput) := by
        intro g hg
        simp only [List.map_append, List.mem_append] at hg ⊢
        rcases hg with hg | hg
        · exact .inl (.inl hg)
        · exact .inr (.inl (.inl hg))
      have hright : ∀ g, g ∈ r ++ cmds'.map (operandsWith · .streamOutput) →
          g ∈ l ++ r ++ (cmds ++ cmds' ++ [agg.cmd]).map (operandsWith · .streamOutput) := by
        intro g hg
        simp only [List.map_append, List.mem_append] at hg ⊢
        rcases hg with hg | hg
        · exact .inl (.inr hg)
        · exact .inr (.inl (.inr hg))
      refine ⟨?_, ?_⟩
      · refine List.mem_append_right _ ?_
        rw [List.map_append, List.map_cons, a2]
        simp
      · intro d hdm
        rcases List.mem_append.1 hdm with hdm | hdm
        · rcases List.mem_append.1 hdm with hdm | hdm
          · obtain ⟨h1, g₁, g₂, h2, h3, h4⟩ := l3 d hdm
            exact ⟨h1, g₁, g₂, hleft _ h2, hleft _ h3, h4⟩
          · obtain ⟨h1, g₁, g₂, h2, h3, h4⟩ := r3 d hdm
            exact ⟨h1, g₁, g₂, hright _ h2, hright _ h3, h4⟩
        · rw [List.mem_singleton.1 hdm]
          exact ⟨by rw [a2]; simp, _, _, hleft _ l2, hright _ r2, a1⟩

/-- In the commands of a parallelizer with auxiliary pipes, what one command writes is read in the same order. -/
theorem auxNetwork_groups (prog : FilePrograms) {p : Parallelizer} (hn : 0 < p.infoMapperAggregator) {kind : AggregatorKind}
    {s : String} {impl : Bool} (hagg : p.coreAggregatorSpec = .funcString kind s impl) {inv : CommandInvocationInitial}
    {ns : List String} (hparse : parse s = .ok inv) (hflags : inv.flagOptionList = ns.map FlagOption.flag)
    {c : CommandInvocationWithIOVars} {ins made outs : List IOVar} {cmds : List CommandInvocationWithIOVars}
    (h : AuxNetwork p c ins cmds made outs) : InGroups cmds := by
  obtain ⟨hw, -, -⟩ := auxNetwork_wires prog hn hagg hparse hflags h
  obtain ⟨cw, groups, ct, mt, h1, h2, h3, h4⟩ := h.commands
  have hd := h.distinct
  have hd1 : (ins ++ groups.flatten).Nodup := by
    rw [h4, ← List.append_assoc] at hd; exact (List.nodup_append.1 hd).1
  have hd2 : (groups.flatten ++ mt).Nodup := by rw [← h4]; exact (List.nodup_append.1 hd).2.1
  obtain ⟨w1, w2, w3⟩ := workers_groups hn h1 hd1
  obtain ⟨-, -, w4, -⟩ := workers_wires prog hn h1 hd1
  obtain ⟨-, t2⟩ := tree_groups prog hagg hparse hflags h2 hd2 w4
  have hall : cmds.map (operandsWith · .streamOutput) = groups ++ ct.map (operandsWith · .streamOutput) := by
    rw [h3, List.map_append, w1]
  have hne : ∀ d ∈ cmds, operandsWith d .streamOutput ≠ [] := by
    intro d hdm
    rw [h3] at hdm
    rcases List.mem_append.1 hdm with hdm | hdm
    · exact w2 _ (by rw [← w1]; exact List.mem_map_of_mem hdm)
    · exact (t2 d hdm).1
  have hout : (cmds.flatMap (operandsWith · .streamOutput)).Nodup := by rw [hw.writes]; exact (List.nodup_append.1 hd).2.1
  refine ⟨(List.nodup_append.1 (hw.reads.nodup_iff.2 hd)).1, ?_, inOrder_later cmds hw.order hne⟩
  intro i i' j k j' e d v hi hi' hj hk hjj
  have hvout : v ∈ made := by
    rw [← hw.writes]; exact List.mem_flatMap.2 ⟨e, List.mem_of_getElem? hi, List.mem_of_getElem? hj⟩
  have hdm := List.mem_of_getElem? hi'
  rw [h3] at hdm
  rcases List.mem_append.1 hdm with hdm | hdm
  · exact absurd rfl ((List.nodup_append.1 hd).2.2 v (w3 d hdm v (List.mem_of_getElem? hk)) v hvout)
  · obtain ⟨-, g₁, g₂, m1, m2, hg⟩ := t2 d hdm
    rw [← hall] at m1 m2
    have same : ∀ g k₀, g ∈ cmds.map (operandsWith · .streamOutput) → g[k₀]? = some v → g = operandsWith e .streamOutput ∧ k₀ = j := by
      intro g k₀ hgm hgk
      obtain ⟨f, hf, rfl⟩ := List.mem_map.1 hgm
      obtain ⟨i₂, hi₂, e₂⟩ := List.getElem_of_mem hf
      have hfi : cmds[i₂]? = some f := by rw [List.getElem?_eq_getElem hi₂, e₂]
      obtain ⟨rfl, rfl⟩ := flatMap_index_unique _ cmds hout _ _ _ _ _ _ _ hfi hi hgk hj
      rw [hfi] at hi
      rw [Option.some.inj hi]
      exact ⟨rfl, rfl⟩
    rw [hg] at hk ⊢
    by_cases hlt : k < g₁.length
    · rw [List.getElem?_append_left hlt] at hk
      obtain ⟨e1, rfl⟩ := same g₁ k m1 hk
      exact ⟨j', hjj, by rw [List.getElem?_append_left (by omega), e1]⟩
    · rw [List.getElem?_append_right (by omega)] at hk
      obtain ⟨e1, e2⟩ := same g₂ _ m2 hk
      refine ⟨g₁.length + j', by omega, ?_⟩
      rw [List.getElem?_append_right (by omega), ← e1]
      congr 1
      omega

/-- C125, for commands that read their inputs in order, each to its end, and write their outputs in order, closing each before the
next: then pipes that hold one line or more are enough. Whatever steps the processes take, when nothing can go on then every process
has stopped and the outputs are what the parallelizer computes from the parts. Missing: commands that read or write in another
order, for which it is false. -/
theorem C125_in_turns_partial {p : Parallelizer} (hn : 0 < p.infoMapperAggregator) {kind : AggregatorKind} {s : String} {impl : Bool}
    (hagg : p.coreAggregatorSpec = .funcString kind s impl) {inv : CommandInvocationInitial} {ns : List String}
    (hparse : parse s = .ok inv) (hflags : inv.flagOptionList = ns.map FlagOption.flag) {c : CommandInvocationWithIOVars}
    {ins made outs : List IOVar} {cmds : List CommandInvocationWithIOVars} (h : AuxNetwork p c ins cmds made outs)
    (prog : FilePrograms) (hm : WritesMany prog (p.coreMapperSpec.initialMapper c).cmdName 1 (p.infoMapperAggregator + 1))
    (ha : WritesMany prog inv.cmdName (2 * (p.infoMapperAggregator + 1)) (p.infoMapperAggregator + 1))
    (parts : List Stream) (hlen : parts.length = ins.length) :
    ∃ ys : List Stream, AuxExecutes prog p c parts ys ∧ ys.length = outs.length ∧
      ∀ {σ : Type} (ps : PortProcesses σ), DoWhatFiles ps prog → InTurns ps → ∀ (size : IOVar → Nat), (∀ v, 0 < size v) →
        ∀ (n : Nat) (t : AllPorts σ), PortRun ps cmds size (ins.zip parts) n t →
        (∀ t', ¬ PortStep ps cmds size (ins.zip parts) t t') →
          (∀ (i : Nat) d, cmds[i]? = some d → ps.act d (t i).state = .stop) ∧
          ∀ q ∈ outs.zip ys, PipeHolds cmds (ins.zip parts) t q.1 q.2 := by
  obtain ⟨h1, -, -⟩ := auxNetwork_wires prog hn hagg hparse hflags h
  obtain ⟨env, he, hmap⟩ := auxNetwork_ends prog h1 (List.nodup_append.1 h.distinct).1 parts hlen
  have hgr := auxNetwork_groups prog hn hagg hparse hflags h
  obtain ⟨ys, enough, hex, hyl, hall⟩ := C125_large_partial hn hagg hparse hflags h prog hm ha parts hlen
  refine ⟨ys, hex, hyl, fun {σ} ps hps hturn size hsize n t hr hend => ?_⟩
  have hfst : (ins.zip parts).map (·.1) = ins := by rw [List.map_fst_zip]; omega
  have hd : ((ins.zip parts).map (·.1) ++ cmds.flatMap (operandsWith · .streamOutput)).Nodup := by
    rw [hfst, h1.writes]; exact h.distinct
  have hs := portRun_asAlone hps he hd hr
  have hse := portRun_seenEnds hps he hd hr
  have hread : ∀ c ∈ cmds, ∀ v ∈ operandsWith c .streamInput, v ∈ (ins.zip parts).map (·.1) ∨
      ∃ e ∈ cmds, v ∈ operandsWith e .streamOutput := by
    intro d hdm v hv
    rw [hfst]
    rcases List.mem_append.1 (h1.reads.mem_iff.1 (List.mem_append_left _ (List.mem_flatMap.2 ⟨d, hdm, hv⟩))) with h' | h'
    · exact .inl h'
    · rw [← h1.writes] at h'
      exact .inr (List.mem_flatMap.1 h')
  have hstop := inTurns_stopped hd hgr hread hsize hs hse hturn hend
  refine ⟨hstop, fun q hq => ?_⟩
  have ho := (List.of_mem_zip hq).1
  have hh : ∃ x, PipeHolds cmds (ins.zip parts) t q.1 x ∧ PipeEnded ps cmds (ins.zip parts) t q.1 := by
    rcases List.mem_append.1 (h1.reads.mem_iff.1 (List.mem_append_right _ ho)) with h' | h'
    · rw [← hfst] at h'
      obtain ⟨q', hq', e⟩ := List.mem_map.1 h'
      exact ⟨q'.2, .inl (e ▸ hq'), .inl ⟨q', hq', e⟩⟩
    · rw [← h1.writes] at h'
      obtain ⟨e, hem, hv⟩ := List.mem_flatMap.1 h'
      obtain ⟨i, hi, rfl⟩ := List.getElem_of_mem hem
      obtain ⟨j, hj, ej⟩ := List.getElem_of_mem hv
      have hci : cmds[i]? = some cmds[i] := List.getElem?_eq_getElem hi
      have hcj : (operandsWith cmds[i] .streamOutput)[j]? = some q.1 := by rw [List.getElem?_eq_getElem hj, ej]
      exact ⟨_, .inr ⟨i, _, j, hci, hcj, rfl⟩, .inr ⟨i, _, j, hci, hcj, .inr (hstop i _ hci)⟩⟩
  obtain ⟨x, hx, hen⟩ := hh
  have := ((hall ps hps size n t hr).1 q hq x hx).2 hen
  exact this ▸ hx

/-- A process that reads each input to its end, the first input first, and then writes each output and closes it, the first output first. -/
inductive PortTurns
  | reading (k : Nat) (cur : Stream) (got : List Stream)
  | writing (j : Nat) (cur : Stream) (rest : List Stream)

/-- Write the next line of the `j`-th output, or close it, or stop. -/
def writeTurn (j : Nat) : Stream → List Stream → PortAction PortTurns
  | a :: cur, rest => .write j a (.writing j cur rest)
  | [], y :: rest => .close j (.writing (j + 1) y rest)
  | [], [] => .stop

/-- Processes of this kind for programs. -/
def turnTaker (prog : FilePrograms) : PortProcesses PortTurns where
  start _ := .reading 0 [] []
  act c
    | .reading k cur got =>
        if k < (operandsWith c .streamInput).length then .read k fun
          | some a => .reading k (cur ++ [a]) got
          | none => .reading (k + 1) [] (got ++ [cur])
        else match prog c.cmdName got with
          | [] => .stop
          | y :: ys => writeTurn 0 y ys
    | .writing j cur rest => writeTurn j cur rest

private def TurnsKept (s : PortLocal PortTurns) : Prop :=
  match s.state with
  | .reading k _ _ => (∀ k' < k, s.atEnd k' = true) ∧ ∀ j, s.closed j = false
  | .writing j _ _ => (∀ j' < j, s.closed j' = true) ∧ ∀ j', j ≤ j' → s.closed j' = false

private theorem writeTurn_kept {prog : FilePrograms} {c : CommandInvocationWithIOVars} {ins : List Stream} {s : PortLocal PortTurns} {j : Nat}
    {cur : Stream} {rest : List Stream} (ha : (turnTaker prog).act c s.state = writeTurn j cur rest) (h : TurnsKept s)
    (h1 : ∀ j' < j, s.closed j' = true) (h2 : ∀ j', j ≤ j' → s.closed j' = false) : TurnsKept (portAlone (turnTaker prog) c ins s) := by
  unfold portAlone
  rw [ha]
  match cur, rest with
  | a :: cur, rest => exact ⟨h1, h2⟩
  | [], [] => exact h
  | [], y :: rest =>
      show TurnsKept (s.closes j (.writing (j + 1) y rest))
      refine ⟨fun j' hj => ?_, fun j' hj => ?_⟩
      · simp only [PortLocal.closes]
        split
        · rfl
        · exact h1 j' (by omega)
      · simp only [PortLocal.closes]
        rw [if_neg (by omega)]
        exact h2 j' (by omega)

private theorem turns_kept (prog : FilePrograms) (c : CommandInvocationWithIOVars) (ins : List Stream) (s : PortLocal PortTurns)
    (h : TurnsKept s) : TurnsKept (portAlone (turnTaker prog) c ins s) := by
  have h0 := h
  unfold TurnsKept at h0
  cases hs : s.state with
  | writing j cur rest =>
      rw [hs] at h0
      exact writeTurn_kept (by rw [hs]; rfl) h h0.1 h0.2
  | reading k cur got =>
      rw [hs] at h0
      by_cases hk : k < (operandsWith c .streamInput).length
      · unfold portAlone
        rw [hs]
        simp only [turnTaker, if_pos hk]
        cases hx : (ins[k]?.getD [])[s.taken k]? with
        | some a =>
            refine ⟨fun k' hk' => ?_, h0.2⟩
            simp only [PortLocal.reads]
            split
            · rfl
            · exact h0.1 k' hk'
        | none =>
            refine ⟨fun k' hk' => ?_, h0.2⟩
            simp only [PortLocal.reads]
            split
            · rfl
            · rename_i hne
              refine h0.1 k' ?_
              have : k' ≠ k := fun e => hne ⟨e, trivial⟩
              omega
      · cases hp : prog c.cmdName got with
        | nil =>
            unfold portAlone
            rw [hs]
            simp only [turnTaker, if_neg hk, hp]
            exact h
        | cons y ys =>
            refine writeTurn_kept (j := 0) (cur := y) (rest := ys) ?_ h (by simp) (fun j' _ => h0.2 j')
            rw [hs]
            simp only [turnTaker, if_neg hk, hp]

private theorem turnTaker_input (prog : FilePrograms) (c : CommandInvocationWithIOVars) (ins : List Stream) (k : Nat) (got : List Stream)
    (hk : k < (operandsWith c .streamInput).length) :
    ∀ (rest pre : Stream) (s : PortLocal PortTurns), ins[k]?.getD [] = pre ++ rest → s.taken k = pre.length →
      s.state = .reading k pre got →
      ∃ t, PortLeads (turnTaker prog) c ins s t ∧ t.state = .reading (k + 1) [] (got ++ [pre ++ rest]) ∧
        (∀ j, j ≠ k → t.taken j = s.taken j) ∧ t.outs = s.outs ∧ t.closed = s.closed
  | [], pre, s, hx, ht, hs => by
      refine ⟨_, .one s, ?_⟩
      have : (ins[k]?.getD [])[s.taken k]? = none := by rw [hx, ht, List.append_nil]; simp
      simp only [portAlone, hs, turnTaker, if_pos hk, this, PortLocal.reads]
      simp
  | a :: rest, pre, s, hx, ht, hs => by
      have h1 : (ins[k]?.getD [])[s.taken k]? = some a := by rw [hx, ht]; simp
      have hs1 : portAlone (turnTaker prog) c ins s = s.reads k (fun
          | some a => .reading k (pre ++ [a]) got
          | none => .reading (k + 1) [] (got ++ [pre])) (some a) := by
        simp only [portAlone, hs, turnTaker, if_pos hk, h1]
      obtain ⟨t, t1, t2, t3, t4, t5⟩ := turnTaker_input prog c ins k got hk rest (pre ++ [a]) (portAlone (turnTaker prog) c ins s)
        (by rw [hx]; simp) (by rw [hs1]; simp [PortLocal.reads, ht]) (by rw [hs1]; rfl)
      refine ⟨t, (PortLeads.one s).trans t1, by rw [t2]; simp, fun j hj => ?_, ?_, ?_⟩
      · rw [t3 j hj, hs1]; simp [PortLocal.reads, hj]
      · rw [t4, hs1]; rfl
      · rw [t5, hs1]; rfl

private theorem turnTaker_inputs (prog : FilePrograms) (c : CommandInvocationWithIOVars) (ins : List Stream)
    (hlen : ins.length = (operandsWith c .streamInput).length) :
    ∀ (m k : Nat) (s : PortLocal PortTurns), k + m = ins.length → s.state = .reading k [] (ins.take k) → (∀ j, k ≤ j → s.taken j = 0) →
      ∃ t, PortLeads (turnTaker prog) c ins s t ∧ t.state = .reading ins.length [] ins ∧ t.outs = s.outs ∧ t.closed = s.closed
  | 0, k, s, hk, hs, _ => ⟨s, ⟨0, rfl⟩, by rw [hs, show k = ins.length by omega]; simp, rfl, rfl⟩
  | m + 1, k, s, hk, hs, ht => by
      obtain ⟨t, t1, t2, t3, t4, t5⟩ := turnTaker_input prog c ins k (ins.take k) (by omega) (ins[k]?.getD []) [] s rfl
        (ht k (Nat.le_refl _)) hs
      obtain ⟨u, u1, u2, u3, u4⟩ := turnTaker_inputs prog c ins hlen m (k + 1) t (by omega) (by
        rw [t2, List.nil_append, List.getElem?_eq_getElem (by omega), Option.getD_some, List.take_append_getElem]) (by
        intro j hj; rw [t3 j (by omega), ht j (by omega)])
      exact ⟨u, t1.trans u1, u2, u3.trans t4, u4.trans t5⟩

private theorem turnTaker_outputs (prog : FilePrograms) (c : CommandInvocationWithIOVars) (ins : List Stream) :
    ∀ (rest : List Stream) (cur : Stream) (j : Nat) (s : PortLocal PortTurns), (turnTaker prog).act c s.state = writeTurn j cur rest →
      (∀ j', j ≤ j' → s.closed j' = false) →
      ∃ t, PortLeads (turnTaker prog) c ins s t ∧ (turnTaker prog).act c t.state = .stop ∧
        ∀ j', t.outs j' = s.outs j' ++ if j' < j then [] else ((cur :: rest)[j' - j]?).getD []
  | [], [], j, s, ha, hc => by
      refine ⟨s, ⟨0, rfl⟩, ha, fun j' => ?_⟩
      split
      · simp
      · cases j' - j with
        | zero => simp
        | succ n => simp
  | y :: rest, [], j, s, ha, hc => by
      have hs1 : portAlone (turnTaker prog) c ins s = s.closes j (.writing (j + 1) y rest) := by
        simp only [portAlone, ha, writeTurn]
      obtain ⟨t, t1, t2, t3⟩ := turnTaker_outputs prog c ins rest y (j + 1) (portAlone (turnTaker prog) c ins s) (by rw [hs1]; rfl) (by
        intro j' hj
        rw [hs1]
        simp only [PortLocal.closes]
        rw [if_neg (by omega)]
        exact hc j' (by omega))
      refine ⟨t, (PortLeads.one s).trans t1, t2, fun j' => ?_⟩
      rw [t3 j', hs1]
      simp only [PortLocal.closes]
      congr 1
      by_cases h1 : j' < j
      · rw [if_pos h1, if_pos (by omega)]
      · rw [if_neg h1]
        by_cases h2 : j' = j
        · subst h2; simp
        · rw [if_neg (by omega), show j' - j = (j' - (j + 1)) + 1 by omega, List.getElem?_cons_succ]
  | rest, a :: cur, j, s, ha, hc => by
      have hs1 : portAlone (turnTaker prog) c ins s = s.writes j a (.writing j cur rest) := by
        simp only [portAlone, ha, writeTurn]
      obtain ⟨t, t1, t2, t3⟩ := turnTaker_outputs prog c ins rest cur j (portAlone (turnTaker prog) c ins s) (by rw [hs1]; rfl) (by
        rw [hs1]; exact hc)
      refine ⟨t, (PortLeads.one s).trans t1, t2, fun j' => ?_⟩
      rw [t3 j', hs1]
      simp only [PortLocal.writes, hc j (Nat.le_refl _), and_true]
      by_cases h1 : j' = j
      · subst h1; simp
      · rw [if_neg h1]
        congr 1
        by_cases h2 : j' < j
        · rw [if_pos h2, if_pos h2]
        · rw [if_neg h2, if_neg h2, show j' - j = (j' - j - 1) + 1 by omega]; simp
termination_by rest cur => (rest.length, cur.length)

/-- C125: whatever the programs are, there are processes for them that read and write in order. -/
theorem C125_turns (prog : FilePrograms) : DoWhatFiles (turnTaker prog) prog ∧ InTurns (turnTaker prog) := by
  refine ⟨fun c ins hlen => ?_, fun c ins n hlen => ?_⟩
  · obtain ⟨t, t1, t2, t3, t4⟩ := turnTaker_inputs prog c ins hlen ins.length 0 ((turnTaker prog).init c) (by omega) (by
      simp [PortProcesses.init, turnTaker]) (fun _ _ => rfl)
    have hact : (turnTaker prog).act c t.state = match prog c.cmdName ins with
        | [] => .stop
        | y :: ys => writeTurn 0 y ys := by
      rw [t2]; simp only [turnTaker, hlen, Nat.lt_irrefl, if_false]
    cases hp : prog c.cmdName ins with
    | nil =>
        rw [hp] at hact
        obtain ⟨n, hn⟩ := t1
        refine ⟨n, by rw [portLeads_for, hn]; exact hact, fun j => ?_⟩
        rw [portLeads_for, hn, t3]; simp [PortProcesses.init]
    | cons y ys =>
        rw [hp] at hact
        obtain ⟨u, u1, u2, u3⟩ := turnTaker_outputs prog c ins ys y 0 t hact (by intro j _; rw [t4]; rfl)
        obtain ⟨n, hn⟩ := t1.trans u1
        refine ⟨n, by rw [portLeads_for, hn]; exact u2, fun j => ?_⟩
        rw [portLeads_for, hn, u3, t3]; simp [PortProcesses.init]
  · have hk : TurnsKept (portAloneFor (turnTaker prog) c ins n) := by
      induction n with
      | zero => exact ⟨by simp, fun _ => rfl⟩
      | succ n ih => exact turns_kept prog c ins _ ih
    generalize portAloneFor (turnTaker prog) c ins n = s at hk
    unfold TurnsKept at hk
    have hwt : ∀ {j cur rest}, (∀ k next, writeTurn j cur rest ≠ .read k next) ∧
        ∀ j' a next, writeTurn j cur rest = .write j' a next → j' = j := by
      intro j cur rest
      match cur, rest with
      | a :: cur, rest => exact ⟨fun _ _ h => (by cases h), fun _ _ _ h => by cases h; rfl⟩
      | [], y :: rest => exact ⟨fun _ _ h => (by cases h), fun _ _ _ h => by cases h⟩
      | [], [] => exact ⟨fun _ _ h => (by cases h), fun _ _ _ h => by cases h⟩
    cases hs : s.state with
    | writing j cur rest =>
        rw [hs] at hk
        refine ⟨fun k next h => absurd h (hwt.1 k next), fun j' a next h => ?_⟩
        obtain rfl := hwt.2 j' a next h
        exact ⟨hk.2 _ (Nat.le_refl _), hk.1⟩
    | reading k cur got =>
        rw [hs] at hk
        by_cases hlt : k < (operandsWith c .streamInput).length
        · simp only [turnTaker, if_pos hlt]
          exact ⟨fun k' next h => by cases h; exact hk.1, fun j' a next h => by cases h⟩
        · simp only [turnTaker, if_neg hlt]
          cases prog c.cmdName got with
          | nil => exact ⟨fun k' next h => (by cases h), fun j' a next h => by cases h⟩
          | cons y ys =>
              refine ⟨fun k next h => absurd h (hwt.1 k next), fun j' a next h => ?_⟩
              obtain rfl := hwt.2 j' a next h
              exact ⟨hk.2 _, by simp⟩

/-- C125 for `bigrams_aux` with programs that do what its mapper and its aggregator do: if the commands read and write in order,
pipes hold one line or more and no part is empty, then at the end the output holds the bigrams of the whole input. -/
theorem C125_bigrams_partial (c : CommandInvocationWithIOVars) {ins made outs : List IOVar} {cmds : List CommandInvocationWithIOVars}
    (h : AuxNetwork bigramPlan c ins cmds made outs) (prog : FilePrograms) (hb : BigramPrograms prog) (parts : List Stream)
    (hlen : parts.length = ins.length) (hne : ∀ part ∈ parts, part ≠ []) (ps : PortProcesses σ) (hps : DoWhatFiles ps prog)
    (hturn : InTurns ps) (size : IOVar → Nat) (hsize : ∀ v, 0 < size v) {n : Nat} {t : AllPorts σ}
    (hr : PortRun ps cmds size (ins.zip parts) n t) (hend : ∀ t', ¬ PortStep ps cmds size (ins.zip parts) t t') :
    ∃ o f l, outs = [o, f, l] ∧ PipeHolds cmds (ins.zip parts) t o (bigrams parts.flatten) ∧
      PipeHolds cmds (ins.zip parts) t f (parts.flatten.take 1) ∧ PipeHolds cmds (ins.zip parts) t l parts.flatten.getLast?.toList := by
  have hm : WritesMany prog (bigramPlan.coreMapperSpec.initialMapper c).cmdName 1 3 := by
    intro xs hxs
    obtain ⟨y, rfl⟩ := List.length_eq_one_iff.1 hxs
    show (prog "bigram_aux_map" [y]).length = 3
    rw [hb.map]; rfl
  have ha : WritesMany prog "bigram_aux_reduce" 6 3 := by
    intro xs hxs
    match xs, hxs with
    | [a, b, c, d, e, f], _ => rw [hb.reduce]; rfl
  obtain ⟨ys, h1, h2, h3⟩ := C125_in_turns_partial (p := bigramPlan) (by decide) (kind := .custom2Ary) (s := "bigram_aux_reduce")
    (impl := true) rfl (inv := ⟨"bigram_aux_reduce", [], []⟩) (ns := []) (by decide +kernel) rfl h prog hm ha parts hlen
  have hval := C69_bigrams_partial ⟨"bigrams_aux", [], []⟩ rfl bigramPlan ((offered_bigrams rfl _).2 rfl) c prog hb parts.flatten
    parts (by simp [Split, bigramPlan]) hne ys h1
  subst hval
  match outs, h2 with
  | [o, f, l], _ =>
      have := (h3 ps hps hturn size hsize n t hr hend).2
      exact ⟨o, f, l, rfl, this (o, _) List.mem_cons_self, this (f, _) (List.mem_cons_of_mem _ List.mem_cons_self),
        this (l, _) (List.mem_cons_of_mem _ (List.mem_cons_of_mem _ List.mem_cons_self))⟩

/-- Processes that read and write in order exist for the programs of `bigrams_aux`, and commands for three parts. -/
example : DoWhatFiles (turnTaker bigramProgs) bigramProgs ∧ InTurns (turnTaker bigramProgs) ∧ BigramPrograms bigramProgs ∧
    ∃ cmds made outs, AuxNetwork bigramPlan ⟨"bigrams_aux", [], [], some 0, some 10, []⟩ [1, 2, 3] cmds made outs := by
  obtain ⟨cmds, made, outs, h⟩ := C118_commands (p := bigramPlan) (by decide) (kind := .custom2Ary) (s := "bigram_aux_reduce")
    (impl := true) rfl (inv := ⟨"bigram_aux_reduce", [], []⟩) (ns := []) (by decide +kernel) rfl rfl
    (c := ⟨"bigrams_aux", [], [], some 0, some 10, []⟩) (ops := []) rfl List.nodup_nil (by simp) [1, 2, 3] (by decide) (by simp)
  exact ⟨(C125_turns _).1, (C125_turns _).2, bigramProgs_ok, cmds, made, outs, h⟩

end PashAnn
