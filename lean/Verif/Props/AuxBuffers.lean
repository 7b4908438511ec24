import Verif.Lemmas.AuxBuffers
import Verif.Props.AuxSchedules
import Verif.Props.AuxExact

/-! C125: Pipes of any size do not block the commands of a plan with auxiliary pipes. -/

namespace PashAnn
open Spec

variable {σ : Type}

/-- C125, for large pipes: there are outputs `ys` that the parallelizer computes from the parts, and a size, such that with pipes
of at least this size, whatever steps the processes take and in whichever order, each output is a beginning of what it should be;
and when nothing can go on, then every process has stopped and the outputs are complete. Missing: smaller pipes, for which it is
false. -/
theorem C125_large_partial {p : Parallelizer} (hn : 0 < p.infoMapperAggregator) {kind : AggregatorKind} {s : String} {impl : Bool}
    (hagg : p.coreAggregatorSpec = .funcString kind s impl) {inv : CommandInvocationInitial} {ns : List String}
    (hparse : parse s = .ok inv) (hflags : inv.flagOptionList = ns.map FlagOption.flag) {c : CommandInvocationWithIOVars}
    {ins made outs : List IOVar} {cmds : List CommandInvocationWithIOVars} (h : AuxNetwork p c ins cmds made outs)
    (prog : FilePrograms) (hm : WritesMany prog (p.coreMapperSpec.initialMapper c).cmdName 1 (p.infoMapperAggregator + 1))
    (ha : WritesMany prog inv.cmdName (2 * (p.infoMapperAggregator + 1)) (p.infoMapperAggregator + 1))
    (parts : List Stream) (hlen : parts.length = ins.length) :
    ∃ (ys : List Stream) (enough : IOVar → Nat), AuxExecutes prog p c parts ys ∧ ys.length = outs.length ∧
      ∀ {σ : Type} (ps : PortProcesses σ), DoWhatFiles ps prog → ∀ (size : IOVar → Nat) (n : Nat) (t : AllPorts σ),
        PortRun ps cmds size (ins.zip parts) n t →
        (∀ q ∈ outs.zip ys, ∀ x, PipeHolds cmds (ins.zip parts) t q.1 x →
          x <+: q.2 ∧ (PipeEnded ps cmds (ins.zip parts) t q.1 → x = q.2)) ∧
        ((∀ v, enough v ≤ size v) → (∀ t', ¬ PortStep ps cmds size (ins.zip parts) t t') →
          (∀ (i : Nat) d, cmds[i]? = some d → ps.act d (t i).state = .stop) ∧
          ∀ q ∈ outs.zip ys, PipeHolds cmds (ins.zip parts) t q.1 q.2) := by
  obtain ⟨h1, -, h3⟩ := auxNetwork_wires prog hn hagg hparse hflags h
  obtain ⟨env, he, hmap⟩ := auxNetwork_ends prog h1 (List.nodup_append.1 h.distinct).1 parts hlen
  refine ⟨outs.map env, fun v => (env v).length + 1, hmap ▸ h3 env hm ha he.made, by simp, ?_⟩
  intro σ ps hps size n t hr
  have hfst : (ins.zip parts).map (·.1) = ins := by
    rw [List.map_fst_zip]; omega
  have hd : ((ins.zip parts).map (·.1) ++ cmds.flatMap (operandsWith · .streamOutput)).Nodup := by
    rw [hfst, h1.writes]; exact h.distinct
  have hs := portRun_asAlone hps he hd hr
  have hzip : ∀ q ∈ outs.zip (outs.map env), q.1 ∈ outs ∧ q.2 = env q.1 := by
    rintro ⟨v, x⟩ hq
    obtain ⟨k, hk, e⟩ := List.getElem_of_mem hq
    simp only [List.getElem_zip, List.getElem_map, Prod.mk.injEq] at e
    obtain ⟨rfl, rfl⟩ := e
    exact ⟨List.getElem_mem _, rfl⟩
  refine ⟨?_, fun hsize hend => ?_⟩
  · intro q hq x hx
    rw [(hzip q hq).2]
    exact ⟨holds_prefix hps he hs hx, fun hen => holds_ended hps he hd hs hen hx⟩
  · have hsz : ∀ v, (env v).length < size v := fun v => hsize v
    have hin : ∀ v ∈ ins, PipeEnded ps cmds (ins.zip parts) t v := by
      intro v hv
      rw [← hfst] at hv
      obtain ⟨q, hq, e⟩ := List.mem_map.1 hv
      exact .inl ⟨q, hq, e⟩
    have hws := port_ended hps he hsz hs hend h1.order (fun _ hu => hu) hin
    have hmade : ∀ v ∈ made, PipeEnded ps cmds (ins.zip parts) t v := by
      intro v hv
      rw [← h1.writes] at hv
      obtain ⟨d, hd', hv⟩ := List.mem_flatMap.1 hv
      obtain ⟨j, hj, rfl⟩ := List.getElem_of_mem hv
      exact hws ⟨(operandsWith d .streamOutput)[j], operandsWith d .streamInput, fun xs => ((prog d.cmdName xs)[j]?).getD []⟩
        (List.mem_flatMap.2 ⟨d, hd', List.mem_mapIdx.2 ⟨j, hj, rfl⟩⟩)
    have hall : ∀ v ∈ ins ++ made, PipeEnded ps cmds (ins.zip parts) t v := by
      intro v hv
      rcases List.mem_append.1 hv with hv | hv
      · exact hin v hv
      · exact hmade v hv
    refine ⟨fun i d hi => port_stopped hps he hsz hs hend hi fun v hv => hall v ?_, ?_⟩
    · exact h1.reads.mem_iff.1 (List.mem_append_left _ (List.mem_flatMap.2 ⟨d, List.mem_of_getElem? hi, hv⟩))
    · intro q hq
      obtain ⟨ho, hv⟩ := hzip q hq
      have hen := hall q.1 (h1.reads.mem_iff.1 (List.mem_append_right _ ho))
      have hh : ∃ x, PipeHolds cmds (ins.zip parts) t q.1 x := by
        rcases hen with ⟨q', hq', e⟩ | ⟨i', c', j', hi', hj', _⟩
        · exact ⟨q'.2, .inl (e ▸ hq')⟩
        · exact ⟨_, .inr ⟨i', c', j', hi', hj', rfl⟩⟩
      obtain ⟨x, hx⟩ := hh
      rw [hv, ← holds_ended hps he hd hs hen hx]
      exact hx

/-- C125: every run is finite, whatever the sizes of the pipes are. So there are always runs after which nothing can go on. -/
theorem C125_finite {p : Parallelizer} (hn : 0 < p.infoMapperAggregator) {kind : AggregatorKind} {s : String} {impl : Bool}
    (hagg : p.coreAggregatorSpec = .funcString kind s impl) {inv : CommandInvocationInitial} {ns : List String}
    (hparse : parse s = .ok inv) (hflags : inv.flagOptionList = ns.map FlagOption.flag) {c : CommandInvocationWithIOVars}
    {ins made outs : List IOVar} {cmds : List CommandInvocationWithIOVars} (h : AuxNetwork p c ins cmds made outs)
    (prog : FilePrograms) (parts : List Stream) (hlen : parts.length = ins.length) (ps : PortProcesses σ) (hps : DoWhatFiles ps prog) :
    ∃ most, ∀ (size : IOVar → Nat) (n : Nat) (t : AllPorts σ), PortRun ps cmds size (ins.zip parts) n t → n ≤ most := by
  obtain ⟨h1, -, -⟩ := auxNetwork_wires prog hn hagg hparse hflags h
  obtain ⟨env, he, -⟩ := auxNetwork_ends prog h1 (List.nodup_append.1 h.distinct).1 parts hlen
  refine portRun_bounded hps he ?_
  rw [List.map_fst_zip (by omega), h1.writes]
  exact h.distinct

/-- All lines of the outputs, one output after the other, each line with the number of its output. -/
def inTurn : Nat → List Stream → List (Nat × String)
  | _, [] => []
  | k, y :: ys => y.map (k, ·) ++ inTurn (k + 1) ys

/-- A process that reads each input to its end, the last input first, and then writes each output to its end, the first output first. -/
inductive PortCollecting
  | reading (left : Nat) (cur : Stream) (got : List Stream)
  | writing (todo : List (Nat × String))

/-- Write the next of these lines, or stop. -/
def emitNext : List (Nat × String) → PortAction PortCollecting
  | [] => .stop
  | (j, a) :: todo => .write j a (.writing todo)

/-- Processes of this kind for programs. -/
def collector (prog : FilePrograms) : PortProcesses PortCollecting where
  start c := .reading (operandsWith c .streamInput).length [] []
  act c
    | .reading (k + 1) cur got => .read k fun
        | some a => .reading (k + 1) (cur ++ [a]) got
        | none => .reading k [] (cur :: got)
    | .reading 0 _ got => emitNext (inTurn 0 (prog c.cmdName got))
    | .writing todo => emitNext todo

theorem inTurn_filter (j : Nat) : ∀ (ys : List Stream) (k : Nat),
    ((inTurn k ys).filter (·.1 == j)).map (·.2) = if j < k then [] else (ys[j - k]?).getD []
  | [], k => by simp [inTurn]
  | y :: ys, k => by
      rw [inTurn, List.filter_append, List.map_append, inTurn_filter j ys (k + 1), List.filter_map, List.map_map]
      by_cases h : k = j
      · subst h
        have e1 : ((fun x : Nat × String => x.1 == k) ∘ fun a => (k, a)) = fun _ : String => true := by funext a; simp
        have e2 : ((fun x : Nat × String => x.2) ∘ fun a => (k, a)) = id := by funext a; rfl
        rw [e1, e2]
        simp
      · have e1 : ((fun x : Nat × String => x.1 == j) ∘ fun a => (k, a)) = fun _ : String => false := by funext a; simp [h]
        rw [e1]
        by_cases h' : j < k
        · simp [h', show j < k + 1 by omega]
        · have : j - k = (j - (k + 1)) + 1 := by omega
          rw [if_neg h', if_neg (by omega), this, List.getElem?_cons_succ]
          simp

/-- Some steps alone lead from one state to the other. -/
def PortLeads (ps : PortProcesses σ) (c : CommandInvocationWithIOVars) (ins : List Stream) (s t : PortLocal σ) : Prop :=
  ∃ n, Nat.repeat (portAlone ps c ins) n s = t

private theorem repeat_add {α : Type} (f : α → α) (a : α) (n : Nat) : ∀ m, Nat.repeat f m (Nat.repeat f n a) = Nat.repeat f (n + m) a
  | 0 => rfl
  | m + 1 => by rw [Nat.repeat, repeat_add f a n m]; rfl

theorem PortLeads.trans {ps : PortProcesses σ} {c : CommandInvocationWithIOVars} {ins : List Stream} {s t u : PortLocal σ}
    (h : PortLeads ps c ins s t) (h' : PortLeads ps c ins t u) : PortLeads ps c ins s u := by
  obtain ⟨n, rfl⟩ := h
  obtain ⟨m, rfl⟩ := h'
  exact ⟨n + m, (repeat_add _ s n m).symm⟩

theorem PortLeads.one {ps : PortProcesses σ} {c : CommandInvocationWithIOVars} {ins : List Stream} (s : PortLocal σ) :
    PortLeads ps c ins s (portAlone ps c ins s) := ⟨1, rfl⟩

theorem portLeads_for {ps : PortProcesses σ} {c : CommandInvocationWithIOVars} {ins : List Stream} (n : Nat) :
    portAloneFor ps c ins n = Nat.repeat (portAlone ps c ins) n (ps.init c) := by
  induction n with
  | zero => rfl
  | succ n ih => rw [portAloneFor, ih]; rfl

private theorem collector_input (prog : FilePrograms) (c : CommandInvocationWithIOVars) (ins : List Stream) (k : Nat) (got : List Stream) :
    ∀ (rest pre : Stream) (s : PortLocal PortCollecting), ins[k]?.getD [] = pre ++ rest → s.taken k = pre.length →
      s.state = .reading (k + 1) pre got →
      ∃ t, PortLeads (collector prog) c ins s t ∧ t.state = .reading k [] ((pre ++ rest) :: got) ∧ (∀ j, j ≠ k → t.taken j = s.taken j) ∧
        t.outs = s.outs ∧ t.closed = s.closed
  | [], pre, s, hx, ht, hs => by
      refine ⟨_, .one s, ?_⟩
      have : (ins[k]?.getD [])[s.taken k]? = none := by rw [hx, ht, List.append_nil]; simp
      simp only [portAlone, hs, collector, this, PortLocal.reads]
      simp
  | a :: rest, pre, s, hx, ht, hs => by
      have h1 : (ins[k]?.getD [])[s.taken k]? = some a := by rw [hx, ht]; simp
      have hs1 : portAlone (collector prog) c ins s = s.reads k (fun
          | some a => .reading (k + 1) (pre ++ [a]) got
          | none => .reading k [] (pre :: got)) (some a) := by
        simp only [portAlone, hs, collector, h1]
      obtain ⟨t, t1, t2, t3, t4, t5⟩ := collector_input prog c ins k got rest (pre ++ [a]) (portAlone (collector prog) c ins s)
        (by rw [hx]; simp) (by rw [hs1]; simp [PortLocal.reads, ht]) (by rw [hs1]; rfl)
      refine ⟨t, (PortLeads.one s).trans t1, by rw [t2]; simp, fun j hj => ?_, ?_, ?_⟩
      · rw [t3 j hj, hs1]; simp [PortLocal.reads, hj]
      · rw [t4, hs1]; rfl
      · rw [t5, hs1]; rfl

private theorem collector_inputs (prog : FilePrograms) (c : CommandInvocationWithIOVars) (ins : List Stream) :
    ∀ (k : Nat) (s : PortLocal PortCollecting), k ≤ ins.length → s.state = .reading k [] (ins.drop k) → (∀ j < k, s.taken j = 0) →
      ∃ t, PortLeads (collector prog) c ins s t ∧ t.state = .reading 0 [] ins ∧ t.outs = s.outs ∧ t.closed = s.closed
  | 0, s, _, hs, _ => ⟨s, ⟨0, rfl⟩, by simpa using hs, rfl, rfl⟩
  | k + 1, s, hk, hs, ht => by
      obtain ⟨t, t1, t2, t3, t4, t5⟩ := collector_input prog c ins k (ins.drop (k + 1)) (ins[k]?.getD []) [] s rfl (ht k (by omega)) hs
      obtain ⟨u, u1, u2, u3, u4⟩ := collector_inputs prog c ins k t (by omega) (by
        rw [t2, List.nil_append, List.getElem?_eq_getElem (by omega), Option.getD_some, ← List.drop_eq_getElem_cons]) (by
        intro j hj; rw [t3 j (by omega), ht j (by omega)])
      exact ⟨u, t1.trans u1, u2, u3.trans t4, u4.trans t5⟩

private theorem collector_outputs (prog : FilePrograms) (c : CommandInvocationWithIOVars) (ins : List Stream) :
    ∀ (todo : List (Nat × String)) (s : PortLocal PortCollecting), (collector prog).act c s.state = emitNext todo → (∀ j, s.closed j = false) →
      ∃ t, PortLeads (collector prog) c ins s t ∧ (collector prog).act c t.state = .stop ∧
        ∀ j, t.outs j = s.outs j ++ (todo.filter (·.1 == j)).map (·.2)
  | [], s, hs, _ => ⟨s, ⟨0, rfl⟩, hs, by simp⟩
  | (i, a) :: todo, s, hs, hc => by
      have hs1 : portAlone (collector prog) c ins s = s.writes i a (.writing todo) := by
        simp only [portAlone, hs, emitNext]
      obtain ⟨t, t1, t2, t3⟩ := collector_outputs prog c ins todo (portAlone (collector prog) c ins s) (by rw [hs1]; rfl) (by
        rw [hs1]; exact hc)
      refine ⟨t, (PortLeads.one s).trans t1, t2, fun j => ?_⟩
      rw [t3 j, hs1]
      by_cases h : j = i
      · subst h; simp [PortLocal.writes, hc]
      · have h' : ¬ i = j := fun e => h e.symm
        simp [PortLocal.writes, h, h']

/-- C125: whatever the programs are, there are such processes for them. -/
theorem C125_processes (prog : FilePrograms) : DoWhatFiles (collector prog) prog := by
  intro c ins hlen
  obtain ⟨t, t1, t2, t3, t4⟩ := collector_inputs prog c ins ins.length ((collector prog).init c) (Nat.le_refl _) (by
    simp [PortProcesses.init, collector, hlen]) (fun _ _ => rfl)
  obtain ⟨u, u1, u2, u3⟩ := collector_outputs prog c ins (inTurn 0 (prog c.cmdName ins)) t (by rw [t2]; rfl) (by
    intro j; rw [t4]; rfl)
  obtain ⟨n, hn⟩ := t1.trans u1
  refine ⟨n, ?_, fun j => ?_⟩
  · rw [portLeads_for, hn]; exact u2
  · rw [portLeads_for, hn, u3, t3, inTurn_filter]; simp [PortProcesses.init]

/-- The mapper of `bigrams_aux` for one part. -/
def bigramMapper (i o h t : IOVar) : CommandInvocationWithIOVars :=
  ⟨"bigram_aux_map", [], [.var i, .var o, .var h, .var t], none, none,
    [(i, .streamInput), (o, .streamOutput), (h, .streamOutput), (t, .streamOutput)]⟩

/-- The aggregator of `bigrams_aux` for two parts. -/
def bigramReducer : CommandInvocationWithIOVars :=
  ⟨"bigram_aux_reduce", [], [.var 11, .var 12, .var 13, .var 21, .var 22, .var 23, .var 31, .var 32, .var 33], none, none,
    [(11, .streamInput), (12, .streamInput), (13, .streamInput), (21, .streamInput), (22, .streamInput), (23, .streamInput),
      (31, .streamOutput), (32, .streamOutput), (33, .streamOutput)]⟩

def twoParts : List CommandInvocationWithIOVars := [bigramMapper 1 11 12 13, bigramMapper 2 21 22 23, bigramReducer]

theorem twoParts_network : AuxNetwork bigramPlan ⟨"bigrams_aux", [], [], some 0, some 10, []⟩ [1, 2] twoParts
    [11, 12, 13, 21, 22, 23, 31, 32, 33] [31, 32, 33] := by
  refine ⟨⟨[bigramMapper 1 11 12 13, bigramMapper 2 21 22 23], [[11, 12, 13], [21, 22, 23]], [bigramReducer], [31, 32, 33], ?_, ?_, rfl, rfl⟩,
    by decide⟩
  · exact .part (by decide +kernel) (.part (by decide +kernel) .none)
  · exact .node (l := [[11, 12, 13]]) (r := [[21, 22, 23]]) (cmds := []) (cmds' := []) (made := []) (made' := [])
      (agg := ⟨.custom2Ary, bigramReducer⟩) (.leaf _) (.leaf _) (by decide +kernel)

theorem twoParts_reads : operandsWith (bigramMapper 2 21 22 23) .streamInput = [2] ∧
    operandsWith (bigramMapper 2 21 22 23) .streamOutput = [21, 22, 23] ∧ operandsWith (bigramMapper 1 11 12 13) .streamOutput = [11, 12, 13] ∧
    operandsWith bigramReducer .streamInput = [11, 12, 13, 21, 22, 23] ∧ operandsWith bigramReducer .streamOutput = [31, 32, 33] := by
  decide +kernel

theorem twoParts_writer {i j : Nat} {c : CommandInvocationWithIOVars} {v : IOVar} (hi : twoParts[i]? = some c)
    (hj : (operandsWith c .streamOutput)[j]? = some v) :
    (i = 0 ∧ (v = 11 ∨ v = 12 ∨ v = 13)) ∨
    (i = 1 ∧ c = bigramMapper 2 21 22 23 ∧ ((j = 0 ∧ v = 21) ∨ (j = 1 ∧ v = 22) ∨ (j = 2 ∧ v = 23))) ∨
    (i = 2 ∧ c = bigramReducer ∧ (v = 31 ∨ v = 32 ∨ v = 33)) := by
  obtain ⟨-, r2, r3, -, r5⟩ := twoParts_reads
  match i, hi with
  | 0, hi =>
      obtain rfl : bigramMapper 1 11 12 13 = c := by simpa [twoParts] using hi
      rw [r3] at hj
      refine .inl ⟨rfl, ?_⟩
      match j, hj with
      | 0, hj => simp at hj; simp [← hj]
      | 1, hj => simp at hj; simp [← hj]
      | 2, hj => simp at hj; simp [← hj]
  | 1, hi =>
      obtain rfl : bigramMapper 2 21 22 23 = c := by simpa [twoParts] using hi
      rw [r2] at hj
      refine .inr (.inl ⟨rfl, rfl, ?_⟩)
      match j, hj with
      | 0, hj => simp at hj; simp [← hj]
      | 1, hj => simp at hj; simp [← hj]
      | 2, hj => simp at hj; simp [← hj]
  | 2, hi =>
      obtain rfl : bigramReducer = c := by simpa [twoParts] using hi
      rw [r5] at hj
      refine .inr (.inr ⟨rfl, rfl, ?_⟩)
      match j, hj with
      | 0, hj => simp at hj; simp [← hj]
      | 1, hj => simp at hj; simp [← hj]
      | 2, hj => simp at hj; simp [← hj]
  | n + 3, hi => simp [twoParts] at hi

/-- The second mapper reads, or it writes to its first output and will not get to its end. -/
private structure Stuck (prog : FilePrograms) (room : Nat) (y : Stream) (s : AllPorts PortCollecting) : Prop where
  reducer : s 2 = (collector prog).init bigramReducer
  open_ : ∀ j, (s 1).closed j = false
  empty : (s 1).outs 2 = []
  mapper : ((s 1).state = .reading 1 (y.take ((s 1).taken 0)) [] ∧ (s 1).outs 0 = []) ∨
    ∃ rest tail, (collector prog).act (bigramMapper 2 21 22 23) (s 1).state = emitNext (rest.map (0, ·) ++ tail) ∧
      (s 1).outs 0 ++ rest = bigrams y ∧ ((s 1).outs 0).length ≤ room

private theorem stuck_goes_on {prog : FilePrograms} {room : Nat} {y : Stream} (hy : room + 1 < y.length) {s : AllPorts PortCollecting}
    (h : Stuck prog room y s) : ((s 1).state = .reading 1 (y.take ((s 1).taken 0)) [] ∧ (s 1).outs 0 = []) ∨
    ∃ a rest tail, (collector prog).act (bigramMapper 2 21 22 23) (s 1).state =
      .write 0 a (.writing (rest.map (0, ·) ++ tail)) ∧ ((s 1).outs 0 ++ [a]) ++ rest = bigrams y ∧ ((s 1).outs 0).length ≤ room := by
  rcases h.mapper with h | ⟨rest, tail, h1, h2, h3⟩
  · exact .inl h
  · have hl := congrArg List.length h2
    rw [List.length_append, bigrams_length] at hl
    match rest, hl, h1, h2 with
    | [], hl, _, _ => simp at hl; omega
    | a :: rest, _, h1, h2 => exact .inr ⟨a, rest, tail, h1, by simpa using h2, h3⟩

private theorem stuck_last {prog : FilePrograms} {room : Nat} {y : Stream} (hy : room + 1 < y.length) {s : AllPorts PortCollecting}
    (h : Stuck prog room y s) {x : Stream} : (∀ z, PipeHolds twoParts ([1, 2].zip [x, y]) s 23 z → z = []) ∧
    ¬ PipeEnded (collector prog) twoParts ([1, 2].zip [x, y]) s 23 := by
  constructor
  · rintro z (hz | ⟨i, c, j, hi, hj, rfl⟩)
    · simp at hz
    · rcases twoParts_writer hi hj with ⟨-, hv⟩ | ⟨rfl, -, hv⟩ | ⟨-, -, hv⟩
      · exact absurd hv (by decide)
      · rcases hv with ⟨-, hv⟩ | ⟨-, hv⟩ | ⟨rfl, -⟩
        · exact absurd hv (by decide)
        · exact absurd hv (by decide)
        · exact h.empty
      · exact absurd hv (by decide)
  · rintro (⟨q, hq, e⟩ | ⟨i, c, j, hi, hj, hcl⟩)
    · simp at hq
      rcases hq with rfl | rfl <;> simp at e
    · rcases twoParts_writer hi hj with ⟨-, hv⟩ | ⟨rfl, rfl, hv⟩ | ⟨-, -, hv⟩
      · exact absurd hv (by decide)
      · rcases hcl with hcl | hcl
        · rw [h.open_] at hcl; cases hcl
        · rcases stuck_goes_on hy h with ⟨e, -⟩ | ⟨a, rest, tail, e, -⟩
          · rw [e] at hcl; cases hcl
          · rw [e] at hcl; cases hcl
      · exact absurd hv (by decide)

private theorem stuck_other {prog : FilePrograms} {room : Nat} {y : Stream} {s : AllPorts PortCollecting} (h : Stuck prog room y s)
    {i : Nat} (h1 : i ≠ 1) (h2 : i ≠ 2) (l : PortLocal PortCollecting) : Stuck prog room y (s.set i l) := by
  have e1 : s.set i l 1 = s 1 := by simp [AllPorts.set, Ne.symm h1]
  have e2 : s.set i l 2 = s 2 := by simp [AllPorts.set, Ne.symm h2]
  exact ⟨by rw [e2]; exact h.reducer, by rw [e1]; exact h.open_, by rw [e1]; exact h.empty, by rw [e1]; exact h.mapper⟩

private theorem stuck_one {prog : FilePrograms} {room : Nat} {y : Stream} {s : AllPorts PortCollecting} (h : Stuck prog room y s)
    {l : PortLocal PortCollecting} (ho : ∀ j, l.closed j = false) (he : l.outs 2 = [])
    (hm : (l.state = .reading 1 (y.take (l.taken 0)) [] ∧ l.outs 0 = []) ∨
      ∃ rest tail, (collector prog).act (bigramMapper 2 21 22 23) l.state = emitNext (rest.map (0, ·) ++ tail) ∧
        l.outs 0 ++ rest = bigrams y ∧ (l.outs 0).length ≤ room) : Stuck prog room y (s.set 1 l) := by
  have e1 : s.set 1 l 1 = l := by simp [AllPorts.set]
  have e2 : s.set 1 l 2 = s 2 := by simp [AllPorts.set]
  exact ⟨by rw [e2]; exact h.reducer, by rw [e1]; exact ho, by rw [e1]; exact he, by rw [e1]; exact hm⟩

theorem twoParts_given {s : AllPorts σ} {x y z : Stream} (h : PipeHolds twoParts ([1, 2].zip [x, y]) s 2 z) : z = y := by
  rcases h with h | ⟨i, c, j, hi, hj, rfl⟩
  · simpa using h
  · rcases twoParts_writer hi hj with ⟨-, hv⟩ | ⟨-, -, ⟨-, hv⟩ | ⟨-, hv⟩ | ⟨-, hv⟩⟩ | ⟨-, -, hv⟩ <;> exact absurd hv (by decide)

private theorem stuck_step {prog : FilePrograms} (hb : BigramPrograms prog) {size : IOVar → Nat} {x y : Stream}
    (hy : size 21 + 1 < y.length) {s t : AllPorts PortCollecting} (h : Stuck prog (size 21) y s)
    (hst : PortStep (collector prog) twoParts size ([1, 2].zip [x, y]) s t) : Stuck prog (size 21) y t := by
  obtain ⟨r1, r2, -, r4, -⟩ := twoParts_reads
  have hred : (collector prog).act bigramReducer (s 2).state = .read 5 fun
      | some a => .reading 6 ([] ++ [a]) []
      | none => .reading 5 [] ([] :: []) := by
    rw [h.reducer]; simp only [PortProcesses.init, collector, r4]; rfl
  have htaken : ∀ k, (s 2).taken k = 0 := by intro k; rw [h.reducer]; rfl
  have hat : ∀ {i : Nat} {c}, twoParts[i]? = some c → i ≠ 1 → i ≠ 2 ∨ (i = 2 ∧ c = bigramReducer) := by
    intro i c hi h1
    by_cases h2 : i = 2
    · subst h2; exact .inr ⟨rfl, by simpa [twoParts, eq_comm] using hi⟩
    · exact .inl h2
  have hat1 : ∀ {c}, twoParts[1]? = some c → c = bigramMapper 2 21 22 23 := by
    intro c hi; simpa [twoParts, eq_comm] using hi
  obtain ⟨hl1, hl2⟩ := stuck_last hy h (x := x)
  cases hst with
  | @get i k c v next z a hi ha hv hh hx =>
      by_cases h1 : i = 1
      · subst h1
        obtain rfl := hat1 hi
        rcases stuck_goes_on hy h with ⟨e, eo⟩ | ⟨a', rest, tail, e, -⟩
        · rw [e] at ha
          simp only [collector, PortAction.read.injEq] at ha
          obtain ⟨rfl, rfl⟩ := ha
          rw [r1] at hv
          obtain rfl : (2 : IOVar) = v := by simpa using hv
          obtain rfl := twoParts_given hh
          refine stuck_one h h.open_ h.empty (.inl ⟨?_, eo⟩)
          simp only [PortLocal.reads]
          simp [List.take_add_one, hx]
        · rw [e] at ha; cases ha
      · rcases hat hi h1 with h2 | ⟨rfl, rfl⟩
        · exact stuck_other h h1 h2 _
        · rw [hred] at ha
          simp only [PortAction.read.injEq] at ha
          obtain ⟨rfl, -⟩ := ha
          rw [r4] at hv
          obtain rfl : (23 : IOVar) = v := by simpa using hv
          obtain rfl := hl1 _ hh
          simp at hx
  | @atEnd i k c v next z hi ha hv hen hh hx =>
      by_cases h1 : i = 1
      · subst h1
        obtain rfl := hat1 hi
        rcases stuck_goes_on hy h with ⟨e, eo⟩ | ⟨a', rest, tail, e, -⟩
        · rw [e] at ha
          simp only [collector, PortAction.read.injEq] at ha
          obtain ⟨rfl, rfl⟩ := ha
          rw [r1] at hv
          obtain rfl : (2 : IOVar) = v := by simpa using hv
          obtain rfl := twoParts_given hh
          have hlen := List.getElem?_eq_none_iff.1 hx
          refine stuck_one h h.open_ h.empty (.inr ⟨bigrams z, inTurn 1 [z.take 1, z.getLast?.toList], ?_, by simp [PortLocal.reads, eo], by
            simp [PortLocal.reads, eo]⟩)
          simp only [PortLocal.reads, List.take_of_length_le hlen, collector]
          show emitNext (inTurn 0 (prog "bigram_aux_map" [z])) = _
          rw [hb.map]
          rfl
        · rw [e] at ha; cases ha
      · rcases hat hi h1 with h2 | ⟨rfl, rfl⟩
        · exact stuck_other h h1 h2 _
        · rw [hred] at ha
          simp only [PortAction.read.injEq] at ha
          obtain ⟨rfl, -⟩ := ha
          rw [r4] at hv
          obtain rfl : (23 : IOVar) = v := by simpa using hv
          exact absurd hen hl2
  | @noInput i k c next hi ha hv =>
      by_cases h1 : i = 1
      · subst h1
        obtain rfl := hat1 hi
        rcases stuck_goes_on hy h with ⟨e, eo⟩ | ⟨a', rest, tail, e, -⟩
        · rw [e] at ha
          simp only [collector, PortAction.read.injEq] at ha
          obtain ⟨rfl, rfl⟩ := ha
          rw [r1] at hv
          simp at hv
        · rw [e] at ha; cases ha
      · rcases hat hi h1 with h2 | ⟨rfl, rfl⟩
        · exact stuck_other h h1 h2 _
        · rw [hred] at ha
          simp only [PortAction.read.injEq] at ha
          obtain ⟨rfl, -⟩ := ha
          rw [r4] at hv
          simp at hv
  | @put i j c a next hi ha hr =>
      by_cases h1 : i = 1
      · subst h1
        obtain rfl := hat1 hi
        rcases stuck_goes_on hy h with ⟨e, eo⟩ | ⟨a', rest, tail, e, e2, -⟩
        · rw [e] at ha; cases ha
        · rw [e] at ha
          simp only [PortAction.write.injEq] at ha
          obtain ⟨rfl, rfl, rfl⟩ := ha
          have hroom := hr 21 (by rw [r2]; rfl) 2 bigramReducer 3 rfl (by rw [r4]; rfl) (by rw [hred]; simp) _
            (.inr ⟨1, _, 0, hi, by rw [r2]; rfl, rfl⟩)
          rw [htaken] at hroom
          refine stuck_one h h.open_ (by simp [PortLocal.writes, h.empty]) (.inr ⟨rest, tail, rfl, ?_, ?_⟩)
          · simpa [PortLocal.writes, h.open_] using e2
          · simp [PortLocal.writes, h.open_]; omega
      · rcases hat hi h1 with h2 | ⟨rfl, rfl⟩
        · exact stuck_other h h1 h2 _
        · rw [hred] at ha; cases ha
  | @close i j c next hi ha =>
      by_cases h1 : i = 1
      · subst h1
        obtain rfl := hat1 hi
        rcases stuck_goes_on hy h with ⟨e, eo⟩ | ⟨a', rest, tail, e, -⟩
        · rw [e] at ha; cases ha
        · rw [e] at ha; cases ha
      · rcases hat hi h1 with h2 | ⟨rfl, rfl⟩
        · exact stuck_other h h1 h2 _
        · rw [hred] at ha; cases ha

/-- C125 is false: whatever the sizes of the pipes are, there are two parts for which `bigrams_aux` should write something, and
processes that do what the programs do alone, such that whatever steps they take nothing is ever written to an output, and none
of the outputs ends. The aggregator reads its last input first, which is the last thing that a mapper writes. -/
theorem C125_false (prog : FilePrograms) (hb : BigramPrograms prog) (size : IOVar → Nat) :
    ∃ (c : CommandInvocationWithIOVars) (cmds : List CommandInvocationWithIOVars) (ins made outs : List IOVar) (parts ys : List Stream),
      AuxNetwork bigramPlan c ins cmds made outs ∧ parts.length = ins.length ∧ AuxExecutes prog bigramPlan c parts ys ∧
      (∃ y, ys.head? = some y ∧ y ≠ []) ∧
      ∃ (σ : Type) (ps : PortProcesses σ), DoWhatFiles ps prog ∧
        ∀ n t, PortRun ps cmds size (ins.zip parts) n t → ∀ v ∈ outs,
          (∀ z, PipeHolds cmds (ins.zip parts) t v z → z = []) ∧ ¬ PipeEnded ps cmds (ins.zip parts) t v := by
  let c : CommandInvocationWithIOVars := ⟨"bigrams_aux", [], [], some 0, some 10, []⟩
  let y : Stream := List.replicate (size 21 + 2) "a"
  have hy : size 21 + 1 < y.length := by simp [y]
  obtain ⟨ys, hys⟩ := C69_executable c rfl prog hb [["a"], y] (by simp)
  have hval := C69_bigrams_partial ⟨"bigrams_aux", [], []⟩ rfl bigramPlan ((offered_bigrams rfl _).2 rfl) c prog hb (["a"] ++ y)
    [["a"], y] (by simp [Split, bigramPlan]) (by simp [y, List.replicate_succ]) ys hys
  refine ⟨c, twoParts, [1, 2], _, [31, 32, 33], [["a"], y], ys, twoParts_network, rfl, hys, ⟨bigrams (["a"] ++ y), by rw [hval]; rfl, ?_⟩,
    _, collector prog, C125_processes prog, fun n t hr => ?_⟩
  · intro e
    have := congrArg List.length e
    rw [bigrams_length] at this
    simp [y] at this
  · have hs : Stuck prog (size 21) y t := by
      induction hr with
      | start h =>
          have h1 := h 1 (bigramMapper 2 21 22 23) rfl
          have h2 := h 2 bigramReducer rfl
          refine ⟨h2, by rw [h1]; exact fun _ => rfl, by rw [h1]; rfl, .inl ?_⟩
          rw [h1]
          simp [PortProcesses.init, collector, twoParts_reads.1]
      | step _ h ih => exact stuck_step hb hy ih h
    have hred : ∀ {i j : Nat} {d v}, twoParts[i]? = some d → (operandsWith d .streamOutput)[j]? = some v →
        v ∈ ([31, 32, 33] : List IOVar) → i = 2 ∧ d = bigramReducer := by
      intro i j d v hi hj hv
      rcases twoParts_writer hi hj with ⟨-, rfl | rfl | rfl⟩ | ⟨-, -, ⟨-, rfl⟩ | ⟨-, rfl⟩ | ⟨-, rfl⟩⟩ | ⟨h1, h2, -⟩
      all_goals first | exact ⟨h1, h2⟩ | exact absurd hv (by decide)
    intro v hv
    constructor
    · rintro z (hz | ⟨i, d, j, hi, hj, rfl⟩)
      · simp at hz
        rcases hz with ⟨rfl, -⟩ | ⟨rfl, -⟩ <;> exact absurd hv (by decide)
      · obtain ⟨rfl, -⟩ := hred hi hj hv
        rw [hs.reducer]; rfl
    · rintro (⟨q, hq, rfl⟩ | ⟨i, d, j, hi, hj, hcl⟩)
      · simp at hq
        rcases hq with rfl | rfl
        · exact absurd (show (1 : IOVar) ∈ ([31, 32, 33] : List IOVar) from hv) (by decide)
        · exact absurd (show (2 : IOVar) ∈ ([31, 32, 33] : List IOVar) from hv) (by decide)
      · obtain ⟨rfl, rfl⟩ := hred hi hj hv
        rw [hs.reducer] at hcl
        rcases hcl with hcl | hcl
        · cases hcl
        · simp only [PortProcesses.init, collector, twoParts_reads.2.2.2.1] at hcl
          cases hcl

/-- The programs, processes and commands that the theorems are about exist: for two parts of `bigrams_aux`. -/
example : AuxNetwork bigramPlan ⟨"bigrams_aux", [], [], some 0, some 10, []⟩ [1, 2] twoParts [11, 12, 13, 21, 22, 23, 31, 32, 33] [31, 32, 33] ∧
    0 < bigramPlan.infoMapperAggregator ∧ bigramPlan.coreAggregatorSpec = .funcString .custom2Ary "bigram_aux_reduce" true ∧
    parse "bigram_aux_reduce" = .ok ⟨"bigram_aux_reduce", [], []⟩ ∧
    WritesMany bigramProgs "bigram_aux_map" 1 3 ∧ WritesMany bigramProgs "bigram_aux_reduce" 6 3 ∧ BigramPrograms bigramProgs ∧
    DoWhatFiles (collector bigramProgs) bigramProgs := by
  refine ⟨twoParts_network, by decide, rfl, by decide +kernel, ?_, ?_, bigramProgs_ok, C125_processes _⟩
  · intro xs hxs
    obtain ⟨y, rfl⟩ := List.length_eq_one_iff.1 hxs
    rw [bigramProgs_ok.map]; rfl
  · intro xs hxs
    match xs, hxs with
    | [a, b, c, d, e, f], _ => rw [bigramProgs_ok.reduce]; rfl

end PashAnn
