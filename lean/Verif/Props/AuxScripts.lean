import Verif.Props.AuxBuffers

/-! C125, for commands written as one would write them for the shell. -/

namespace PashAnn
open Spec

/-- A process that reads some inputs to their ends, in a given order, and then writes each output to its end, the first output first. -/
inductive PortScript
  | reading (todo : List Nat) (cur : Stream) (got : List (Nat × Stream))
  | writing (todo : List (Nat × String))

/-- Write the next of these lines, or stop. -/
def emitLine : List (Nat × String) → PortAction PortScript
  | [] => .stop
  | (j, a) :: todo => .write j a (.writing todo)

/-- The order in which an aggregator for two parts with an output, a first and a last line each reads its inputs, if it is the script
`cat o1; paste t1 h2; cat o2; cat h1 > h; cat t2 > t`: the inputs are `o1 h1 t1 o2 h2 t2`. Other commands read in order. -/
def scriptOrder (c : CommandInvocationWithIOVars) : List Nat :=
  if (operandsWith c .streamInput).length = 6 then [0, 2, 4, 3, 1, 5] else List.range (operandsWith c .streamInput).length

/-- Processes of this kind for programs. -/
def scripted (prog : FilePrograms) : PortProcesses PortScript where
  start c := .reading (scriptOrder c) [] []
  act c
    | .reading (k :: todo) cur got => .read k fun
        | some a => .reading (k :: todo) (cur ++ [a]) got
        | none => .reading todo [] ((k, cur) :: got)
    | .reading [] _ got =>
        emitLine (inTurn 0 (prog c.cmdName ((List.range (operandsWith c .streamInput).length).map fun i => (got.lookup i).getD [])))
    | .writing todo => emitLine todo

private theorem scripted_input (prog : FilePrograms) (c : CommandInvocationWithIOVars) (ins : List Stream) (k : Nat) (todo : List Nat)
    (got : List (Nat × Stream)) :
    ∀ (rest pre : Stream) (s : PortLocal PortScript), ins[k]?.getD [] = pre ++ rest → s.taken k = pre.length →
      s.state = .reading (k :: todo) pre got →
      ∃ t, PortLeads (scripted prog) c ins s t ∧ t.state = .reading todo [] ((k, pre ++ rest) :: got) ∧
        (∀ j, j ≠ k → t.taken j = s.taken j) ∧ t.outs = s.outs ∧ t.closed = s.closed
  | [], pre, s, hx, ht, hs => by
      refine ⟨_, .one s, ?_⟩
      have : (ins[k]?.getD [])[s.taken k]? = none := by rw [hx, ht, List.append_nil]; simp
      simp only [portAlone, hs, scripted, this, PortLocal.reads]
      simp
  | a :: rest, pre, s, hx, ht, hs => by
      have h1 : (ins[k]?.getD [])[s.taken k]? = some a := by rw [hx, ht]; simp
      have hs1 : portAlone (scripted prog) c ins s = s.reads k (fun
          | some a => .reading (k :: todo) (pre ++ [a]) got
          | none => .reading todo [] ((k, pre) :: got)) (some a) := by
        simp only [portAlone, hs, scripted, h1]
      obtain ⟨t, t1, t2, t3, t4, t5⟩ := scripted_input prog c ins k todo got rest (pre ++ [a]) (portAlone (scripted prog) c ins s)
        (by rw [hx]; simp) (by rw [hs1]; simp [PortLocal.reads, ht]) (by rw [hs1]; rfl)
      refine ⟨t, (PortLeads.one s).trans t1, by rw [t2]; simp, fun j hj => ?_, ?_, ?_⟩
      · rw [t3 j hj, hs1]; simp [PortLocal.reads, hj]
      · rw [t4, hs1]; rfl
      · rw [t5, hs1]; rfl

private theorem scripted_inputs (prog : FilePrograms) (c : CommandInvocationWithIOVars) (ins : List Stream) :
    ∀ (todo : List Nat) (got : List (Nat × Stream)) (s : PortLocal PortScript), todo.Nodup → s.state = .reading todo [] got →
      (∀ j ∈ todo, s.taken j = 0) →
      ∃ t got', PortLeads (scripted prog) c ins s t ∧ t.state = .reading [] [] got' ∧ t.outs = s.outs ∧ t.closed = s.closed ∧
        (∀ i ∈ todo, got'.lookup i = some (ins[i]?.getD [])) ∧ ∀ i, i ∉ todo → got'.lookup i = got.lookup i
  | [], got, s, _, hs, _ => ⟨s, got, ⟨0, rfl⟩, hs, rfl, rfl, by simp, fun _ _ => rfl⟩
  | k :: todo, got, s, hn, hs, ht => by
      obtain ⟨hk, hn⟩ := List.nodup_cons.1 hn
      obtain ⟨t, t1, t2, t3, t4, t5⟩ := scripted_input prog c ins k todo got (ins[k]?.getD []) [] s rfl (ht k List.mem_cons_self) hs
      obtain ⟨u, got', u1, u2, u3, u4, u5, u6⟩ := scripted_inputs prog c ins todo _ t hn t2 (by
        intro j hj; rw [t3 j (fun e => hk (e ▸ hj)), ht j (List.mem_cons_of_mem _ hj)])
      refine ⟨u, got', t1.trans u1, u2, u3.trans t4, u4.trans t5, fun i hi => ?_, fun i hi => ?_⟩
      · rcases List.mem_cons.1 hi with rfl | hi
        · rw [u6 i hk]; simp
        · exact u5 i hi
      · obtain ⟨h1, h2⟩ := not_or.1 (fun h => hi (List.mem_cons.2 h))
        rw [u6 i h2, List.lookup_cons, show (i == k) = false by simpa using h1]

private theorem scripted_outputs (prog : FilePrograms) (c : CommandInvocationWithIOVars) (ins : List Stream) :
    ∀ (todo : List (Nat × String)) (s : PortLocal PortScript), (scripted prog).act c s.state = emitLine todo → (∀ j, s.closed j = false) →
      ∃ t, PortLeads (scripted prog) c ins s t ∧ (scripted prog).act c t.state = .stop ∧
        ∀ j, t.outs j = s.outs j ++ (todo.filter (·.1 == j)).map (·.2)
  | [], s, hs, _ => ⟨s, ⟨0, rfl⟩, hs, by simp⟩
  | (i, a) :: todo, s, hs, hc => by
      have hs1 : portAlone (scripted prog) c ins s = s.writes i a (.writing todo) := by
        simp only [portAlone, hs, emitLine]
      obtain ⟨t, t1, t2, t3⟩ := scripted_outputs prog c ins todo (portAlone (scripted prog) c ins s) (by rw [hs1]; rfl) (by
        rw [hs1]; exact hc)
      refine ⟨t, (PortLeads.one s).trans t1, t2, fun j => ?_⟩
      rw [t3 j, hs1]
      by_cases h : j = i
      · subst h; simp [PortLocal.writes, hc]
      · have h' : ¬ i = j := fun e => h e.symm
        simp [PortLocal.writes, h, h']

/-- C125: these processes do what the programs do. -/
theorem C125_scripts (prog : FilePrograms) : DoWhatFiles (scripted prog) prog := by
  intro c ins hlen
  have hord : (scriptOrder c).Nodup ∧ ∀ i < (operandsWith c .streamInput).length, i ∈ scriptOrder c := by
    unfold scriptOrder
    split
    · rename_i h
      rw [h]
      exact ⟨by decide, by decide⟩
    · exact ⟨List.nodup_range, fun i hi => List.mem_range.2 hi⟩
  obtain ⟨t, got, t1, t2, t3, t4, t5, -⟩ := scripted_inputs prog c ins (scriptOrder c) [] ((scripted prog).init c) hord.1 rfl
    (fun _ _ => rfl)
  have hins : ((List.range (operandsWith c .streamInput).length).map fun i => (got.lookup i).getD []) = ins := by
    refine List.ext_getElem (by simp [hlen]) fun i h1 h2 => ?_
    simp only [List.getElem_map, List.getElem_range]
    rw [t5 i (hord.2 i (by omega)), List.getElem?_eq_getElem h2]
    rfl
  obtain ⟨u, u1, u2, u3⟩ := scripted_outputs prog c ins (inTurn 0 (prog c.cmdName ins)) t (by
    rw [t2]; simp only [scripted, hins]) (by intro j; rw [t4]; rfl)
  obtain ⟨n, hn⟩ := t1.trans u1
  refine ⟨n, ?_, fun j => ?_⟩
  · rw [portLeads_for, hn]; exact u2
  · rw [portLeads_for, hn, u3, t3, inTurn_filter]; simp [PortProcesses.init]

/-- The second mapper reads, or it writes to its first output and will not get to its end; the aggregator has not got past the first
line of the second part. -/
private structure Jammed (prog : FilePrograms) (room : Nat) (y : Stream) (s : AllPorts PortScript) : Prop where
  reducer : ∃ todo cur got, (s 2).state = .reading todo cur got ∧
    (todo = [0, 2, 4, 3, 1, 5] ∨ todo = [2, 4, 3, 1, 5] ∨ todo = [4, 3, 1, 5])
  untouched : (s 2).taken 3 = 0
  unread : (s 2).taken 4 = 0
  silent : ∀ j, (s 2).outs j = []
  going : ∀ j, (s 2).closed j = false
  open_ : ∀ j, (s 1).closed j = false
  empty : (s 1).outs 1 = []
  mapper : ((s 1).state = .reading [0] (y.take ((s 1).taken 0)) [] ∧ (s 1).outs 0 = []) ∨
    ∃ rest tail, (scripted prog).act (bigramMapper 2 21 22 23) (s 1).state = emitLine (rest.map (0, ·) ++ tail) ∧
      (s 1).outs 0 ++ rest = bigrams y ∧ ((s 1).outs 0).length ≤ room

private theorem jammed_goes_on {prog : FilePrograms} {room : Nat} {y : Stream} (hy : room + 1 < y.length) {s : AllPorts PortScript}
    (h : Jammed prog room y s) : ((s 1).state = .reading [0] (y.take ((s 1).taken 0)) [] ∧ (s 1).outs 0 = []) ∨
    ∃ a rest tail, (scripted prog).act (bigramMapper 2 21 22 23) (s 1).state =
      .write 0 a (.writing (rest.map (0, ·) ++ tail)) ∧ ((s 1).outs 0 ++ [a]) ++ rest = bigrams y ∧ ((s 1).outs 0).length ≤ room := by
  rcases h.mapper with h | ⟨rest, tail, h1, h2, h3⟩
  · exact .inl h
  · have hl := congrArg List.length h2
    rw [List.length_append, bigrams_length] at hl
    match rest, hl, h1, h2 with
    | [], hl, _, _ => simp at hl; omega
    | a :: rest, _, h1, h2 => exact .inr ⟨a, rest, tail, h1, by simpa using h2, h3⟩

private theorem jammed_first {prog : FilePrograms} {room : Nat} {y : Stream} (hy : room + 1 < y.length) {s : AllPorts PortScript}
    (h : Jammed prog room y s) {x : Stream} : (∀ z, PipeHolds twoParts ([1, 2].zip [x, y]) s 22 z → z = []) ∧
    ¬ PipeEnded (scripted prog) twoParts ([1, 2].zip [x, y]) s 22 := by
  constructor
  · rintro z (hz | ⟨i, c, j, hi, hj, rfl⟩)
    · simp at hz
    · rcases twoParts_writer hi hj with ⟨-, hv⟩ | ⟨rfl, -, hv⟩ | ⟨-, -, hv⟩
      · exact absurd hv (by decide)
      · rcases hv with ⟨-, hv⟩ | ⟨rfl, -⟩ | ⟨-, hv⟩
        · exact absurd hv (by decide)
        · exact h.empty
        · exact absurd hv (by decide)
      · exact absurd hv (by decide)
  · rintro (⟨q, hq, e⟩ | ⟨i, c, j, hi, hj, hcl⟩)
    · simp at hq
      rcases hq with rfl | rfl <;> simp at e
    · rcases twoParts_writer hi hj with ⟨-, hv⟩ | ⟨rfl, rfl, hv⟩ | ⟨-, -, hv⟩
      · exact absurd hv (by decide)
      · rcases hcl with hcl | hcl
        · rw [h.open_] at hcl; cases hcl
        · rcases jammed_goes_on hy h with ⟨e, -⟩ | ⟨a, rest, tail, e, -⟩
          · rw [e] at hcl; cases hcl
          · rw [e] at hcl; cases hcl
      · exact absurd hv (by decide)

private theorem jammed_other {prog : FilePrograms} {room : Nat} {y : Stream} {s : AllPorts PortScript} (h : Jammed prog room y s)
    {i : Nat} (h1 : i ≠ 1) (h2 : i ≠ 2) (l : PortLocal PortScript) : Jammed prog room y (s.set i l) := by
  have e1 : s.set i l 1 = s 1 := by simp [AllPorts.set, Ne.symm h1]
  have e2 : s.set i l 2 = s 2 := by simp [AllPorts.set, Ne.symm h2]
  exact ⟨by rw [e2]; exact h.reducer, by rw [e2]; exact h.untouched, by rw [e2]; exact h.unread, by rw [e2]; exact h.silent,
    by rw [e2]; exact h.going, by rw [e1]; exact h.open_, by rw [e1]; exact h.empty, by rw [e1]; exact h.mapper⟩

private theorem jammed_one {prog : FilePrograms} {room : Nat} {y : Stream} {s : AllPorts PortScript} (h : Jammed prog room y s)
    {l : PortLocal PortScript} (ho : ∀ j, l.closed j = false) (he : l.outs 1 = [])
    (hm : (l.state = .reading [0] (y.take (l.taken 0)) [] ∧ l.outs 0 = []) ∨
      ∃ rest tail, (scripted prog).act (bigramMapper 2 21 22 23) l.state = emitLine (rest.map (0, ·) ++ tail) ∧
        l.outs 0 ++ rest = bigrams y ∧ (l.outs 0).length ≤ room) : Jammed prog room y (s.set 1 l) := by
  have e1 : s.set 1 l 1 = l := by simp [AllPorts.set]
  have e2 : s.set 1 l 2 = s 2 := by simp [AllPorts.set]
  exact ⟨by rw [e2]; exact h.reducer, by rw [e2]; exact h.untouched, by rw [e2]; exact h.unread, by rw [e2]; exact h.silent,
    by rw [e2]; exact h.going, by rw [e1]; exact ho, by rw [e1]; exact he, by rw [e1]; exact hm⟩

private theorem jammed_two {prog : FilePrograms} {room : Nat} {y : Stream} {s : AllPorts PortScript} (h : Jammed prog room y s)
    {l : PortLocal PortScript} (hr : ∃ todo cur got, l.state = .reading todo cur got ∧
      (todo = [0, 2, 4, 3, 1, 5] ∨ todo = [2, 4, 3, 1, 5] ∨ todo = [4, 3, 1, 5])) (h3 : l.taken 3 = 0) (h4 : l.taken 4 = 0)
    (ho : l.outs = (s 2).outs) (hc : l.closed = (s 2).closed) : Jammed prog room y (s.set 2 l) := by
  have e1 : s.set 2 l 1 = s 1 := by simp [AllPorts.set]
  have e2 : s.set 2 l 2 = l := by simp [AllPorts.set]
  exact ⟨by rw [e2]; exact hr, by rw [e2]; exact h3, by rw [e2]; exact h4, by rw [e2, ho]; exact h.silent,
    by rw [e2, hc]; exact h.going, by rw [e1]; exact h.open_, by rw [e1]; exact h.empty, by rw [e1]; exact h.mapper⟩

/-- What the aggregator does next: it reads, and not from the output of the second part. -/
private theorem jammed_reads {prog : FilePrograms} {room : Nat} {y : Stream} {s : AllPorts PortScript} (h : Jammed prog room y s) :
    ∃ k next, (scripted prog).act bigramReducer (s 2).state = .read k next ∧ (k = 0 ∨ k = 2 ∨ k = 4) ∧
      (∀ a, ∃ todo cur got, next (some a) = .reading todo cur got ∧
        (todo = [0, 2, 4, 3, 1, 5] ∨ todo = [2, 4, 3, 1, 5] ∨ todo = [4, 3, 1, 5])) ∧
      (k ≠ 4 → ∃ todo cur got, next none = .reading todo cur got ∧
        (todo = [0, 2, 4, 3, 1, 5] ∨ todo = [2, 4, 3, 1, 5] ∨ todo = [4, 3, 1, 5])) := by
  obtain ⟨todo, cur, got, e, rfl | rfl | rfl⟩ := h.reducer
  · rw [e]
    exact ⟨0, _, rfl, by simp, fun a => ⟨_, _, _, rfl, .inl rfl⟩, fun _ => ⟨_, _, _, rfl, .inr (.inl rfl)⟩⟩
  · rw [e]
    exact ⟨2, _, rfl, by simp, fun a => ⟨_, _, _, rfl, .inr (.inl rfl)⟩, fun _ => ⟨_, _, _, rfl, .inr (.inr rfl)⟩⟩
  · rw [e]
    exact ⟨4, _, rfl, by simp, fun a => ⟨_, _, _, rfl, .inr (.inr rfl)⟩, fun h => absurd rfl h⟩

private theorem jammed_step {prog : FilePrograms} (hb : BigramPrograms prog) {size : IOVar → Nat} {x y : Stream}
    (hy : size 21 + 1 < y.length) {s t : AllPorts PortScript} (h : Jammed prog (size 21) y s)
    (hst : PortStep (scripted prog) twoParts size ([1, 2].zip [x, y]) s t) : Jammed prog (size 21) y t := by
  obtain ⟨r1, r2, -, r4, -⟩ := twoParts_reads
  obtain ⟨kr, nr, hred, hkr, hsome, hnone⟩ := jammed_reads h
  have hat : ∀ {i : Nat} {c}, twoParts[i]? = some c → i ≠ 1 → i ≠ 2 ∨ (i = 2 ∧ c = bigramReducer) := by
    intro i c hi h1
    by_cases h2 : i = 2
    · subst h2; exact .inr ⟨rfl, by simpa [twoParts, eq_comm] using hi⟩
    · exact .inl h2
  have hat1 : ∀ {c}, twoParts[1]? = some c → c = bigramMapper 2 21 22 23 := by
    intro c hi; simpa [twoParts, eq_comm] using hi
  obtain ⟨hl1, hl2⟩ := jammed_first hy h (x := x)
  cases hst with
  | @get i k c v next z a hi ha hv hh hx =>
      by_cases h1 : i = 1
      · subst h1
        obtain rfl := hat1 hi
        rcases jammed_goes_on hy h with ⟨e, eo⟩ | ⟨a', rest, tail, e, -⟩
        · rw [e] at ha
          simp only [scripted, PortAction.read.injEq] at ha
          obtain ⟨rfl, rfl⟩ := ha
          rw [r1] at hv
          obtain rfl : (2 : IOVar) = v := by simpa using hv
          obtain rfl := twoParts_given hh
          refine jammed_one h h.open_ h.empty (.inl ⟨?_, eo⟩)
          simp only [PortLocal.reads]
          simp [List.take_add_one, hx]
        · rw [e] at ha; cases ha
      · rcases hat hi h1 with h2 | ⟨rfl, rfl⟩
        · exact jammed_other h h1 h2 _
        · rw [hred] at ha
          simp only [PortAction.read.injEq] at ha
          obtain ⟨rfl, rfl⟩ := ha
          have hk4 : kr ≠ 4 := by
            rintro rfl
            rw [r4] at hv
            obtain rfl : (22 : IOVar) = v := by simpa using hv
            obtain rfl := hl1 _ hh
            simp at hx
          have hk3 : kr ≠ 3 := by omega
          refine jammed_two h (hsome a) ?_ ?_ rfl rfl
          · simp [PortLocal.reads, Ne.symm hk3, h.untouched]
          · simp [PortLocal.reads, Ne.symm hk4, h.unread]
  | @atEnd i k c v next z hi ha hv hen hh hx =>
      by_cases h1 : i = 1
      · subst h1
        obtain rfl := hat1 hi
        rcases jammed_goes_on hy h with ⟨e, eo⟩ | ⟨a', rest, tail, e, -⟩
        · rw [e] at ha
          simp only [scripted, PortAction.read.injEq] at ha
          obtain ⟨rfl, rfl⟩ := ha
          rw [r1] at hv
          obtain rfl : (2 : IOVar) = v := by simpa using hv
          obtain rfl := twoParts_given hh
          have hlen := List.getElem?_eq_none_iff.1 hx
          refine jammed_one h h.open_ h.empty (.inr ⟨bigrams z, inTurn 1 [z.take 1, z.getLast?.toList], ?_, by simp [PortLocal.reads, eo], by
            simp [PortLocal.reads, eo]⟩)
          simp only [PortLocal.reads, List.take_of_length_le hlen, scripted, r1]
          show emitLine (inTurn 0 (prog "bigram_aux_map" [z])) = _
          rw [hb.map]
          rfl
        · rw [e] at ha; cases ha
      · rcases hat hi h1 with h2 | ⟨rfl, rfl⟩
        · exact jammed_other h h1 h2 _
        · rw [hred] at ha
          simp only [PortAction.read.injEq] at ha
          obtain ⟨rfl, rfl⟩ := ha
          have hk4 : kr ≠ 4 := by
            rintro rfl
            rw [r4] at hv
            obtain rfl : (22 : IOVar) = v := by simpa using hv
            exact hl2 hen
          refine jammed_two h (hnone hk4) ?_ ?_ rfl rfl
          · simp [PortLocal.reads, h.untouched]
          · simp [PortLocal.reads, h.unread]
  | @noInput i k c next hi ha hv =>
      by_cases h1 : i = 1
      · subst h1
        obtain rfl := hat1 hi
        rcases jammed_goes_on hy h with ⟨e, eo⟩ | ⟨a', rest, tail, e, -⟩
        · rw [e] at ha
          simp only [scripted, PortAction.read.injEq] at ha
          obtain ⟨rfl, rfl⟩ := ha
          rw [r1] at hv
          simp at hv
        · rw [e] at ha; cases ha
      · rcases hat hi h1 with h2 | ⟨rfl, rfl⟩
        · exact jammed_other h h1 h2 _
        · rw [hred] at ha
          simp only [PortAction.read.injEq] at ha
          obtain ⟨rfl, -⟩ := ha
          rw [r4] at hv
          rcases hkr with rfl | rfl | rfl <;> simp at hv
  | @put i j c a next hi ha hr =>
      by_cases h1 : i = 1
      · subst h1
        obtain rfl := hat1 hi
        rcases jammed_goes_on hy h with ⟨e, eo⟩ | ⟨a', rest, tail, e, e2, -⟩
        · rw [e] at ha; cases ha
        · rw [e] at ha
          simp only [PortAction.write.injEq] at ha
          obtain ⟨rfl, rfl, rfl⟩ := ha
          have hroom := hr 21 (by rw [r2]; rfl) 2 bigramReducer 3 rfl (by rw [r4]; rfl) (by rw [hred]; simp) _
            (.inr ⟨1, _, 0, hi, by rw [r2]; rfl, rfl⟩)
          rw [h.untouched] at hroom
          refine jammed_one h h.open_ (by simp [PortLocal.writes, h.empty]) (.inr ⟨rest, tail, rfl, ?_, ?_⟩)
          · simpa [PortLocal.writes, h.open_] using e2
          · simp [PortLocal.writes, h.open_]; omega
      · rcases hat hi h1 with h2 | ⟨rfl, rfl⟩
        · exact jammed_other h h1 h2 _
        · rw [hred] at ha; cases ha
  | @close i j c next hi ha =>
      by_cases h1 : i = 1
      · subst h1
        obtain rfl := hat1 hi
        rcases jammed_goes_on hy h with ⟨e, eo⟩ | ⟨a', rest, tail, e, -⟩
        · rw [e] at ha; cases ha
        · rw [e] at ha; cases ha
      · rcases hat hi h1 with h2 | ⟨rfl, rfl⟩
        · exact jammed_other h h1 h2 _
        · rw [hred] at ha; cases ha

/-- C125 is false for commands as one would write them, too: whatever the sizes of the pipes are, there are two parts for which
`bigrams_aux` should write something, and if the mappers read their input and write their outputs in order, and the aggregator
reads in the order of the script `cat o1; paste t1 h2; cat o2; …`, then whatever steps they take nothing is ever written to an
output, and none of the outputs ends: the aggregator waits for the first line of the second part, and the second mapper waits for
room for its output. -/
theorem C125_scripts_false (prog : FilePrograms) (hb : BigramPrograms prog) (size : IOVar → Nat) :
    DoWhatFiles (scripted prog) prog ∧
    ∃ (c : CommandInvocationWithIOVars) (cmds : List CommandInvocationWithIOVars) (ins made outs : List IOVar) (parts ys : List Stream),
      AuxNetwork bigramPlan c ins cmds made outs ∧ parts.length = ins.length ∧ AuxExecutes prog bigramPlan c parts ys ∧
      (∃ y, ys.head? = some y ∧ y ≠ []) ∧
      ∀ n t, PortRun (scripted prog) cmds size (ins.zip parts) n t → ∀ v ∈ outs,
        (∀ z, PipeHolds cmds (ins.zip parts) t v z → z = []) ∧ ¬ PipeEnded (scripted prog) cmds (ins.zip parts) t v := by
  refine ⟨C125_scripts prog, ?_⟩
  let c : CommandInvocationWithIOVars := ⟨"bigrams_aux", [], [], some 0, some 10, []⟩
  let y : Stream := List.replicate (size 21 + 2) "a"
  have hy : size 21 + 1 < y.length := by simp [y]
  obtain ⟨ys, hys⟩ := C69_executable c rfl prog hb [["a"], y] (by simp)
  have hval := C69_bigrams_partial ⟨"bigrams_aux", [], []⟩ rfl bigramPlan ((offered_bigrams rfl _).2 rfl) c prog hb (["a"] ++ y)
    [["a"], y] (by simp [Split, bigramPlan]) (by simp [y, List.replicate_succ]) ys hys
  refine ⟨c, twoParts, [1, 2], _, [31, 32, 33], [["a"], y], ys, twoParts_network, rfl, hys, ⟨bigrams (["a"] ++ y), by rw [hval]; rfl, ?_⟩,
    fun n t hr => ?_⟩
  · intro e
    have := congrArg List.length e
    rw [bigrams_length] at this
    simp [y] at this
  · have hs : Jammed prog (size 21) y t := by
      induction hr with
      | start h =>
          have h1 := h 1 (bigramMapper 2 21 22 23) rfl
          have h2 := h 2 bigramReducer rfl
          refine ⟨⟨_, _, _, by rw [h2]; rfl, .inl ?_⟩, by rw [h2]; rfl, by rw [h2]; rfl, by rw [h2]; exact fun _ => rfl,
            by rw [h2]; exact fun _ => rfl, by rw [h1]; exact fun _ => rfl, by rw [h1]; rfl, .inl ?_⟩
          · simp [scriptOrder, twoParts_reads.2.2.2.1]
          · rw [h1]
            simp [PortProcesses.init, scripted, scriptOrder, twoParts_reads.1, List.range_succ]
      | step _ h ih => exact jammed_step hb hy ih h
    have hred : ∀ {i j : Nat} {d v}, twoParts[i]? = some d → (operandsWith d .streamOutput)[j]? = some v →
        v ∈ ([31, 32, 33] : List IOVar) → i = 2 ∧ d = bigramReducer := by
      intro i j d v hi hj hv
      rcases twoParts_writer hi hj with ⟨-, rfl | rfl | rfl⟩ | ⟨-, -, ⟨-, rfl⟩ | ⟨-, rfl⟩ | ⟨-, rfl⟩⟩ | ⟨h1, h2, -⟩
      all_goals first | exact ⟨h1, h2⟩ | exact absurd hv (by decide)
    intro v hv
    constructor
    · rintro z (hz | ⟨i, d, j, hi, hj, rfl⟩)
      · simp at hz
        rcases hz with ⟨rfl, -⟩ | ⟨rfl, -⟩ <;> exact absurd hv (by decide)
      · obtain ⟨rfl, -⟩ := hred hi hj hv
        exact hs.silent j
    · rintro (⟨q, hq, rfl⟩ | ⟨i, d, j, hi, hj, hcl⟩)
      · simp at hq
        rcases hq with rfl | rfl
        · exact absurd (show (1 : IOVar) ∈ ([31, 32, 33] : List IOVar) from hv) (by decide)
        · exact absurd (show (2 : IOVar) ∈ ([31, 32, 33] : List IOVar) from hv) (by decide)
      · obtain ⟨rfl, rfl⟩ := hred hi hj hv
        rcases hcl with hcl | hcl
        · rw [hs.going] at hcl; cases hcl
        · obtain ⟨k, next, e, -⟩ := jammed_reads hs
          rw [e] at hcl; cases hcl

/-- The programs exist. -/
example : BigramPrograms bigramProgs := bigramProgs_ok

end PashAnn
