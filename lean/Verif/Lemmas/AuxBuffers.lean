import Verif.Spec.AuxBuffers
import Verif.Lemmas.AuxSchedules

/-! Lemmas for Props/AuxBuffers.lean: a process in a network does what it does alone with the inputs as they are in the end. -/

namespace PashAnn
open Spec

variable {σ : Type}

private theorem portAlone_stop {ps : PortProcesses σ} {c : CommandInvocationWithIOVars} {ins : List Stream} {n : Nat}
    (h : ps.act c (portAloneFor ps c ins n).state = .stop) : ∀ k, portAloneFor ps c ins (n + k) = portAloneFor ps c ins n := by
  intro k
  induction k with
  | zero => rfl
  | succ k ih =>
      rw [show n + (k + 1) = (n + k) + 1 by omega, portAloneFor, ih, portAlone, h]

theorem portAlone_grow {ps : PortProcesses σ} {c : CommandInvocationWithIOVars} {ins : List Stream} (s : PortLocal σ) (j : Nat) :
    s.outs j <+: (portAlone ps c ins s).outs j ∧
    (s.closed j = true → (portAlone ps c ins s).closed j = true ∧ (portAlone ps c ins s).outs j = s.outs j) := by
  unfold portAlone
  split
  · exact ⟨List.prefix_rfl, fun h => ⟨h, rfl⟩⟩
  · rename_i j' a next _
    constructor
    · simp only [PortLocal.writes]
      split
      · exact List.prefix_append _ _
      · exact List.prefix_rfl
    · intro h
      refine ⟨h, ?_⟩
      simp only [PortLocal.writes]
      split
      · rename_i hj
        rw [← hj.1, h] at hj
        simp at hj
      · rfl
  · refine ⟨List.prefix_rfl, fun h => ⟨?_, rfl⟩⟩
    simp only [PortLocal.closes]
    split
    · rfl
    · exact h
  · exact ⟨List.prefix_rfl, fun h => ⟨h, rfl⟩⟩

private theorem portAlone_later {ps : PortProcesses σ} {c : CommandInvocationWithIOVars} {ins : List Stream} (n j k : Nat) :
    (portAloneFor ps c ins n).outs j <+: (portAloneFor ps c ins (n + k)).outs j ∧
    ((portAloneFor ps c ins n).closed j = true → (portAloneFor ps c ins (n + k)).closed j = true ∧
      (portAloneFor ps c ins (n + k)).outs j = (portAloneFor ps c ins n).outs j) := by
  induction k with
  | zero => exact ⟨List.prefix_rfl, fun h => ⟨h, rfl⟩⟩
  | succ k ih =>
      obtain ⟨h1, h2⟩ := portAlone_grow (ps := ps) (c := c) (ins := ins) (portAloneFor ps c ins (n + k)) j
      refine ⟨ih.1.trans h1, fun h => ?_⟩
      obtain ⟨h3, h4⟩ := ih.2 h
      obtain ⟨h5, h6⟩ := h2 h3
      exact ⟨h5, h6.trans h4⟩

/-- What a process has written is a beginning of what it writes, and all of it if it has closed the output or has stopped. -/
theorem portAlone_prefix {ps : PortProcesses σ} {prog : FilePrograms} (hps : DoWhatFiles ps prog) {c : CommandInvocationWithIOVars}
    {ins : List Stream} (hlen : ins.length = (operandsWith c .streamInput).length) (n j : Nat) :
    (portAloneFor ps c ins n).outs j <+: ((prog c.cmdName ins)[j]?).getD [] ∧
    ((portAloneFor ps c ins n).closed j = true ∨ ps.act c (portAloneFor ps c ins n).state = .stop →
      (portAloneFor ps c ins n).outs j = ((prog c.cmdName ins)[j]?).getD []) := by
  obtain ⟨m, hm, ho⟩ := hps c ins hlen
  have hmn : (portAloneFor ps c ins (n + m)).outs j = ((prog c.cmdName ins)[j]?).getD [] := by
    rw [Nat.add_comm, portAlone_stop hm, ho]
  obtain ⟨h1, h2⟩ := portAlone_later (ps := ps) (c := c) (ins := ins) n j m
  rw [hmn] at h1 h2
  refine ⟨h1, ?_⟩
  rintro (h | h)
  · exact ((h2 h).2).symm
  · rw [← hmn, portAlone_stop h]

/-- Each process is where it is after some steps alone. -/
def AsAlone (ps : PortProcesses σ) (cmds : List CommandInvocationWithIOVars) (env : IOVar → Stream) (s : AllPorts σ) : Prop :=
  ∀ (i : Nat) c, cmds[i]? = some c → ∃ n, s i = portAloneFor ps c ((operandsWith c .streamInput).map env) n

variable {ps : PortProcesses σ} {prog : FilePrograms} {cmds : List CommandInvocationWithIOVars} {given : List (IOVar × Stream)}
  {env : IOVar → Stream} {s t : AllPorts σ}

theorem writer_content (he : WriterEnds (cmds.flatMap (writersOf prog)) given env) {c : CommandInvocationWithIOVars} (hc : c ∈ cmds)
    {j : Nat} {v : IOVar} (hv : (operandsWith c .streamOutput)[j]? = some v) :
    env v = ((prog c.cmdName ((operandsWith c .streamInput).map env))[j]?).getD [] := by
  have hu : (⟨v, operandsWith c .streamInput, fun xs => ((prog c.cmdName xs)[j]?).getD []⟩ : Writer) ∈ cmds.flatMap (writersOf prog) := by
    refine List.mem_flatMap.2 ⟨c, hc, ?_⟩
    unfold writersOf
    obtain ⟨hj, hjv⟩ := List.getElem?_eq_some_iff.1 hv
    refine List.mem_mapIdx.2 ⟨j, hj, ?_⟩
    rw [hjv]
  exact he.made _ hu

theorem holds_prefix (hps : DoWhatFiles ps prog) (he : WriterEnds (cmds.flatMap (writersOf prog)) given env)
    (hs : AsAlone ps cmds env s) {v : IOVar} {x : Stream} (h : PipeHolds cmds given s v x) : x <+: env v := by
  rcases h with h | ⟨i, c, j, hi, hj, rfl⟩
  · rw [show env v = x from he.given _ h]; exact List.prefix_rfl
  · obtain ⟨n, hn⟩ := hs i c hi
    rw [writer_content he (List.mem_of_getElem? hi) hj, hn]
    exact (portAlone_prefix hps (by simp) n j).1

theorem flatMap_index_unique {α β : Type} (f : α → List β) : ∀ (l : List α), (l.flatMap f).Nodup →
    ∀ (i i' j j' : Nat) (a a' : α) (b : β), l[i]? = some a → l[i']? = some a' → (f a)[j]? = some b → (f a')[j']? = some b →
      i = i' ∧ j = j'
  | [], _ => by intro i i' j j' a a' b h; simp at h
  | x :: l, hn => by
      intro i i' j j' a a' b h h' hj hj'
      rw [List.flatMap_cons, List.nodup_append] at hn
      obtain ⟨h1, h2, h3⟩ := hn
      match i, i', h, h' with
      | 0, 0, h, h' =>
          simp only [List.length_cons, Nat.zero_lt_succ, List.getElem?_eq_getElem, List.getElem_cons_zero, Option.some.injEq] at h h'
          subst h; subst h'
          exact ⟨rfl, (List.getElem?_inj (List.getElem?_eq_some_iff.1 hj).1 h1).1 (hj.trans hj'.symm)⟩
      | 0, i' + 1, h, h' =>
          simp only [List.length_cons, Nat.zero_lt_succ, List.getElem?_eq_getElem, List.getElem_cons_zero, Option.some.injEq] at h
          subst h
          rw [List.getElem?_cons_succ] at h'
          exact absurd rfl (h3 _ (List.mem_of_getElem? hj) _ (List.mem_flatMap.2 ⟨a', List.mem_of_getElem? h', List.mem_of_getElem? hj'⟩))
      | i + 1, 0, h, h' =>
          simp only [List.length_cons, Nat.zero_lt_succ, List.getElem?_eq_getElem, List.getElem_cons_zero, Option.some.injEq] at h'
          subst h'
          rw [List.getElem?_cons_succ] at h
          exact absurd rfl (h3 _ (List.mem_of_getElem? hj') _ (List.mem_flatMap.2 ⟨a, List.mem_of_getElem? h, List.mem_of_getElem? hj⟩))
      | i + 1, i' + 1, h, h' =>
          rw [List.getElem?_cons_succ] at h h'
          obtain ⟨e, e'⟩ := flatMap_index_unique f l h2 _ _ _ _ _ _ _ h h' hj hj'
          exact ⟨by rw [e], e'⟩

theorem holds_ended (hps : DoWhatFiles ps prog) (he : WriterEnds (cmds.flatMap (writersOf prog)) given env)
    (hd : (given.map (·.1) ++ cmds.flatMap (operandsWith · .streamOutput)).Nodup)
    (hs : AsAlone ps cmds env s) {v : IOVar} (hv : PipeEnded ps cmds given s v) {x : Stream} (h : PipeHolds cmds given s v x) : x = env v := by
  obtain ⟨-, hd2, hd3⟩ := List.nodup_append.1 hd
  rcases h with h | ⟨i, c, j, hi, hj, rfl⟩
  · exact (he.given _ h).symm
  · rcases hv with ⟨q, hq, rfl⟩ | ⟨i', c', j', hi', hj', hcl⟩
    · exact absurd rfl (hd3 _ (List.mem_map_of_mem hq) _ (List.mem_flatMap.2 ⟨c, List.mem_of_getElem? hi, List.mem_of_getElem? hj⟩))
    · obtain ⟨rfl, rfl⟩ := flatMap_index_unique _ cmds hd2 _ _ _ _ _ _ _ hi hi' hj hj'
      rw [hi] at hi'
      obtain rfl := Option.some.inj hi'
      obtain ⟨n, hn⟩ := hs i c hi
      rw [writer_content he (List.mem_of_getElem? hi) hj, hn]
      rw [hn] at hcl
      exact (portAlone_prefix hps (by simp) n j).2 hcl

/-- A step in a network is a step of one process alone. -/
theorem portStep_alone (hps : DoWhatFiles ps prog) (he : WriterEnds (cmds.flatMap (writersOf prog)) given env)
    (hd : (given.map (·.1) ++ cmds.flatMap (operandsWith · .streamOutput)).Nodup) {size : IOVar → Nat}
    (hs : AsAlone ps cmds env s) (h : PortStep ps cmds size given s t) : ∃ (i : Nat) (c : _), cmds[i]? = some c ∧
      ps.act c (s i).state ≠ .stop ∧ t = s.set i (portAlone ps c ((operandsWith c .streamInput).map env) (s i)) := by
  cases h with
  | @get i k c v next x a h ha hv hh hx =>
      refine ⟨i, c, h, by rw [ha]; simp, congrArg _ ?_⟩
      rw [portAlone, ha]
      have hp := holds_prefix hps he hs hh
      have h1 : (env v)[(s i).taken k]? = some a := by
        obtain ⟨r, hr⟩ := hp
        rw [← hr, List.getElem?_append_left (List.getElem?_eq_some_iff.1 hx).1, hx]
      simp only [List.getElem?_map, hv, Option.map_some, Option.getD_some, h1]
  | @atEnd i k c v next x h ha hv hen hh hx =>
      refine ⟨i, c, h, by rw [ha]; simp, congrArg _ ?_⟩
      rw [portAlone, ha]
      have hp := holds_ended hps he hd hs hen hh
      subst hp
      simp only [List.getElem?_map, hv, Option.map_some, Option.getD_some, hx]
  | @noInput i k c next h ha hv =>
      refine ⟨i, c, h, by rw [ha]; simp, congrArg _ ?_⟩
      rw [portAlone, ha]
      simp only [List.getElem?_map, hv, Option.map_none, Option.getD_none, List.getElem?_nil]
  | @put i j c a next h ha hr =>
      refine ⟨i, c, h, by rw [ha]; simp, congrArg _ ?_⟩
      rw [portAlone, ha]
  | @close i j c next h ha =>
      refine ⟨i, c, h, by rw [ha]; simp, congrArg _ ?_⟩
      rw [portAlone, ha]

theorem portStep_asAlone (hps : DoWhatFiles ps prog) (he : WriterEnds (cmds.flatMap (writersOf prog)) given env)
    (hd : (given.map (·.1) ++ cmds.flatMap (operandsWith · .streamOutput)).Nodup) {size : IOVar → Nat}
    (hs : AsAlone ps cmds env s) (h : PortStep ps cmds size given s t) : AsAlone ps cmds env t := by
  obtain ⟨i, c, hi, -, rfl⟩ := portStep_alone hps he hd hs h
  intro j d hd
  unfold AllPorts.set
  split
  · rename_i e
    subst e
    rw [hi] at hd
    obtain rfl := Option.some.inj hd
    obtain ⟨n, hn⟩ := hs j c hi
    exact ⟨n + 1, by rw [hn]; rfl⟩
  · exact hs j d hd

private theorem sum_one_more (f : Nat → Nat) (i : Nat) : ∀ len, ((List.range len).map fun j => if j = i then f j + 1 else f j).sum =
    ((List.range len).map f).sum + if i < len then 1 else 0
  | 0 => by simp
  | len + 1 => by
      rw [List.range_succ, List.map_append, List.map_append, List.sum_append, List.sum_append, sum_one_more f i len]
      simp only [List.map_cons, List.map_nil, List.sum_cons, List.sum_nil]
      split <;> split <;> split <;> omega

private theorem sum_le (f g : Nat → Nat) : ∀ len, (∀ i < len, f i ≤ g i) → ((List.range len).map f).sum ≤ ((List.range len).map g).sum
  | 0, _ => by simp
  | len + 1, h => by
      rw [List.range_succ, List.map_append, List.map_append, List.sum_append, List.sum_append]
      have h1 := sum_le f g len fun i hi => h i (by omega)
      have h2 := h len (by omega)
      simp only [List.map_cons, List.map_nil, List.sum_cons, List.sum_nil]
      omega

/-- No run is longer than all processes take alone. -/
theorem portRun_bounded (hps : DoWhatFiles ps prog) (he : WriterEnds (cmds.flatMap (writersOf prog)) given env)
    (hd : (given.map (·.1) ++ cmds.flatMap (operandsWith · .streamOutput)).Nodup) :
    ∃ most, ∀ (size : IOVar → Nat) (n : Nat) (s : AllPorts σ), PortRun ps cmds size given n s → n ≤ most := by
  have hex : ∀ i : Nat, ∃ m, ∀ c, cmds[i]? = some c →
      ps.act c (portAloneFor ps c ((operandsWith c .streamInput).map env) m).state = .stop := by
    intro i
    cases hi : cmds[i]? with
    | none => exact ⟨0, by simp⟩
    | some c =>
        obtain ⟨m, hm, -⟩ := hps c ((operandsWith c .streamInput).map env) (by simp)
        exact ⟨m, by rintro _ ⟨⟩; exact hm⟩
  obtain ⟨f, hf⟩ : ∃ f : Nat → Nat, ∀ (i : Nat) c, cmds[i]? = some c →
      ps.act c (portAloneFor ps c ((operandsWith c .streamInput).map env) (f i)).state = .stop :=
    ⟨fun i => Classical.choose (hex i), fun i => Classical.choose_spec (hex i)⟩
  refine ⟨((List.range cmds.length).map f).sum, fun size n s hr => ?_⟩
  have key : ∃ ks : Nat → Nat, (∀ (i : Nat) c, cmds[i]? = some c →
      s i = portAloneFor ps c ((operandsWith c .streamInput).map env) (ks i) ∧ ks i ≤ f i) ∧ n = ((List.range cmds.length).map ks).sum := by
    induction hr with
    | start h =>
        refine ⟨fun _ => 0, fun i c hi => ⟨h i c hi, Nat.zero_le _⟩, ?_⟩
        induction cmds.length with
        | zero => rfl
        | succ m ih => rw [List.range_succ, List.map_append, List.sum_append, ← ih]; rfl
    | @step n s t _ h ih =>
        obtain ⟨ks, h1, h2⟩ := ih
        obtain ⟨i, c, hi, hns, rfl⟩ := portStep_alone hps he hd (fun i c hi => ⟨ks i, (h1 i c hi).1⟩) h
        refine ⟨fun j => if j = i then ks j + 1 else ks j, fun j d hj => ?_, ?_⟩
        · unfold AllPorts.set
          by_cases e : j = i
          · subst e
            rw [hi] at hj
            obtain rfl := Option.some.inj hj
            obtain ⟨h3, h4⟩ := h1 j c hi
            simp only [if_true]
            refine ⟨by rw [h3]; rfl, ?_⟩
            rcases Nat.lt_or_eq_of_le h4 with h5 | h5
            · exact h5
            · rw [h3, h5] at hns
              exact absurd (hf j c hi) hns
          · simp only [if_neg e]
            exact h1 j d hj
        · rw [sum_one_more, if_pos (List.getElem?_eq_some_iff.1 hi).1, h2]
  obtain ⟨ks, h1, rfl⟩ := key
  refine sum_le ks f _ fun i hi => (h1 i cmds[i] (List.getElem?_eq_getElem hi)).2

theorem portRun_asAlone (hps : DoWhatFiles ps prog) (he : WriterEnds (cmds.flatMap (writersOf prog)) given env)
    (hd : (given.map (·.1) ++ cmds.flatMap (operandsWith · .streamOutput)).Nodup) {size : IOVar → Nat} {n : Nat}
    (h : PortRun ps cmds size given n s) : AsAlone ps cmds env s := by
  induction h with
  | start h => exact fun i c hi => ⟨0, h i c hi⟩
  | step _ h ih => exact portStep_asAlone hps he hd ih h

/-- If nothing can go on and pipes are large, a command all of whose inputs have ended has stopped. -/
theorem port_stopped (hps : DoWhatFiles ps prog) (he : WriterEnds (cmds.flatMap (writersOf prog)) given env)
    {size : IOVar → Nat} (hsize : ∀ v, (env v).length < size v) (hs : AsAlone ps cmds env s)
    (hend : ∀ t, ¬ PortStep ps cmds size given s t) {i : Nat} {c : CommandInvocationWithIOVars} (hi : cmds[i]? = some c)
    (hr : ∀ v ∈ operandsWith c .streamInput, PipeEnded ps cmds given s v) : ps.act c (s i).state = .stop := by
  cases ha : ps.act c (s i).state with
  | stop => rfl
  | read k next =>
      cases hv : (operandsWith c .streamInput)[k]? with
      | none => exact absurd (.noInput hi ha hv) (hend _)
      | some v =>
          have hen := hr v (List.mem_of_getElem? hv)
          have hh : ∃ x, PipeHolds cmds given s v x := by
            rcases hen with ⟨q, hq, rfl⟩ | ⟨i', c', j', hi', hj', _⟩
            · exact ⟨q.2, .inl hq⟩
            · exact ⟨_, .inr ⟨i', c', j', hi', hj', rfl⟩⟩
          obtain ⟨x, hx⟩ := hh
          cases hg : x[(s i).taken k]? with
          | none => exact absurd (.atEnd hi ha hv hen hx hg) (hend _)
          | some a => exact absurd (.get hi ha hv hx hg) (hend _)
  | write j a next =>
      refine absurd (.put hi ha fun v _ i' d k _ _ _ x hx => ?_) (hend _)
      have h1 := (holds_prefix hps he hs hx).length_le
      have h2 := hsize v
      omega
  | close j next => exact absurd (.close hi ha) (hend _)

theorem port_ended (hps : DoWhatFiles ps prog) (he : WriterEnds (cmds.flatMap (writersOf prog)) given env)
    {size : IOVar → Nat} (hsize : ∀ v, (env v).length < size v) (hs : AsAlone ps cmds env s)
    (hend : ∀ t, ¬ PortStep ps cmds size given s t) {known : List IOVar} {ws : List Writer} (h : InOrder known ws)
    (hw : ∀ u ∈ ws, u ∈ cmds.flatMap (writersOf prog)) (hk : ∀ v ∈ known, PipeEnded ps cmds given s v) :
    ∀ u ∈ ws, PipeEnded ps cmds given s u.var := by
  induction h with
  | nil => simp
  | @cons known u ws hi hn h ih =>
      have hu : PipeEnded ps cmds given s u.var := by
        obtain ⟨c, hc, huc⟩ := List.mem_flatMap.1 (hw u List.mem_cons_self)
        obtain ⟨i, hic, e⟩ := List.getElem_of_mem hc
        have hci : cmds[i]? = some c := by rw [List.getElem?_eq_getElem hic, e]
        obtain ⟨j, hj, rfl⟩ := List.mem_mapIdx.1 huc
        exact .inr ⟨i, c, j, hci, List.getElem?_eq_getElem hj, .inr (port_stopped hps he hsize hs hend hci fun v hv => hk v (hi v hv))⟩
      intro w hw'
      rcases List.mem_cons.1 hw' with rfl | hw'
      · exact hu
      · refine ih (fun u hu => hw u (List.mem_cons_of_mem _ hu)) ?_ w hw'
        intro v hv
        rcases List.mem_cons.1 hv with rfl | hv
        · exact hu
        · exact hk v hv

end PashAnn
