import Verif.Lemmas.AuxBuffers

/-! Lemmas for C125: processes that read their inputs and write their outputs in order do not block each other. -/

namespace PashAnn
open Spec

variable {σ : Type} {ps : PortProcesses σ} {prog : FilePrograms} {cmds : List CommandInvocationWithIOVars} {given : List (IOVar × Stream)}
  {env : IOVar → Stream} {s t : AllPorts σ}

/-- How the commands are connected: what one command writes is read in the order in which it is written, by later commands. -/
structure InGroups (cmds : List CommandInvocationWithIOVars) : Prop where
  readers : (cmds.flatMap (operandsWith · .streamInput)).Nodup
  grouped : ∀ {i i' j k j' : Nat} {e d : CommandInvocationWithIOVars} {v : IOVar}, cmds[i]? = some e → cmds[i']? = some d →
    (operandsWith e .streamOutput)[j]? = some v → (operandsWith d .streamInput)[k]? = some v → j' < j →
    ∃ k' < k, (operandsWith d .streamInput)[k']? = (operandsWith e .streamOutput)[j']?
  later : ∀ {i i' : Nat} {e d : CommandInvocationWithIOVars} {v : IOVar}, cmds[i]? = some e → cmds[i']? = some d →
    v ∈ operandsWith e .streamOutput → v ∈ operandsWith d .streamInput → i < i'

theorem inOrder_fresh {known : List IOVar} {ws : List Writer} (h : InOrder known ws) : ∀ u ∈ ws, u.var ∉ known := by
  induction h with
  | nil => simp
  | @cons known u ws hi hn h ih =>
      intro w hw
      rcases List.mem_cons.1 hw with rfl | hw
      · exact hn
      · exact fun hk => ih w hw (List.mem_cons_of_mem _ hk)

theorem inOrder_rest {known : List IOVar} {ws ws' : List Writer} (h : InOrder known (ws ++ ws')) :
    ∃ known', (∀ v ∈ known, v ∈ known') ∧ InOrder known' ws' := by
  induction ws generalizing known with
  | nil => exact ⟨known, fun _ h => h, h⟩
  | cons u ws ih =>
      cases h with
      | cons hi hn h =>
          obtain ⟨k, h1, h2⟩ := ih h
          exact ⟨k, fun v hv => h1 v (List.mem_cons_of_mem _ hv), h2⟩

theorem mem_writersOf {c : CommandInvocationWithIOVars} {v : IOVar} (h : v ∈ operandsWith c .streamOutput) :
    ∃ u ∈ writersOf prog c, u.var = v ∧ u.reads = operandsWith c .streamInput := by
  obtain ⟨j, hj, rfl⟩ := List.getElem_of_mem h
  exact ⟨_, List.mem_mapIdx.2 ⟨j, hj, rfl⟩, rfl, rfl⟩

theorem inOrder_later : ∀ (cmds : List CommandInvocationWithIOVars) {known : List IOVar},
    InOrder known (cmds.flatMap (writersOf prog)) → (∀ c ∈ cmds, operandsWith c .streamOutput ≠ []) →
    ∀ {i i' : Nat} {e d : CommandInvocationWithIOVars} {v : IOVar}, cmds[i]? = some e → cmds[i']? = some d →
    v ∈ operandsWith e .streamOutput → v ∈ operandsWith d .streamInput → i < i'
  | [], _, _, _, i, _, _, _, _, h, _, _, _ => by simp at h
  | c :: cmds, known, h, hne, i, i', e, d, v, he, hd, hv, hv' => by
      have hno := inOrder_fresh h
      match i', hd with
      | 0, hd =>
          obtain rfl : c = d := by simpa using hd
          exfalso
          obtain ⟨w, ws, hw⟩ := List.exists_cons_of_ne_nil (hne c List.mem_cons_self)
          have hrd : ∀ x ∈ operandsWith c .streamInput, x ∈ known := by
            rw [List.flatMap_cons] at h
            unfold writersOf at h
            rw [hw] at h
            rw [List.mapIdx_cons] at h
            cases h with
            | cons hi _ _ => exact hi
          obtain ⟨u, hu, rfl, -⟩ := mem_writersOf (prog := prog) hv
          exact hno u (List.mem_flatMap.2 ⟨e, List.mem_of_getElem? he, hu⟩) (hrd _ hv')
      | i' + 1, hd =>
          match i, he with
          | 0, _ => omega
          | i + 1, he =>
              rw [List.flatMap_cons] at h
              obtain ⟨k, -, h⟩ := inOrder_rest h
              rw [List.getElem?_cons_succ] at he hd
              have := inOrder_later cmds h (fun c hc => hne c (List.mem_cons_of_mem _ hc)) he hd hv hv'
              omega

/-- A process has seen the end only of what has ended. -/
def SeenEnds (ps : PortProcesses σ) (cmds : List CommandInvocationWithIOVars) (given : List (IOVar × Stream)) (s : AllPorts σ) : Prop :=
  ∀ (i : Nat) (c : _) (k : Nat) (v : IOVar), cmds[i]? = some c → (operandsWith c .streamInput)[k]? = some v → (s i).atEnd k = true →
    PipeEnded ps cmds given s v

private theorem ended_set {i : Nat} {c : CommandInvocationWithIOVars} (hi : cmds[i]? = some c) (hns : ps.act c (s i).state ≠ .stop)
    {ins : List Stream} {v : IOVar} (h : PipeEnded ps cmds given s v) : PipeEnded ps cmds given (s.set i (portAlone ps c ins (s i))) v := by
  rcases h with h | ⟨i', c', j', hi', hj', hcl⟩
  · exact .inl h
  · refine .inr ⟨i', c', j', hi', hj', ?_⟩
    unfold AllPorts.set
    by_cases e : i' = i
    · subst e
      rw [hi] at hi'
      obtain rfl := Option.some.inj hi'
      rw [if_pos rfl]
      rcases hcl with hcl | hcl
      · exact .inl ((portAlone_grow _ _).2 hcl).1
      · exact absurd hcl hns
    · rw [if_neg e]; exact hcl

theorem portStep_seenEnds (hps : DoWhatFiles ps prog) (he : WriterEnds (cmds.flatMap (writersOf prog)) given env)
    (hd : (given.map (·.1) ++ cmds.flatMap (operandsWith · .streamOutput)).Nodup) {size : IOVar → Nat}
    (hs : AsAlone ps cmds env s) (hse : SeenEnds ps cmds given s) (h : PortStep ps cmds size given s t) : SeenEnds ps cmds given t := by
  obtain ⟨i₀, c₀, hi₀, hns, ht⟩ := portStep_alone hps he hd hs h
  have hmono : ∀ v, PipeEnded ps cmds given s v → PipeEnded ps cmds given t v := by
    intro v hv; rw [ht]; exact ended_set hi₀ hns hv
  have key : ∀ {i : Nat} {c : CommandInvocationWithIOVars} {l : PortLocal σ}, cmds[i]? = some c →
      (∀ k v, (operandsWith c .streamInput)[k]? = some v → l.atEnd k = true → (s i).atEnd k = true ∨ PipeEnded ps cmds given s v) →
      t = s.set i l → SeenEnds ps cmds given t := by
    intro i c l hi hl e i' c' k v hi' hv ha
    refine hmono v ?_
    rw [e] at ha
    unfold AllPorts.set at ha
    by_cases h' : i' = i
    · subst h'
      rw [hi] at hi'
      obtain rfl := Option.some.inj hi'
      rw [if_pos rfl] at ha
      rcases hl k v hv ha with h1 | h1
      · exact hse _ _ k v hi hv h1
      · exact h1
    · rw [if_neg h'] at ha
      exact hse _ _ k v hi' hv ha
  cases h with
  | @get i k c v next x a h ha hv hh hx =>
      exact key h (fun k' v' _ h' => .inl (by simpa [PortLocal.reads] using h')) rfl
  | @atEnd i k c v next x h ha hv hen hh hx =>
      refine key h (fun k' v' hv' h' => ?_) rfl
      by_cases e : k' = k
      · subst e
        rw [hv] at hv'
        obtain rfl := Option.some.inj hv'
        exact .inr hen
      · exact .inl (by simpa [PortLocal.reads, e] using h')
  | @noInput i k c next h ha hv =>
      refine key h (fun k' v' hv' h' => ?_) rfl
      by_cases e : k' = k
      · subst e; rw [hv] at hv'; cases hv'
      · exact .inl (by simpa [PortLocal.reads, e] using h')
  | @put i j c a next h ha hr => exact key (l := (s i).writes j a next) h (fun k' v' _ h' => .inl h') rfl
  | @close i j c next h ha => exact key (l := (s i).closes j next) h (fun k' v' _ h' => .inl h') rfl

theorem portRun_seenEnds (hps : DoWhatFiles ps prog) (he : WriterEnds (cmds.flatMap (writersOf prog)) given env)
    (hd : (given.map (·.1) ++ cmds.flatMap (operandsWith · .streamOutput)).Nodup) {size : IOVar → Nat} {n : Nat}
    (h : PortRun ps cmds size given n s) : SeenEnds ps cmds given s := by
  induction h with
  | start h => intro i c k v hi _ ha; rw [h i c hi] at ha; cases ha
  | step hr h ih => exact portStep_seenEnds hps he hd (portRun_asAlone hps he hd hr) ih h

/-- The process does not wait for room in a pipe. -/
private def NotFull (ps : PortProcesses σ) (cmds : List CommandInvocationWithIOVars) (size : IOVar → Nat) (given : List (IOVar × Stream))
    (s : AllPorts σ) (i : Nat) (c : CommandInvocationWithIOVars) : Prop :=
  ∀ j a next, ps.act c (s i).state = .write j a next → ∀ v, (operandsWith c .streamOutput)[j]? = some v → PipeRoom ps cmds size given s v

private theorem notFull_stopped (hd : (given.map (·.1) ++ cmds.flatMap (operandsWith · .streamOutput)).Nodup)
    (hg : InGroups cmds) (hread : ∀ c ∈ cmds, ∀ v ∈ operandsWith c .streamInput, v ∈ given.map (·.1) ∨
      ∃ e ∈ cmds, v ∈ operandsWith e .streamOutput)
    {size : IOVar → Nat} (hsize : ∀ v, 0 < size v) (hs : AsAlone ps cmds env s) (hse : SeenEnds ps cmds given s) (ht : InTurns ps)
    (hend : ∀ t, ¬ PortStep ps cmds size given s t) : ∀ (i : Nat) (c : _), cmds[i]? = some c → NotFull ps cmds size given s i c →
      ps.act c (s i).state = .stop := by
  intro i
  induction i using Nat.strongRecOn with
  | _ i ih =>
  intro c hi hnf
  have hturn : ∀ (i : Nat) (c : CommandInvocationWithIOVars), cmds[i]? = some c →
      (∀ k next, ps.act c (s i).state = .read k next → ∀ k' < k, (s i).atEnd k' = true) ∧
      (∀ j a next, ps.act c (s i).state = .write j a next → (s i).closed j = false ∧ ∀ j' < j, (s i).closed j' = true) := by
    intro i c hi
    obtain ⟨n, hn⟩ := hs i c hi
    have := ht c ((operandsWith c .streamInput).map env) n (by simp)
    rw [← hn] at this
    exact this
  cases ha : ps.act c (s i).state with
  | stop => rfl
  | close j next => exact absurd (.close hi ha) (hend _)
  | write j a next => exact absurd (.put hi ha (hnf j a next ha)) (hend _)
  | read k next =>
      cases hv : (operandsWith c .streamInput)[k]? with
      | none => exact absurd (.noInput hi ha hv) (hend _)
      | some v =>
          exfalso
          have hget : ∀ x, PipeHolds cmds given s v x → x[(s i).taken k]? = none := by
            intro x hx
            cases hg : x[(s i).taken k]? with
            | none => rfl
            | some a => exact absurd (.get hi ha hv hx hg) (hend _)
          have hne : ¬ PipeEnded ps cmds given s v := by
            intro hen
            have hh : ∃ x, PipeHolds cmds given s v x := by
              rcases hen with ⟨q, hq, rfl⟩ | ⟨i', c', j', hi', hj', _⟩
              · exact ⟨q.2, .inl hq⟩
              · exact ⟨_, .inr ⟨i', c', j', hi', hj', rfl⟩⟩
            obtain ⟨x, hx⟩ := hh
            exact hend _ (.atEnd hi ha hv hen hx (hget x hx))
          have hvm := List.mem_of_getElem? hv
          rcases hread c (List.mem_of_getElem? hi) v hvm with hgv | ⟨e, hem, hev⟩
          · obtain ⟨q, hq, e⟩ := List.mem_map.1 hgv
            exact hne (.inl ⟨q, hq, e⟩)
          · obtain ⟨i', hi', e'⟩ := List.getElem_of_mem hem
            have hci : cmds[i']? = some e := by rw [List.getElem?_eq_getElem hi', e']
            obtain ⟨j, hj, ej⟩ := List.getElem_of_mem hev
            have hcj : (operandsWith e .streamOutput)[j]? = some v := by rw [List.getElem?_eq_getElem hj, ej]
            have hlt := hg.later hci hi hev hvm
            refine hne (.inr ⟨i', e, j, hci, hcj, .inr (ih i' hlt e hci ?_)⟩)
            intro jw a nx haw w hw
            obtain ⟨hop, hcl⟩ := (hturn i' e hci).2 jw a nx haw
            rcases Nat.lt_trichotomy jw j with hjj | hjj | hjj
            · obtain ⟨k', hk', ek⟩ := hg.grouped hci hi hcj hv hjj
              rw [hw] at ek
              have hseen := (hturn i c hi).1 k next ha k' hk'
              rcases hse i c k' w hi ek hseen with ⟨q, hq, rfl⟩ | ⟨i₂, e₂, j₂, hi₂, hj₂, hcl₂⟩
              · exact absurd rfl ((List.nodup_append.1 hd).2.2 _ (List.mem_map_of_mem hq) _
                  (List.mem_flatMap.2 ⟨e, hem, List.mem_of_getElem? hw⟩))
              · obtain ⟨rfl, rfl⟩ := flatMap_index_unique _ cmds (List.nodup_append.1 hd).2.1 _ _ _ _ _ _ _ hci hi₂ hw hj₂
                rw [hci] at hi₂
                obtain rfl := Option.some.inj hi₂
                rw [hop, haw] at hcl₂
                simp at hcl₂
            · subst hjj
              rw [hcj] at hw
              obtain rfl := Option.some.inj hw
              intro i₂ d k₂ hi₂ hk₂ _ x hx
              obtain ⟨rfl, rfl⟩ := flatMap_index_unique _ cmds hg.readers _ _ _ _ _ _ _ hi hi₂ hv hk₂
              have h1 := List.getElem?_eq_none_iff.1 (hget x hx)
              have h2 := hsize v
              omega
            · exact absurd (.inr ⟨i', e, j, hci, hcj, .inl (hcl j hjj)⟩) hne

/-- If nothing can go on, all processes have stopped. -/
theorem inTurns_stopped (hd : (given.map (·.1) ++ cmds.flatMap (operandsWith · .streamOutput)).Nodup)
    (hg : InGroups cmds) (hread : ∀ c ∈ cmds, ∀ v ∈ operandsWith c .streamInput, v ∈ given.map (·.1) ∨
      ∃ e ∈ cmds, v ∈ operandsWith e .streamOutput)
    {size : IOVar → Nat} (hsize : ∀ v, 0 < size v) (hs : AsAlone ps cmds env s) (hse : SeenEnds ps cmds given s) (ht : InTurns ps)
    (hend : ∀ t, ¬ PortStep ps cmds size given s t) (i : Nat) (c : CommandInvocationWithIOVars) (hi : cmds[i]? = some c) :
    ps.act c (s i).state = .stop := by
  have key : ∀ (m i : Nat) (c : CommandInvocationWithIOVars), cmds.length ≤ i + m → cmds[i]? = some c → ps.act c (s i).state = .stop := by
    intro m
    induction m with
    | zero =>
        intro i c hm hi
        have := (List.getElem?_eq_some_iff.1 hi).1
        omega
    | succ m ih =>
        intro i c hm hi
        refine notFull_stopped hd hg hread hsize hs hse ht hend i c hi ?_
        intro j a next _ v hv i' d k hi' hk hns
        have := hg.later hi hi' (List.mem_of_getElem? hv) (List.mem_of_getElem? hk)
        exact absurd (ih i' d (by omega) hi') hns
  exact key cmds.length i c (by omega) hi

end PashAnn
