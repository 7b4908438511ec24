import Verif.Lemmas.Buffers
import Verif.Props.Schedules

/-!
C117: pipes of any size do not block the commands that carry out a pipeline in parts.
-/

namespace PashAnn
open Spec

variable {α σ : Type}

theorem network_connected {l : List Stage} {last : Stage}
    (hs : ∀ s ∈ l ++ [last], ProperStage s ∧ (Concatenates s ∨ s.inv.cmdName ∈ ["sort", "custom_sort"]))
    {ins made : List IOVar} {cmds : List CommandInvocationWithIOVars} {o : IOVar} (h : NetworkOf l last ins cmds made o)
    (parts : List (List α)) (hlen : parts.length = ins.length) : Connected cmds (ins.zip parts) := by
  have hw := C116_wired hs h
  refine ⟨fun c hc d hd v hcv hdv => ?_, fun c hc v hv => ?_⟩
  · obtain ⟨i, hi⟩ := List.mem_iff_getElem?.1 hc
    obtain ⟨j, hj⟩ := List.mem_iff_getElem?.1 hd
    have hnd : made.Nodup := (List.nodup_append.1 h.distinct).2.1
    have key : ∀ (k : Nat) (e : CommandInvocationWithIOVars), cmds[k]? = some e → withAccess e .streamOutput = [v] → made[k]? = some v := by
      intro k e hk hev
      have : (cmds.map fun c => withAccess c .streamOutput)[k]? = some [v] := by rw [List.getElem?_map, hk]; simp [hev]
      rw [hw.1, List.getElem?_map] at this
      cases hm : made[k]? with
      | none => rw [hm] at this; cases this
      | some u => rw [hm] at this; simpa using this
    have hi' := key i c hi hcv
    have hj' := key j d hj hdv
    have : i = j := (reader_unique (f := fun _ : Unit => made) (l := [()]) (c := ()) (d := ()) (by simpa using hnd) (by simp) (by simp) hi' hj').2
    subst this
    rw [hi] at hj
    cases hj; rfl
  · have : v ∈ ins ++ made := hw.2.mem_iff.1 (List.mem_append_left _ (List.mem_flatMap.2 ⟨c, hc, hv⟩))
    rcases List.mem_append.1 this with hv | hv
    · left
      have : v ∈ (ins.zip parts).map Prod.fst := by rw [List.map_fst_zip (by omega)]; exact hv
      exact List.mem_map.1 this
    · right
      have : [v] ∈ cmds.map fun c => withAccess c .streamOutput := by rw [hw.1]; exact List.mem_map_of_mem hv
      exact List.mem_map.1 this

theorem chain_made {l : List Stage} {i o : IOVar} {cmds : List CommandInvocationWithIOVars} {made : List IOVar}
    (h : ChainCommands l i cmds made o) : o = i ∧ l = [] ∨ o ∈ made := by
  induction h with
  | done i => exact .inl ⟨rfl, rfl⟩
  | stage _ _ ih =>
      rcases ih with ⟨e, -⟩ | h
      · exact .inr (by simp [e])
      · exact .inr (List.mem_cons_of_mem _ h)

theorem workers_made {l : List Stage} (hl : l ≠ []) {ins made outs : List IOVar} {cmds : List CommandInvocationWithIOVars}
    (h : WorkerCommands l ins cmds made outs) : ∀ v ∈ outs, v ∈ made := by
  induction h with
  | none => simp
  | part hc _ ih =>
      intro v hv
      rcases List.mem_cons.1 hv with rfl | hv
      · rcases chain_made hc with ⟨-, e⟩ | h
        · exact absurd e hl
        · exact List.mem_append_left _ h
      · exact List.mem_append_right _ (ih v hv)

theorem joins_made {p : Parallelizer} {c : CommandInvocationWithIOVars} {outs made : List IOVar}
    {cmds : List CommandInvocationWithIOVars} {o : IOVar} (h : JoinCommands p c outs cmds made o) : o ∈ outs ∨ o ∈ made := by
  cases h with
  | leaf => exact .inl (by simp)
  | node => exact .inr (by simp)

theorem result_made {l : List Stage} {last : Stage} {ins made : List IOVar} {cmds : List CommandInvocationWithIOVars} {o : IOVar}
    (h : NetworkOf l last ins cmds made o) : o ∈ made := by
  obtain ⟨cw, mw, outs, cm, mm, hw, hm, rfl, rfl⟩ := h.commands
  cases hm with
  | concatenate => simp
  | tree _ hj =>
      rcases joins_made hj with h' | h'
      · exact List.mem_append_left _ (workers_made (by simp) hw o h')
      · exact List.mem_append_right _ h'

/-- C117. Whatever processes the commands are, whatever the sizes of the pipes and whoever goes on next, there is one run of the
pipeline such that what has been written to the result is always a beginning of its output, and when no process can go on, its
writer has stopped and all of the output has been written. -/
theorem C117_sizes (prog : ProgramsOn α) {ps : Processes α σ} (hd : DoWhat ps prog) {l : List Stage} {last : Stage}
    (hs : ∀ s ∈ l ++ [last], ProperStage s ∧ (Concatenates s ∨ s.inv.cmdName ∈ ["sort", "custom_sort"]))
    {ins made : List IOVar} {cmds : List CommandInvocationWithIOVars} {o : IOVar} (h : NetworkOf l last ins cmds made o)
    (x : List α) (parts : List (List α)) (hlen : parts.length = ins.length) (hx : Split last.plan.splitter x parts) :
    ∃ y, PipelineRun prog l last x y ∧ ∀ (size : IOVar → Nat), (∀ v, 0 < size v) → ∀ n s, BufferRun ps cmds size (ins.zip parts) n s →
      (s o).out <+: y ∧
      (AllWait ps cmds size (ins.zip parts) s → Ended ps cmds (ins.zip parts) s o ∧ (s o).out = y) := by
  obtain ⟨env, he, hm⟩ := network_ends (prog := prog) hs h parts hlen
  have hc := network_connected hs h parts hlen
  obtain ⟨T, hT⟩ := stopAt_exists hd hc he
  have hw := network_wired hs h
  have hnd : ((cmds.flatMap fun c => withAccess c .streamInput) ++ [o]).Nodup := nodup_of_perm hw.reads h.distinct
  refine ⟨env o, network_run hs h he.made (by rw [hm]; exact hx), fun size hsize n s hr => ?_⟩
  obtain ⟨t, hway, -⟩ := bufferRun_way hc he hT (vars := made) (fun c hcm v hv => by
    have : [v] ∈ made.map (fun v => [v]) := by rw [← (C116_wired hs h).1, ← hv]; exact List.mem_map_of_mem hcm
    obtain ⟨u, hu, e⟩ := List.mem_map.1 this
    cases e
    exact hu) hr
  have hom := result_made h
  have hio : o ∉ ins := fun hi => absurd rfl ((List.nodup_append.1 h.distinct).2.2 o hi o hom)
  have hlook : (ins.zip parts).lookup o = none := by
    rw [List.lookup_eq_none_iff]
    intro q hq
    have : q.1 ∈ ins := (List.of_mem_zip hq).1
    simpa using fun e : o = q.1 => hio (e ▸ this)
  have hcont : contents (ins.zip parts) s o = (s o).out := by unfold contents; rw [hlook]; rfl
  have hwr : ∃ d ∈ cmds, withAccess d .streamOutput = [o] := by
    have : [o] ∈ cmds.map fun c => withAccess c .streamOutput := by rw [(C116_wired hs h).1]; exact List.mem_map_of_mem hom
    exact List.mem_map.1 this
  refine ⟨by rw [← hcont]; exact contents_towards he hT hway (.inr hwr), fun hend => ?_⟩
  have hk : ∀ v ∈ ins, Ended ps cmds (ins.zip parts) s v ∨
      (Room ps cmds size s v → ∃ s', BufferStep ps cmds size (ins.zip parts) s s') := by
    intro v hv
    refine .inl (.inl ?_)
    have : v ∈ (ins.zip parts).map Prod.fst := by rw [List.map_fst_zip (by omega)]; exact hv
    exact List.mem_map.1 this
  have hendo : Ended ps cmds (ins.zip parts) s o := by
    rcases ordered_moves hsize (List.nodup_append.1 hnd).1 hw.ordered (fun _ h => h) hk o hom with h' | h'
    · exact h'
    · obtain ⟨s', hs'⟩ := h' fun d hdm o' k _ hdk _ => by
        have : o ∈ cmds.flatMap fun c => withAccess c .streamInput := List.mem_flatMap.2 ⟨d, hdm, List.mem_of_getElem? hdk⟩
        exact absurd rfl ((List.nodup_append.1 hnd).2.2 o this o (by simp))
      exact absurd hs' (hend s')
  exact ⟨hendo, by rw [← hcont]; exact contents_ended he hT hway hendo⟩

/-- C117. Every run ends: there is a bound on the number of steps that does not depend on the sizes of the pipes. -/
theorem C117_ends (prog : ProgramsOn α) {ps : Processes α σ} (hd : DoWhat ps prog) {l : List Stage} {last : Stage}
    (hs : ∀ s ∈ l ++ [last], ProperStage s ∧ (Concatenates s ∨ s.inv.cmdName ∈ ["sort", "custom_sort"]))
    {ins made : List IOVar} {cmds : List CommandInvocationWithIOVars} {o : IOVar} (h : NetworkOf l last ins cmds made o)
    (parts : List (List α)) (hlen : parts.length = ins.length) :
    ∃ bound, ∀ size n s, BufferRun ps cmds size (ins.zip parts) n s → n ≤ bound := by
  obtain ⟨env, he, -⟩ := network_ends (prog := prog) hs h parts hlen
  have hc := network_connected hs h parts hlen
  obtain ⟨T, hT⟩ := stopAt_exists hd hc he
  refine ⟨(made.map T).sum, fun size n s hr => ?_⟩
  obtain ⟨t, -, hn⟩ := bufferRun_way hc he hT (vars := made) (fun c hcm v hv => by
    have : [v] ∈ made.map (fun v => [v]) := by rw [← (C116_wired hs h).1, ← hv]; exact List.mem_map_of_mem hcm
    obtain ⟨u, hu, e⟩ := List.mem_map.1 this
    cases e
    exact hu) hr
  omega

/-- C117, with C94: if the stages are right when they are run in parallel alone and all but the last concatenate, then no pipe
blocks the commands before the output of the pipeline has been written. -/
theorem C117_result (prog : ProgramsOn α) (hcat : CatProgram prog) {ps : Processes α σ} (hd : DoWhat ps prog) {l : List Stage}
    {last : Stage} (hl : ∀ s ∈ l, ProperStage s ∧ Concatenates s)
    (hlast : ProperStage last ∧ (Concatenates last ∨ last.inv.cmdName ∈ ["sort", "custom_sort"]))
    (hr : ∀ s ∈ l ++ [last], StageRight prog s)
    {ins made : List IOVar} {cmds : List CommandInvocationWithIOVars} {o : IOVar} (h : NetworkOf l last ins cmds made o)
    (x : List α) (parts : List (List α)) (hlen : parts.length = ins.length) (hx : Split last.plan.splitter x parts)
    {size : IOVar → Nat} (hsize : ∀ v, 0 < size v)
    {n : Nat} {s : AllLocal α σ} (hrun : BufferRun ps cmds size (ins.zip parts) n s) :
    (s o).out <+: piped prog (l ++ [last]) x ∧
    (AllWait ps cmds size (ins.zip parts) s → (s o).out = piped prog (l ++ [last]) x) := by
  have hs : ∀ s ∈ l ++ [last], ProperStage s ∧ (Concatenates s ∨ s.inv.cmdName ∈ ["sort", "custom_sort"]) := by
    intro s hs
    rcases List.mem_append.1 hs with hs | hs
    · exact ⟨(hl s hs).1, .inl (hl s hs).2⟩
    · rw [List.mem_singleton.1 hs]; exact hlast
  obtain ⟨y, hy, hall⟩ := C117_sizes prog hd hs h x parts hlen hx
  obtain ⟨h1, h2⟩ := hall size hsize n s hrun
  rw [C94_pipeline prog hcat l last hl hr x y hy] at h1 h2
  exact ⟨h1, fun hend => (h2 hend).2⟩

/-- C117 for programs as in the manuals: filters, then a filter or a sort. -/
theorem C117_manual (prog : Programs) (hcat : CatProgram prog) (man : Manuals prog) {ps : Processes String σ} (hd : DoWhat ps prog)
    {l : List Stage} {last : Stage} (hp : ∀ s ∈ l ++ [last], ProperStage s) (hl : ∀ s ∈ l, LineStage man s)
    (hlast : LastStage man last) (hu : last.inv.cmdName ≠ "uniq")
    {ins made : List IOVar} {cmds : List CommandInvocationWithIOVars} {o : IOVar} (h : NetworkOf l last ins cmds made o)
    (x : Stream) (parts : List Stream) (hlen : parts.length = ins.length) (hx : Split last.plan.splitter x parts)
    {size : IOVar → Nat} (hsize : ∀ v, 0 < size v)
    {n : Nat} {s : AllLocal String σ} (hrun : BufferRun ps cmds size (ins.zip parts) n s) :
    (s o).out <+: piped prog (l ++ [last]) x ∧
    (AllWait ps cmds size (ins.zip parts) s → (s o).out = piped prog (l ++ [last]) x) := by
  have hs : ∀ s ∈ l ++ [last], ProperStage s ∧ (Concatenates s ∨ s.inv.cmdName ∈ ["sort", "custom_sort"]) := by
    intro s hs
    refine ⟨hp s hs, ?_⟩
    rcases List.mem_append.1 hs with hs' | hs'
    · exact .inl (lineStage_concatenates (hp s hs) (hl s hs'))
    · rw [List.mem_singleton.1 hs'] at hs ⊢
      cases hlast with
      | line hline => exact .inl (lineStage_concatenates (hp last hs) hline)
      | sort hn => exact .inr (by simp [hn])
      | uniq hn => exact absurd hn hu
  obtain ⟨y, hy, hall⟩ := C117_sizes prog hd hs h x parts hlen hx
  obtain ⟨h1, h2⟩ := hall size hsize n s hrun
  rw [C94_manual prog hcat man l last hp hl hlast x y hy] at h1 h2
  exact ⟨h1, fun hend => (h2 hend).2⟩

/-- A process that first reads all of its inputs, one after the other, and then writes. -/
inductive Collecting (α : Type)
  | reading (done : List (List α)) (now : List α)
  | writing (rest : List α)

/-- Write the rest. -/
def writeRest : List α → ProcAction α (Collecting α)
  | [] => .stop
  | a :: l => .write a (.writing l)

/-- What reading gives. -/
def collect (done : List (List α)) (now : List α) : Option α → Collecting α
  | some a => .reading done (now ++ [a])
  | none => .reading (done ++ [now]) []

/-- Such processes for given programs. -/
def collectors (prog : ProgramsOn α) : Processes α (Collecting α) where
  start _ := .reading [] []
  act c
    | .reading done now =>
        if done.length < (withAccess c .streamInput).length then .read done.length (collect done now)
        else writeRest (prog c.cmdName c.flagOptionList (strOperands c) done)
    | .writing rest => writeRest rest

/-- Steps of a process alone, from any point. -/
def aloneFrom (ps : Processes α σ) (c : CommandInvocationWithIOVars) (ins : List (List α)) (s : Local α σ) : Nat → Local α σ
  | 0 => s
  | n + 1 => alone ps c ins (aloneFrom ps c ins s n)

theorem aloneFrom_add (ps : Processes α σ) (c : CommandInvocationWithIOVars) (ins : List (List α)) (s : Local α σ) (n : Nat) :
    ∀ m, aloneFrom ps c ins (aloneFrom ps c ins s n) m = aloneFrom ps c ins s (n + m)
  | 0 => rfl
  | m + 1 => congrArg (alone ps c ins) (aloneFrom_add ps c ins s n m)

theorem aloneFrom_init (ps : Processes α σ) (c : CommandInvocationWithIOVars) (ins : List (List α)) :
    ∀ n, aloneFrom ps c ins (ps.init c) n = aloneFor ps c ins n
  | 0 => rfl
  | n + 1 => congrArg (alone ps c ins) (aloneFrom_init ps c ins n)

theorem collect_write (prog : ProgramsOn α) (c : CommandInvocationWithIOVars) (ins : List (List α)) :
    ∀ (rest : List α) (s : Local α (Collecting α)), (collectors prog).act c s.state = writeRest rest →
      ∃ n, (collectors prog).act c (aloneFrom (collectors prog) c ins s n).state = .stop ∧
        (aloneFrom (collectors prog) c ins s n).out = s.out ++ rest
  | [], s, h => ⟨0, h, by simp [aloneFrom]⟩
  | a :: l, s, h => by
      have h' : (collectors prog).act c s.state = .write a (.writing l) := h
      have e : aloneFrom (collectors prog) c ins s 1 = s.writes a (.writing l) := by
        show alone _ c ins s = _
        unfold alone
        rw [h']
      obtain ⟨n, h1, h2⟩ := collect_write prog c ins l (s.writes a (.writing l)) rfl
      rw [← e, aloneFrom_add] at h1 h2
      refine ⟨1 + n, h1, ?_⟩
      rw [h2, e]
      simp [Local.writes]

theorem collect_input (prog : ProgramsOn α) (c : CommandInvocationWithIOVars) (ins : List (List α)) (done : List (List α)) (x : List α)
    (hlen : done.length < (withAccess c .streamInput).length) (hx : ins[done.length]? = some x) :
    ∀ (rest now : List α) (s : Local α (Collecting α)), x = now ++ rest → s.state = .reading done now →
      s.taken done.length = now.length → s.out = [] → (∀ j, done.length < j → s.taken j = 0) →
      ∃ n, (aloneFrom (collectors prog) c ins s n).state = .reading (done ++ [x]) [] ∧
        (aloneFrom (collectors prog) c ins s n).out = [] ∧
        ∀ j, done.length < j → (aloneFrom (collectors prog) c ins s n).taken j = 0
  | rest, now, s, e, hs, ht, ho, hz => by
      have h' : (collectors prog).act c s.state = .read done.length (collect done now) := by
        rw [hs]; exact if_pos hlen
      have e1 : aloneFrom (collectors prog) c ins s 1 = s.reads done.length (collect done now) (x[now.length]?) := by
        show alone _ c ins s = _
        unfold alone
        rw [h']
        show s.reads _ _ _ = _
        rw [hx, ht]; rfl
      cases rest with
      | nil =>
          have : x[now.length]? = none := by rw [e]; simp
          rw [this] at e1
          refine ⟨1, ?_, ?_, fun j hj => ?_⟩
          · rw [e1, e]; simp [Local.reads, collect]
          · rw [e1]; exact ho
          · rw [e1]
            show (if j = done.length ∧ (none : Option α) ≠ none then s.taken j + 1 else s.taken j) = 0
            rw [if_neg (by simp), hz j hj]
      | cons a rest =>
          have : x[now.length]? = some a := by rw [e]; simp
          rw [this] at e1
          obtain ⟨n, h1, h2, h3⟩ := collect_input prog c ins done x hlen hx rest (now ++ [a])
            (s.reads done.length (collect done now) (some a)) (by rw [e]; simp) rfl
            (by
              show (if done.length = done.length ∧ some a ≠ none then s.taken done.length + 1 else s.taken done.length) = _
              rw [if_pos (by simp), ht]; simp) ho
            (fun j hj => by
              show (if j = done.length ∧ some a ≠ none then s.taken j + 1 else s.taken j) = 0
              rw [if_neg (by omega), hz j hj])
          rw [← e1] at h1 h2 h3
          refine ⟨1 + n, ?_, ?_, fun j hj => ?_⟩
          · rw [← aloneFrom_add]; exact h1
          · rw [← aloneFrom_add]; exact h2
          · rw [← aloneFrom_add]; exact h3 j hj
  termination_by rest => rest.length

theorem collect_inputs (prog : ProgramsOn α) (c : CommandInvocationWithIOVars) (ins : List (List α))
    (hlen : ins.length = (withAccess c .streamInput).length) :
    ∀ (rest done : List (List α)) (s : Local α (Collecting α)), ins = done ++ rest → s.state = .reading done [] → s.out = [] →
      (∀ j, done.length ≤ j → s.taken j = 0) →
      ∃ n, (collectors prog).act c (aloneFrom (collectors prog) c ins s n).state = .stop ∧
        (aloneFrom (collectors prog) c ins s n).out = prog c.cmdName c.flagOptionList (strOperands c) ins
  | [], done, s, e, hs, ho, _ => by
      have : (collectors prog).act c s.state = writeRest (prog c.cmdName c.flagOptionList (strOperands c) ins) := by
        rw [hs]
        have hd : done = ins := by rw [e]; simp
        subst hd
        exact if_neg (by omega)
      obtain ⟨n, h1, h2⟩ := collect_write prog c ins _ s this
      exact ⟨n, h1, by rw [h2, ho]; rfl⟩
  | x :: rest, done, s, e, hs, ho, hz => by
      have hl : done.length < (withAccess c .streamInput).length := by rw [← hlen, e]; simp
      obtain ⟨n, h1, h2, h3⟩ := collect_input prog c ins done x hl (by rw [e]; simp) x [] s rfl hs (hz _ (Nat.le_refl _)) ho
        (fun j hj => hz j (by omega))
      obtain ⟨m, h4, h5⟩ := collect_inputs prog c ins hlen rest (done ++ [x]) _ (by rw [e]; simp) h1 h2
        (fun j hj => h3 j (by simp at hj; omega))
      rw [aloneFrom_add] at h4 h5
      exact ⟨n + m, h4, h5⟩

/-- C117: there are processes for all programs. -/
theorem C117_processes (prog : ProgramsOn α) : DoWhat (collectors prog) prog := by
  intro c ins hlen
  obtain ⟨n, h1, h2⟩ := collect_inputs prog c ins hlen ins [] ((collectors prog).init c) rfl rfl rfl (fun _ _ => rfl)
  rw [aloneFrom_init] at h1 h2
  exact ⟨n, h1, h2⟩

/-- `grep -i a f | cut -f 1 | sort -r` in two parts, with pipes that hold one line: there are such commands and processes, and
when no process can go on, the output of the pipeline has been written. -/
example : ∃ ins cmds made o, ins.length = 2 ∧ NetworkOf [grepStage, cutStage] sortStage ins cmds made o ∧
    DoWhat (collectors allProgs) allProgs ∧
    ∀ n s, BufferRun (collectors allProgs) cmds (fun _ => 1) (ins.zip [["a"], ["b", "a"]]) n s →
      AllWait (collectors allProgs) cmds (fun _ => 1) (ins.zip [["a"], ["b", "a"]]) s →
      (s o).out = piped allProgs [grepStage, cutStage, sortStage] ["a", "b", "a"] := by
  obtain ⟨ins, cmds, made, o, hlen, hn, -⟩ := schedules_example
  refine ⟨ins, cmds, made, o, hlen, hn, C117_processes _, fun n s hr hend => ?_⟩
  refine (C117_manual allProgs allProgs_cat allManuals (C117_processes _) ?_ ?_ sortStage_ok.2 (by decide) hn ["a", "b", "a"]
    [["a"], ["b", "a"]] hlen.symm ?_ (fun _ => Nat.one_pos) hr).2 hend
  · simp only [List.cons_append, List.nil_append, List.mem_cons, List.not_mem_nil, or_false]
    rintro s (rfl | rfl | rfl)
    · exact grepStage_ok.1
    · exact cutStage_ok.1
    · exact sortStage_ok.1
  · intro s hs
    simp only [List.mem_cons, List.not_mem_nil, or_false] at hs
    rcases hs with rfl | rfl
    · exact grepStage_ok.2
    · exact cutStage_ok.2
  · exact .block (x := ["a"]) (before := [["a"]]) (worker := []) (after := [])
      (.block (x := []) (before := []) (worker := []) (after := [[]]) (.start 2))

end PashAnn
