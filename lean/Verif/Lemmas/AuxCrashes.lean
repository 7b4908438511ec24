import Verif.Spec.AuxCrashes
import Verif.Lemmas.AuxSchedules
import Verif.Lemmas.Crashes

/-! Lemmas for Props/AuxCrashes.lean. -/

namespace PashAnn
open Spec

/-- What has been written is a beginning of what is given, or of what the writer writes, whatever is still to come. -/
structure WritersBegun (ws : List Writer) (given : List (IOVar × Stream)) (s : PipeState String) : Prop where
  given : ∀ q ∈ given, s.written q.1 <+: q.2
  made : ∀ u ∈ ws, ∀ env, Possible s u.reads env → s.written u.var <+: u.content (u.reads.map env)

/-- Every variable has one writer. -/
structure SingleWriter (ws : List Writer) (given : List (IOVar × Stream)) : Prop where
  inputs : ∀ q ∈ given, ∀ r ∈ given, q.1 = r.1 → q = r
  outputs : ∀ u ∈ ws, ∀ v ∈ ws, u.var = v.var → u = v
  apart : ∀ q ∈ given, ∀ u ∈ ws, u.var ≠ q.1

theorem vars_inj {ws : List Writer} (h : (ws.map (·.var)).Nodup) : ∀ u ∈ ws, ∀ v ∈ ws, u.var = v.var → u = v := by
  induction ws with
  | nil => simp
  | cons a ws ih =>
      obtain ⟨h1, h2⟩ := List.nodup_cons.1 h
      intro u hu v hv e
      rcases List.mem_cons.1 hu with eu | hu' <;> rcases List.mem_cons.1 hv with ev | hv'
      · rw [eu, ev]
      · exact absurd (List.mem_map.2 ⟨v, hv', by rw [← eu]; exact e.symm⟩) h1
      · exact absurd (List.mem_map.2 ⟨u, hu', by rw [← ev]; exact e⟩) h1
      · exact ih h2 u hu' v hv' e

theorem writersBegun_close {ws : List Writer} {given : List (IOVar × Stream)} {s : PipeState String}
    (h : WritersBegun ws given s) (v : IOVar) : WritersBegun ws given (s.close v) :=
  ⟨h.given, fun u hu env he => h.made u hu env (possible_close he)⟩

theorem writersBegun_closeAll {ws : List Writer} {given : List (IOVar × Stream)} {s : PipeState String}
    (h : WritersBegun ws given s) (vars : List IOVar) : WritersBegun ws given (closeAll s vars) := by
  refine ⟨h.given, fun u hu env he => h.made u hu env fun v hv => ?_⟩
  obtain ⟨h1, h2⟩ := he v hv
  exact ⟨h1, fun hc => h2 (show (decide (v ∈ vars) || s.closed v) = true by rw [hc, Bool.or_true])⟩

theorem writersBegun_step {ws : List Writer} {given : List (IOVar × Stream)} (hw1 : SingleWriter ws given)
    {s t : PipeState String} (h : WritersBegun ws given s) (hst : WriterStep ws given s t) : WritersBegun ws given t := by
  cases hst with
  | last => exact writersBegun_close h _
  | stop => exact writersBegun_close h _
  | @arrive v x w hg ho hw hx =>
      refine ⟨fun q hq => ?_, fun u hu env he => ?_⟩
      · by_cases e : q.1 = v
        · rw [hw1.inputs q hq (v, x) hg e]
          exact (show (s.append v w).written v = s.written v ++ w from if_pos rfl) ▸ hx
        · rw [show (s.append v w).written q.1 = s.written q.1 from if_neg e]
          exact h.given q hq
      · have e : u.var ≠ v := hw1.apart (v, x) hg u hu
        rw [show (s.append v w).written u.var = s.written u.var from if_neg e]
        exact h.made u hu env (possible_append ho he)
  | @write d w hd ho hw hx =>
      refine ⟨fun q hq => ?_, fun u hu env he => ?_⟩
      · have e : ¬ q.1 = d.var := fun e => hw1.apart q hq d hd e.symm
        rw [show (s.append d.var w).written q.1 = s.written q.1 from if_neg e]
        exact h.given q hq
      · by_cases e : u.var = d.var
        · have hud := hw1.outputs u hu d hd e
          subst hud
          rw [show (s.append u.var w).written u.var = s.written u.var ++ w from if_pos rfl]
          exact hx env (possible_append (w := w) ho he)
        · rw [show (s.append d.var w).written u.var = s.written u.var from if_neg e]
          exact h.made u hu env (possible_append ho he)

theorem auxRun_begun {prog : FilePrograms} {cmds : List CommandInvocationWithIOVars} {given : List (IOVar × Stream)}
    (hw1 : SingleWriter (cmds.flatMap (writersOf prog)) given) {killed : List CommandInvocationWithIOVars} {broken : List IOVar}
    {s : PipeState String} (h : AuxCrashRun prog cmds given killed broken s) : WritersBegun (cmds.flatMap (writersOf prog)) given s := by
  induction h with
  | start => exact ⟨fun _ _ => List.nil_prefix, fun _ _ _ _ => List.nil_prefix⟩
  | works _ hst ih => exact writersBegun_step hw1 ih hst
  | dies _ _ _ ih => exact writersBegun_closeAll ih _
  | breaks _ _ _ ih => exact writersBegun_close ih _

theorem auxRun_undisturbed {prog : FilePrograms} {cmds : List CommandInvocationWithIOVars} {given : List (IOVar × Stream)}
    {killed : List CommandInvocationWithIOVars} {broken : List IOVar} {s : PipeState String}
    (h : AuxCrashRun prog cmds given killed broken s) :
    killed = [] → broken = [] → ∃ n, WriterRun (cmds.flatMap (writersOf prog)) given n s := by
  induction h with
  | start => exact fun _ _ => ⟨0, .start⟩
  | works _ hst ih =>
      intro h1 h2
      obtain ⟨n, hn⟩ := ih h1 h2
      exact ⟨n + 1, .step hn hst⟩
  | dies => exact fun h => by cases h
  | breaks => exact fun _ h => by cases h

/-- The inputs arrive one after the other, each up to where it breaks off. -/
theorem aux_arrive_all {prog : FilePrograms} {cmds : List CommandInvocationWithIOVars} {given : List (IOVar × Stream)}
    {env : IOVar → Stream} (hg : ∀ q ∈ given, env q.1 <+: q.2) :
    ∀ (vars known broken : List IOVar), (∀ v ∈ vars, ∃ q ∈ given, q.1 = v) → (vars ++ known).Nodup →
      AuxCrashRun prog cmds given [] broken (filled env known) → ∃ known' broken',
        AuxCrashRun prog cmds given [] broken' (filled env known') ∧ (∀ v, v ∈ known' ↔ v ∈ vars ++ known) ∧
        (∀ v ∈ broken', v ∈ broken ∨ ∃ q ∈ given, q.1 = v ∧ env v ≠ q.2)
  | [], known, broken, _, _, h => ⟨known, broken, h, by simp, fun _ h => .inl h⟩
  | v :: vars, known, broken, hv, hn, h => by
      obtain ⟨hn1, hn2⟩ := List.nodup_cons.1 hn
      have hk : v ∉ known := fun hk => hn1 (List.mem_append_right _ hk)
      obtain ⟨⟨v', x⟩, hq, rfl⟩ := hv v List.mem_cons_self
      have ho : (filled env known).closed v' = false := decide_eq_false hk
      have hw : (filled env known).written v' = [] := if_neg hk
      obtain ⟨d, h', hd⟩ : ∃ d, AuxCrashRun prog cmds given [] d (filled env (v' :: known)) ∧
          (∀ u ∈ d, u ∈ broken ∨ (u = v' ∧ env u ≠ x)) := by
        by_cases hx : env v' = x
        · by_cases h0 : env v' = []
          · refine ⟨broken, ?_, fun _ h => .inl h⟩
            rw [← filled_close hk h0]
            exact .works h (.last hq ho (by rw [hw, ← hx, h0]))
          · refine ⟨broken, ?_, fun _ h => .inl h⟩
            rw [← filled_append hk]
            refine .works (.works h (.arrive hq ho h0 (by rw [hw]; exact hg _ hq))) (.last hq ho ?_)
            show (if v' = v' then _ ++ _ else _) = x
            rw [if_pos rfl, hw, List.nil_append, hx]
        · refine ⟨v' :: broken, ?_, fun u hu => ?_⟩
          · by_cases h0 : env v' = []
            · rw [← filled_close hk h0]
              exact .breaks h hq ho
            · rw [← filled_append hk]
              exact .breaks (.works h (.arrive hq ho h0 (by rw [hw]; exact hg _ hq))) hq ho
          · rcases List.mem_cons.1 hu with rfl | hu
            · exact .inr ⟨rfl, hx⟩
            · exact .inl hu
      obtain ⟨k, d', h1, h2, h3⟩ := aux_arrive_all hg vars (v' :: known) d (fun u hu => hv u (List.mem_cons_of_mem _ hu))
        (List.perm_middle.nodup_iff.2 hn) h'
      refine ⟨k, d', h1, fun u => ?_, fun u hu => ?_⟩
      · rw [h2]
        simp only [List.cons_append, List.mem_append, List.mem_cons]
        grind
      · rcases h3 u hu with h | h
        · rcases hd u h with h | ⟨rfl, h⟩
          · exact .inl h
          · exact .inr ⟨_, hq, rfl, h⟩
        · exact .inr h

/-- Variables in `mid` are written but not closed. -/
def half (env : IOVar → Stream) (mid known : List IOVar) : PipeState String :=
  ⟨fun v => if v ∈ mid ++ known then env v else [], fun v => decide (v ∈ known)⟩

theorem half_append {env : IOVar → Stream} {mid known : List IOVar} {v : IOVar} (hv : v ∉ mid ++ known) :
    (half env mid known).append v (env v) = half env (v :: mid) known := by
  refine state_ext (fun u => ?_) (fun u => rfl)
  show (if u = v then (if u ∈ mid ++ known then env u else []) ++ env v else if u ∈ mid ++ known then env u else []) =
    if u ∈ v :: mid ++ known then env u else []
  by_cases e : u = v
  · subst e; rw [if_pos rfl, if_neg hv, if_pos (by simp)]; rfl
  · have : u ∈ v :: mid ++ known ↔ u ∈ mid ++ known := by simp [e]
    rw [if_neg e]; simp only [this]

theorem half_skip {env : IOVar → Stream} {mid known : List IOVar} {v : IOVar} (h0 : env v = []) :
    half env mid known = half env (v :: mid) known := by
  refine state_ext (fun u => ?_) (fun u => rfl)
  show (if u ∈ mid ++ known then env u else []) = if u ∈ v :: mid ++ known then env u else []
  by_cases e : u = v
  · subst e; rw [h0]; simp
  · have : u ∈ v :: mid ++ known ↔ u ∈ mid ++ known := by simp [e]
    simp only [this]

theorem half_closeAll {env : IOVar → Stream} {mid known : List IOVar} :
    closeAll (half env mid known) mid = filled env (mid ++ known) := by
  refine state_ext (fun u => rfl) (fun u => ?_)
  show (decide (u ∈ mid) || decide (u ∈ known)) = decide (u ∈ mid ++ known)
  simp

theorem half_nil {env : IOVar → Stream} {known : List IOVar} : half env [] known = filled env known := rfl

theorem half_content {env : IOVar → Stream} {mid known : List IOVar} {u : Writer} (hr : ∀ v ∈ u.reads, v ∈ known) {env' : IOVar → Stream}
    (h : Possible (half env mid known) u.reads env') : u.reads.map env' = u.reads.map env := by
  refine List.map_congr_left fun v hv => ?_
  have hk := hr v hv
  rw [(h v hv).2 (decide_eq_true hk)]
  exact if_pos (List.mem_append_right _ hk)

/-- All outputs of a command are written, up to where it is killed, but none is closed. -/
theorem write_half {prog : FilePrograms} {cmds : List CommandInvocationWithIOVars} {given : List (IOVar × Stream)}
    {env : IOVar → Stream} {known : List IOVar} {killed : List CommandInvocationWithIOVars} {broken : List IOVar} :
    ∀ (ws : List Writer) (mid : List IOVar), (∀ u ∈ ws, u ∈ cmds.flatMap (writersOf prog)) →
      (∀ u ∈ ws, ∀ v ∈ u.reads, v ∈ known) → (ws.map (·.var)).Nodup → (∀ u ∈ ws, u.var ∉ mid ++ known) →
      (∀ u ∈ ws, env u.var <+: u.content (u.reads.map env)) →
      AuxCrashRun prog cmds given killed broken (half env mid known) →
      ∃ mid', (∀ v, v ∈ mid' ↔ v ∈ ws.map (·.var) ++ mid) ∧ AuxCrashRun prog cmds given killed broken (half env mid' known)
  | [], mid, _, _, _, _, _, h => ⟨mid, by simp, h⟩
  | u :: ws, mid, hu, hr, hn, hd, he, h => by
      obtain ⟨hn1, hn2⟩ := List.nodup_cons.1 hn
      have hv : u.var ∉ mid ++ known := hd u List.mem_cons_self
      have hstep : AuxCrashRun prog cmds given killed broken (half env (u.var :: mid) known) := by
        by_cases h0 : env u.var = []
        · rw [← half_skip h0]; exact h
        · rw [← half_append hv]
          refine .works h (.write (hu u List.mem_cons_self) (decide_eq_false fun hk => hv (List.mem_append_right _ hk)) h0 ?_)
          intro env' hp
          rw [half_content (hr u List.mem_cons_self) hp, show (half env mid known).written u.var = [] from if_neg hv]
          exact he u List.mem_cons_self
      obtain ⟨mid', h1, h2⟩ := write_half ws (u.var :: mid) (fun w hw => hu w (List.mem_cons_of_mem _ hw))
        (fun w hw => hr w (List.mem_cons_of_mem _ hw)) hn2 (fun w hw => by
          have h1 := hd w (List.mem_cons_of_mem _ hw)
          have h2 : w.var ≠ u.var := fun e => hn1 (List.mem_map.2 ⟨w, hw, e⟩)
          exact fun hm => (List.mem_cons.1 hm).elim h2 h1)
        (fun w hw => he w (List.mem_cons_of_mem _ hw)) hstep
      refine ⟨mid', fun v => ?_, h2⟩
      rw [h1]
      simp only [List.map_cons, List.cons_append, List.mem_append, List.mem_cons]
      grind

/-- All outputs of a command are written and closed, one after the other. -/
theorem write_full {prog : FilePrograms} {cmds : List CommandInvocationWithIOVars} {given : List (IOVar × Stream)}
    {env : IOVar → Stream} {killed : List CommandInvocationWithIOVars} {broken : List IOVar} :
    ∀ (ws : List Writer) (known : List IOVar), (∀ u ∈ ws, u ∈ cmds.flatMap (writersOf prog)) →
      (∀ u ∈ ws, ∀ v ∈ u.reads, v ∈ known) → (ws.map (·.var)).Nodup → (∀ u ∈ ws, u.var ∉ known) →
      (∀ u ∈ ws, env u.var = u.content (u.reads.map env)) →
      AuxCrashRun prog cmds given killed broken (filled env known) →
      ∃ known', (∀ v, v ∈ known' ↔ v ∈ ws.map (·.var) ++ known) ∧ AuxCrashRun prog cmds given killed broken (filled env known')
  | [], known, _, _, _, _, _, h => ⟨known, by simp, h⟩
  | u :: ws, known, hu, hr, hn, hd, he, h => by
      obtain ⟨hn1, hn2⟩ := List.nodup_cons.1 hn
      have hv : u.var ∉ known := hd u List.mem_cons_self
      have hcl : (filled env known).closed u.var = false := decide_eq_false hv
      have hw : (filled env known).written u.var = [] := if_neg hv
      have hcont : ∀ env', Possible (filled env known) u.reads env' → u.content (u.reads.map env') = env u.var := by
        intro env' hp
        rw [half_content (mid := []) (hr u List.mem_cons_self) hp]
        exact (he u List.mem_cons_self).symm
      have hstep : AuxCrashRun prog cmds given killed broken (filled env (u.var :: known)) := by
        by_cases h0 : env u.var = []
        · rw [← filled_close hv h0]
          exact .works h (.stop (hu u List.mem_cons_self) hcl fun env' hp => by rw [hcont env' hp, hw, h0])
        · rw [← filled_append hv]
          refine .works (.works h (.write (hu u List.mem_cons_self) hcl h0 fun env' hp => ?_)) (.stop (hu u List.mem_cons_self) hcl
            fun env' hp => ?_)
          · rw [hcont env' hp, hw]; exact List.prefix_refl _
          · rw [hcont env' (possible_append hcl hp)]
            show (if u.var = u.var then _ ++ _ else _) = _
            rw [if_pos rfl, hw, List.nil_append]
      obtain ⟨known', h1, h2⟩ := write_full ws (u.var :: known) (fun w hw => hu w (List.mem_cons_of_mem _ hw))
        (fun w hw v hv => List.mem_cons_of_mem _ (hr w (List.mem_cons_of_mem _ hw) v hv)) hn2 (fun w hw => by
          have h1 := hd w (List.mem_cons_of_mem _ hw)
          have h2 : w.var ≠ u.var := fun e => hn1 (List.mem_map.2 ⟨w, hw, e⟩)
          exact fun hm => (List.mem_cons.1 hm).elim h2 h1)
        (fun w hw => he w (List.mem_cons_of_mem _ hw)) hstep
      refine ⟨known', fun v => ?_, h2⟩
      rw [h1]
      simp only [List.map_cons, List.cons_append, List.mem_append, List.mem_cons]
      grind

/-- Writers that all read the same, in front of others. -/
theorem inOrder_block {R : List IOVar} {rest : List Writer} : ∀ (ws : List Writer) (known : List IOVar), (∀ u ∈ ws, u.reads = R) →
    InOrder known (ws ++ rest) → ∃ known', (∀ v, v ∈ known' ↔ v ∈ ws.map (·.var) ++ known) ∧ InOrder known' rest ∧
      (ws.map (·.var)).Nodup ∧ (∀ u ∈ ws, u.var ∉ known) ∧ ∀ u ∈ ws, ∀ v ∈ u.reads, v ∈ known
  | [], known, _, h => ⟨known, by simp, h, by simp, by simp, by simp⟩
  | u :: ws, known, hR, .cons hi hn h => by
      obtain ⟨k, h1, h2, h3, h4, -⟩ := inOrder_block ws (u.var :: known) (fun w hw => hR w (List.mem_cons_of_mem _ hw)) h
      refine ⟨k, fun v => ?_, h2, List.nodup_cons.2 ⟨?_, h3⟩, fun w hw => ?_, fun w hw v hv => ?_⟩
      · rw [h1]
        simp only [List.map_cons, List.cons_append, List.mem_append, List.mem_cons]
        grind
      · intro hm
        obtain ⟨w, hw, e⟩ := List.mem_map.1 hm
        exact h4 w hw (by rw [show w.var = u.var from e]; exact List.mem_cons_self)
      · rcases List.mem_cons.1 hw with rfl | hw
        · exact hn
        · exact fun hk => h4 w hw (List.mem_cons_of_mem _ hk)
      · rw [hR w hw, ← hR u List.mem_cons_self] at hv
        exact hi v hv

theorem mem_writersOf_vars {prog : FilePrograms} {c : CommandInvocationWithIOVars} :
    (writersOf prog c).map (·.var) = operandsWith c .streamOutput := by
  unfold writersOf
  apply List.ext_getElem <;> simp

theorem half_same {env : IOVar → Stream} {mid mid' known : List IOVar} (h : ∀ v, v ∈ mid ↔ v ∈ mid') :
    half env mid known = half env mid' known := by
  refine state_ext (fun u => ?_) (fun u => rfl)
  show (if u ∈ mid ++ known then env u else []) = if u ∈ mid' ++ known then env u else []
  simp only [List.mem_append, h]

/-- The commands work one after the other, each up to where it is killed. -/
theorem aux_crash_all {prog : FilePrograms} {all : List CommandInvocationWithIOVars} {given : List (IOVar × Stream)}
    {env : IOVar → Stream} {broken : List IOVar} :
    ∀ (cmds : List CommandInvocationWithIOVars) (known known' : List IOVar) (killed : List CommandInvocationWithIOVars),
      (∀ c ∈ cmds, c ∈ all) → (∀ u ∈ cmds.flatMap (writersOf prog), env u.var <+: u.content (u.reads.map env)) →
      InOrder known (cmds.flatMap (writersOf prog)) → (∀ v, v ∈ known' ↔ v ∈ known) →
      AuxCrashRun prog all given killed broken (filled env known') →
      ∃ k killed' more, killed' = more ++ killed ∧ AuxCrashRun prog all given killed' broken (filled env k) ∧
        (∀ v, v ∈ k ↔ v ∈ (cmds.flatMap (writersOf prog)).map (·.var) ++ known) ∧ more.reverse.Sublist cmds ∧
        ∀ c ∈ more, ∃ u ∈ writersOf prog c, env u.var ≠ u.content (u.reads.map env)
  | [], known, known', killed, _, _, _, hk, h => ⟨known', killed, [], rfl, h, by simpa using hk, by simp, by simp⟩
  | c :: cmds, known, known', killed, hs, he, ho, hk, h => by
      rw [List.flatMap_cons] at he ho
      obtain ⟨k1, hk1, ho1, hn, hnew, hr⟩ := inOrder_block (writersOf prog c) known (R := operandsWith c .streamInput) (by
        intro u hu
        unfold writersOf at hu
        obtain ⟨k, hk, rfl⟩ := List.mem_mapIdx.1 hu
        rfl) ho
      have hmem : ∀ u ∈ writersOf prog c, u ∈ all.flatMap (writersOf prog) := fun u hu =>
        List.mem_flatMap.2 ⟨c, hs c List.mem_cons_self, hu⟩
      have hr' : ∀ u ∈ writersOf prog c, ∀ v ∈ u.reads, v ∈ known' := fun u hu v hv => (hk v).2 (hr u hu v hv)
      have hnew' : ∀ u ∈ writersOf prog c, u.var ∉ known' := fun u hu hh => hnew u hu ((hk _).1 hh)
      by_cases hall : ∀ u ∈ writersOf prog c, env u.var = u.content (u.reads.map env)
      · obtain ⟨k2, hk2, hrun⟩ := write_full (writersOf prog c) known' hmem hr' hn hnew' hall h
        obtain ⟨k, killed', more, e, h1, h2, h3, h4⟩ := aux_crash_all cmds k1 k2 killed (fun d hd => hs d (List.mem_cons_of_mem _ hd))
          (fun u hu => he u (List.mem_append_right _ hu)) ho1 (fun v => by
            rw [hk1, hk2, List.mem_append, List.mem_append, hk]) hrun
        refine ⟨k, killed', more, e, h1, fun v => ?_, h3.trans (List.sublist_cons_self _ _), h4⟩
        rw [h2, List.flatMap_cons, List.map_append]
        have := hk1 v
        simp only [List.mem_append] at this ⊢
        grind
      · obtain ⟨u, hu, hne⟩ : ∃ u ∈ writersOf prog c, env u.var ≠ u.content (u.reads.map env) := by
          refine Classical.byContradiction fun hno => hall fun u hu => Classical.byContradiction fun hne => hno ⟨u, hu, hne⟩
        obtain ⟨mid, hm, hrun⟩ := write_half (writersOf prog c) [] hmem hr' hn (fun u hu => hnew' u hu)
          (fun u hu => he u (List.mem_append_left _ hu)) (killed := killed) (broken := broken) h
        have hm' : ∀ v, v ∈ mid ↔ v ∈ operandsWith c .streamOutput := fun v => by
          rw [hm, List.append_nil, mem_writersOf_vars]
        rw [half_same hm'] at hrun
        have hd := AuxCrashRun.dies hrun (hs c List.mem_cons_self) ⟨u.var, by
          rw [← mem_writersOf_vars (prog := prog)]; exact List.mem_map.2 ⟨u, hu, rfl⟩, decide_eq_false (hnew' u hu)⟩
        rw [half_closeAll] at hd
        obtain ⟨k, killed', more, e, h1, h2, h3, h4⟩ := aux_crash_all cmds k1 _ (c :: killed)
          (fun d hd => hs d (List.mem_cons_of_mem _ hd))
          (fun u hu => he u (List.mem_append_right _ hu)) ho1 (fun v => by
            rw [hk1, List.mem_append, List.mem_append, hk, mem_writersOf_vars]) hd
        refine ⟨k, killed', more ++ [c], by simp [e], h1, fun v => ?_, ?_, fun d hd => ?_⟩
        · rw [h2, List.flatMap_cons, List.map_append]
          have := hk1 v
          simp only [List.mem_append] at this ⊢
          grind
        · rw [List.reverse_append]
          exact List.Sublist.cons_cons _ h3
        · rcases List.mem_append.1 hd with hd | hd
          · exact h4 d hd
          · rw [List.mem_singleton.1 hd]; exact ⟨u, hu, hne⟩

end PashAnn
