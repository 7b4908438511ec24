import Verif.Spec.AuxSchedules
import Verif.Lemmas.Schedules

/-! Lemmas for Props/AuxSchedules.lean: writers that are ordered so that each reads only what is given or written before it. -/

namespace PashAnn
open Spec

/-- Each writer reads only known variables and writes one that is not known before. -/
inductive InOrder : List IOVar → List Writer → Prop
  | nil (known : List IOVar) : InOrder known []
  | cons {known : List IOVar} {u : Writer} {ws : List Writer} (hi : ∀ v ∈ u.reads, v ∈ known) (hn : u.var ∉ known)
      (h : InOrder (u.var :: known) ws) : InOrder known (u :: ws)

theorem inOrder_mono {known known' : List IOVar} {ws : List Writer} (h : InOrder known ws) (hs : ∀ v ∈ known, v ∈ known')
    (hd : (ws.map (·.var) ++ known').Nodup) : InOrder known' ws := by
  induction h generalizing known' with
  | nil => exact .nil _
  | @cons known u ws hi hn h ih =>
      have hd' : u.var ∉ ws.map (·.var) ++ known' ∧ (ws.map (·.var) ++ known').Nodup := List.nodup_cons.1 hd
      refine .cons (fun v hv => hs v (hi v hv)) (fun hk => hd'.1 (List.mem_append_right _ hk)) (ih ?_ ?_)
      · intro v hv
        rcases List.mem_cons.1 hv with rfl | hv
        · exact List.mem_cons_self
        · exact List.mem_cons_of_mem _ (hs v hv)
      · exact (List.perm_middle.nodup_iff).2 hd

theorem inOrder_append {known : List IOVar} {ws ws' : List Writer} (h : InOrder known ws)
    (h' : InOrder (ws.map (·.var) ++ known) ws') (hd : ((ws ++ ws').map (·.var) ++ known).Nodup) : InOrder known (ws ++ ws') := by
  induction h with
  | nil => exact h'
  | @cons known u ws hi hn h ih =>
      have hp : ((ws ++ ws').map (·.var) ++ u.var :: known).Nodup := (List.perm_middle.nodup_iff).2 hd
      refine .cons hi hn (ih (inOrder_mono h' ?_ ?_) hp)
      · intro v hv
        simp only [List.map_cons, List.cons_append, List.mem_cons, List.mem_append] at hv ⊢
        rcases hv with rfl | hv | hv
        · exact .inr (.inl rfl)
        · exact .inl hv
        · exact .inr (.inr hv)
      · have : (ws'.map (·.var) ++ (ws.map (·.var) ++ u.var :: known)).Perm ((ws ++ ws').map (·.var) ++ u.var :: known) := by
          rw [← List.append_assoc, List.map_append]
          exact List.perm_append_comm.append_right _
        exact (this.nodup_iff).2 hp

/-- Writers that all read known variables. -/
theorem inOrder_all {known : List IOVar} {ws : List Writer} (hr : ∀ u ∈ ws, ∀ v ∈ u.reads, v ∈ known)
    (hd : (ws.map (·.var) ++ known).Nodup) : InOrder known ws := by
  induction ws generalizing known with
  | nil => exact .nil _
  | cons u ws ih =>
      have hd' : u.var ∉ ws.map (·.var) ++ known ∧ (ws.map (·.var) ++ known).Nodup := List.nodup_cons.1 hd
      refine .cons (hr u List.mem_cons_self) (fun hk => hd'.1 (List.mem_append_right _ hk)) (ih ?_ ?_)
      · exact fun w hw v hv => List.mem_cons_of_mem _ (hr w (List.mem_cons_of_mem _ hw) v hv)
      · exact (List.perm_middle.nodup_iff).2 hd

/-- The contents that the variables get in the end. -/
structure WriterEnds (ws : List Writer) (given : List (IOVar × Stream)) (env : IOVar → Stream) : Prop where
  given : ∀ q ∈ given, env q.1 = q.2
  made : ∀ u ∈ ws, env u.var = u.content (u.reads.map env)

theorem inOrder_ends {known : List IOVar} {ws : List Writer} (h : InOrder known ws) (env : IOVar → Stream) :
    ∃ env', (∀ v ∈ known, env' v = env v) ∧ ∀ u ∈ ws, env' u.var = u.content (u.reads.map env') := by
  induction h generalizing env with
  | nil => exact ⟨env, fun _ _ => rfl, by simp⟩
  | @cons known u ws hi hn h ih =>
      obtain ⟨env', h1, h2⟩ := ih (fun v => if v = u.var then u.content (u.reads.map env) else env v)
      have hk : ∀ v ∈ known, env' v = env v := by
        intro v hv
        rw [h1 v (List.mem_cons_of_mem _ hv)]
        have hne : ¬ v = u.var := fun e => hn (e ▸ hv)
        exact if_neg hne
      refine ⟨env', hk, fun d hd => ?_⟩
      rcases List.mem_cons.1 hd with rfl | hd
      · rw [h1 _ List.mem_cons_self]
        show (if _ = _ then _ else _) = _
        rw [if_pos rfl, List.map_congr_left fun v hv => (hk v (hi v hv)).symm]
      · exact h2 d hd

theorem writerStep_towards {ws : List Writer} {given : List (IOVar × Stream)} {env : IOVar → Stream}
    (he : WriterEnds ws given env) {s t : PipeState String} (h : Towards env s) (hst : WriterStep ws given s t) : Towards env t := by
  cases hst with
  | arrive hg ho hw hx => exact towards_append h ho (by rw [he.given _ hg]; exact hx)
  | last hg ho hx => exact towards_close h (by rw [he.given _ hg]; exact hx)
  | write hu ho hw hx => exact towards_append h ho (by rw [he.made _ hu]; exact hx env (towards_possible h _))
  | stop hu ho hx => exact towards_close h (by rw [he.made _ hu]; exact hx env (towards_possible h _))

theorem writerRun_towards {ws : List Writer} {given : List (IOVar × Stream)} {env : IOVar → Stream}
    (he : WriterEnds ws given env) {n : Nat} {s : PipeState String} (h : WriterRun ws given n s) : Towards env s := by
  induction h with
  | start => exact fun v => ⟨List.nil_prefix, fun hc => by cases hc⟩
  | step _ hst ih => exact writerStep_towards he ih hst

theorem writerStep_leftOver {ws : List Writer} {given : List (IOVar × Stream)} {env : IOVar → Stream}
    (he : WriterEnds ws given env) {vars : List IOVar} (hg : ∀ q ∈ given, q.1 ∈ vars) (hc : ∀ u ∈ ws, u.var ∈ vars)
    {s t : PipeState String} (h : Towards env s) (hst : WriterStep ws given s t) :
    (vars.map (leftOver env t)).sum + 1 ≤ (vars.map (leftOver env s)).sum := by
  cases hst with
  | arrive hq ho hw hx =>
      obtain ⟨h1, h2⟩ := leftOver_append (env := env) hw (by rw [he.given _ hq]; exact hx)
      exact (sum_less h1 vars).2 _ (hg _ hq) h2
  | last hq ho hx =>
      obtain ⟨h1, h2⟩ := leftOver_close (env := env) ho
      exact (sum_less h1 vars).2 _ (hg _ hq) h2
  | write hu ho hw hx =>
      obtain ⟨h1, h2⟩ := leftOver_append (env := env) hw (by rw [he.made _ hu]; exact hx env (towards_possible h _))
      exact (sum_less h1 vars).2 _ (hc _ hu) h2
  | stop hu ho hx =>
      obtain ⟨h1, h2⟩ := leftOver_close (env := env) ho
      exact (sum_less h1 vars).2 _ (hc _ hu) h2

theorem writerRun_bounded {ws : List Writer} {given : List (IOVar × Stream)} {env : IOVar → Stream}
    (he : WriterEnds ws given env) {vars : List IOVar} (hg : ∀ q ∈ given, q.1 ∈ vars) (hc : ∀ u ∈ ws, u.var ∈ vars) {n : Nat}
    {s : PipeState String} (h : WriterRun ws given n s) :
    n + (vars.map (leftOver env s)).sum ≤ (vars.map fun v => (env v).length + 1).sum := by
  induction h with
  | start =>
      rw [Nat.zero_add]
      refine (sum_less (fun u => ?_) vars).1
      unfold leftOver
      simp
  | step hr hst ih =>
      have := writerStep_leftOver he hg hc (writerRun_towards he hr) hst
      omega

theorem writer_progress {known : List IOVar} {ws : List Writer} (h : InOrder known ws) {all : List Writer}
    {given : List (IOVar × Stream)} (hs : ∀ u ∈ ws, u ∈ all) {env : IOVar → Stream} (he : WriterEnds all given env)
    {s : PipeState String} (ht : Towards env s) (hk : ∀ v ∈ known, s.closed v = true) (hend : ∀ t, ¬ WriterStep all given s t) :
    ∀ u ∈ ws, s.closed u.var = true := by
  induction h with
  | nil => simp
  | @cons known u ws hi hn h ih =>
      have hco : s.closed u.var = true := by
        cases hcl : s.closed u.var with
        | true => rfl
        | false =>
            exfalso
            have hout : ∀ env', Possible s u.reads env' → u.content (u.reads.map env') = env u.var := by
              intro env' hp
              rw [he.made u (hs u List.mem_cons_self)]
              refine congrArg _ (List.map_congr_left fun v hv => ?_)
              have hv' := hk v (hi v hv)
              rw [(hp v hv).2 hv', (ht v).2 hv']
            obtain ⟨w, hw⟩ := (ht u.var).1
            by_cases hw0 : w = []
            · refine hend _ (.stop (hs u List.mem_cons_self) hcl fun env' hp => ?_)
              rw [hout env' hp, ← hw, hw0, List.append_nil]
            · refine hend _ (.write (w := w) (hs u List.mem_cons_self) hcl hw0 fun env' hp => ?_)
              rw [hout env' hp, ← hw]
              exact List.prefix_refl _
      have hk' : ∀ v ∈ u.var :: known, s.closed v = true := by
        intro v hv
        rcases List.mem_cons.1 hv with rfl | hv
        · exact hco
        · exact hk v hv
      intro v hv
      rcases List.mem_cons.1 hv with rfl | hv
      · exact hco
      · exact ih (fun d hd => hs d (List.mem_cons_of_mem _ hd)) hk' v hv

theorem writer_given_closed {ws : List Writer} {given : List (IOVar × Stream)} {env : IOVar → Stream}
    (he : WriterEnds ws given env) {s : PipeState String} (ht : Towards env s) (hend : ∀ t, ¬ WriterStep ws given s t) :
    ∀ q ∈ given, s.closed q.1 = true := by
  rintro ⟨v, x⟩ hq
  cases hcl : s.closed v with
  | true => rfl
  | false =>
      exfalso
      have hv : env v = x := he.given _ hq
      obtain ⟨w, hw⟩ := (ht v).1
      rw [hv] at hw
      by_cases hw0 : w = []
      · rw [hw0, List.append_nil] at hw
        exact hend _ (.last hq hcl hw)
      · exact hend _ (.arrive hq hcl hw0 (by rw [hw]; exact List.prefix_refl _))

end PashAnn
