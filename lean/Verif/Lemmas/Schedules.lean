import Verif.Spec.Schedules

/-! Lemmas for Props/Schedules.lean: commands that are ordered so that each reads only what is given or written before it. -/

namespace PashAnn
open Spec

variable {α : Type} {prog : ProgramsOn α}

/-- Each command reads only known variables and writes one that is not known before. -/
inductive Ordered : List IOVar → List CommandInvocationWithIOVars → List IOVar → Prop
  | nil (known : List IOVar) : Ordered known [] []
  | cons {known : List IOVar} {c : CommandInvocationWithIOVars} {cmds : List CommandInvocationWithIOVars} {o : IOVar}
      {made : List IOVar} (hi : ∀ v ∈ withAccess c .streamInput, v ∈ known) (ho : withAccess c .streamOutput = [o])
      (hn : o ∉ known) (h : Ordered (o :: known) cmds made) : Ordered known (c :: cmds) (o :: made)

theorem ordered_mono {known known' : List IOVar} {cmds : List CommandInvocationWithIOVars} {made : List IOVar}
    (h : Ordered known cmds made) (hs : ∀ v ∈ known, v ∈ known') (hd : (made ++ known').Nodup) : Ordered known' cmds made := by
  induction h generalizing known' with
  | nil => exact .nil _
  | @cons known c cmds o made hi ho hn h ih =>
      have hd' : o ∉ made ++ known' ∧ (made ++ known').Nodup := List.nodup_cons.1 hd
      refine .cons (fun v hv => hs v (hi v hv)) ho (fun hk => hd'.1 (List.mem_append_right _ hk)) (ih ?_ ?_)
      · intro v hv
        rcases List.mem_cons.1 hv with rfl | hv
        · exact List.mem_cons_self
        · exact List.mem_cons_of_mem _ (hs v hv)
      · exact (List.perm_middle.nodup_iff).2 hd

theorem ordered_append {known : List IOVar} {cmds cmds' : List CommandInvocationWithIOVars} {made made' : List IOVar}
    (h : Ordered known cmds made) (h' : Ordered (made ++ known) cmds' made') (hd : ((made ++ made') ++ known).Nodup) :
    Ordered known (cmds ++ cmds') (made ++ made') := by
  induction h with
  | nil => exact h'
  | @cons known c cmds o made hi ho hn h ih =>
      have hd' : (o :: ((made ++ made') ++ known)).Nodup := hd
      have hp : ((made ++ made') ++ o :: known).Nodup := (List.perm_middle.nodup_iff).2 hd'
      refine .cons hi ho hn (ih (ordered_mono h' ?_ ?_) hp)
      · intro v hv
        simp only [List.cons_append, List.mem_cons, List.mem_append] at hv ⊢
        rcases hv with rfl | hv | hv
        · exact .inr (.inl rfl)
        · exact .inl hv
        · exact .inr (.inr hv)
      · have : (made' ++ (made ++ o :: known)).Perm ((made ++ made') ++ o :: known) := by
          rw [← List.append_assoc]
          exact List.perm_append_comm.append_right _
        exact (this.nodup_iff).2 hp

/-- The contents that the variables get in the end. -/
structure Ends (prog : ProgramsOn α) (cmds : List CommandInvocationWithIOVars) (given : List (IOVar × List α))
    (env : IOVar → List α) : Prop where
  given : ∀ q ∈ given, env q.1 = q.2
  made : ∀ c ∈ cmds, ∀ o, withAccess c .streamOutput = [o] → env o = output prog env c

theorem output_congr {c : CommandInvocationWithIOVars} {env env' : IOVar → List α}
    (h : ∀ v ∈ withAccess c .streamInput, env v = env' v) : output prog env c = output prog env' c := by
  unfold output
  rw [List.map_congr_left h]

theorem ordered_ends {known : List IOVar} {cmds : List CommandInvocationWithIOVars} {made : List IOVar}
    (h : Ordered known cmds made) (env : IOVar → List α) :
    ∃ env', (∀ v ∈ known, env' v = env v) ∧ ∀ c ∈ cmds, ∀ o, withAccess c .streamOutput = [o] → env' o = output prog env' c := by
  induction h generalizing env with
  | nil => exact ⟨env, fun _ _ => rfl, by simp⟩
  | @cons known c cmds o made hi ho hn h ih =>
      obtain ⟨env', h1, h2⟩ := ih (fun v => if v = o then output prog env c else env v)
      have hk : ∀ v ∈ known, env' v = env v := by
        intro v hv
        rw [h1 v (List.mem_cons_of_mem _ hv)]
        have hne : ¬ v = o := fun e => hn (e ▸ hv)
        exact if_neg hne
      refine ⟨env', hk, fun d hd u hu => ?_⟩
      rcases List.mem_cons.1 hd with rfl | hd
      · rw [ho] at hu; cases hu
        rw [h1 o List.mem_cons_self]
        show (if o = o then _ else _) = _
        rw [if_pos rfl]
        exact output_congr fun v hv => (hk v (hi v hv)).symm
      · exact h2 d hd u hu

/-- What has been written is a beginning of what comes in the end, and all of it if the writer has stopped. -/
def Towards (env : IOVar → List α) (s : PipeState α) : Prop :=
  ∀ v, s.written v <+: env v ∧ (s.closed v = true → s.written v = env v)

theorem towards_possible {env : IOVar → List α} {s : PipeState α} (h : Towards env s) (vars : List IOVar) : Possible s vars env :=
  fun v _ => ⟨(h v).1, fun hc => ((h v).2 hc).symm⟩

theorem towards_append {env : IOVar → List α} {s : PipeState α} (h : Towards env s) {v : IOVar} {w : List α}
    (ho : s.closed v = false) (hw : s.written v ++ w <+: env v) : Towards env (s.append v w) := by
  intro u
  by_cases hu : u = v
  · subst hu
    refine ⟨by simpa [PipeState.append] using hw, fun hc => ?_⟩
    have : s.closed u = true := hc
    rw [ho] at this; cases this
  · have e : (s.append v w).written u = s.written u := if_neg hu
    rw [e]
    exact h u

theorem towards_close {env : IOVar → List α} {s : PipeState α} (h : Towards env s) {v : IOVar} (hw : s.written v = env v) :
    Towards env (s.close v) := by
  intro u
  by_cases hu : u = v
  · subst hu
    exact ⟨(h u).1, fun _ => hw⟩
  · refine ⟨(h u).1, fun hc => (h u).2 ?_⟩
    have e : (s.close v).closed u = s.closed u := if_neg hu
    rwa [e] at hc

theorem step_towards {cmds : List CommandInvocationWithIOVars} {given : List (IOVar × List α)} {env : IOVar → List α}
    (he : Ends prog cmds given env) {s t : PipeState α} (h : Towards env s) (hst : PipeStep prog cmds given s t) : Towards env t := by
  cases hst with
  | arrive hg ho hw hx => exact towards_append h ho (by rw [he.given _ hg]; exact hx)
  | last hg ho hx => exact towards_close h (by rw [he.given _ hg]; exact hx)
  | write hc hv ho hw hx => exact towards_append h ho (by rw [he.made _ hc _ hv]; exact hx env (towards_possible h _))
  | stop hc hv ho hx => exact towards_close h (by rw [he.made _ hc _ hv]; exact hx env (towards_possible h _))

theorem run_towards {cmds : List CommandInvocationWithIOVars} {given : List (IOVar × List α)} {env : IOVar → List α}
    (he : Ends prog cmds given env) {n : Nat} {s : PipeState α} (h : PipeRun prog cmds given n s) : Towards env s := by
  induction h with
  | start => exact fun v => ⟨List.nil_prefix, fun hc => by cases hc⟩
  | step _ hst ih => exact step_towards he ih hst

/-- What is left to do for a variable. -/
def leftOver (env : IOVar → List α) (s : PipeState α) (v : IOVar) : Nat :=
  ((env v).length - (s.written v).length) + if s.closed v = true then 0 else 1

theorem leftOver_append {env : IOVar → List α} {s : PipeState α} {v : IOVar} {w : List α} (hw : w ≠ [])
    (hp : s.written v ++ w <+: env v) :
    (∀ u, leftOver env (s.append v w) u ≤ leftOver env s u) ∧ leftOver env (s.append v w) v + 1 ≤ leftOver env s v := by
  have hl := hp.length_le
  rw [List.length_append] at hl
  have hw' : 0 < w.length := List.length_pos_iff.2 hw
  have e : (s.append v w).written v = s.written v ++ w := if_pos rfl
  have hv : leftOver env (s.append v w) v + 1 ≤ leftOver env s v := by
    unfold leftOver
    rw [e, List.length_append]
    show _ + (if s.closed v = true then 0 else 1) + 1 ≤ _
    omega
  refine ⟨fun u => ?_, hv⟩
  by_cases hu : u = v
  · subst hu; omega
  · unfold leftOver
    rw [show (s.append v w).written u = s.written u from if_neg hu]
    exact Nat.le_refl _

theorem leftOver_close {env : IOVar → List α} {s : PipeState α} {v : IOVar} (ho : s.closed v = false) :
    (∀ u, leftOver env (s.close v) u ≤ leftOver env s u) ∧ leftOver env (s.close v) v + 1 ≤ leftOver env s v := by
  have hv : leftOver env (s.close v) v + 1 ≤ leftOver env s v := by
    unfold leftOver
    rw [show (s.close v).closed v = true from if_pos rfl, ho]
    exact Nat.le_refl _
  refine ⟨fun u => ?_, hv⟩
  by_cases hu : u = v
  · subst hu; omega
  · unfold leftOver
    rw [show (s.close v).closed u = s.closed u from if_neg hu]
    exact Nat.le_refl _

theorem sum_less {f g : IOVar → Nat} (h : ∀ u, f u ≤ g u) : ∀ (l : List IOVar), (l.map f).sum ≤ (l.map g).sum ∧
    ∀ v ∈ l, f v + 1 ≤ g v → (l.map f).sum + 1 ≤ (l.map g).sum
  | [] => ⟨Nat.le_refl _, by simp⟩
  | a :: l => by
      obtain ⟨h1, h2⟩ := sum_less h l
      have ha := h a
      simp only [List.map_cons, List.sum_cons]
      refine ⟨by omega, fun v hv hlt => ?_⟩
      rcases List.mem_cons.1 hv with rfl | hv
      · omega
      · have := h2 v hv hlt; omega

theorem step_leftOver {cmds : List CommandInvocationWithIOVars} {given : List (IOVar × List α)} {env : IOVar → List α}
    (he : Ends prog cmds given env) {vars : List IOVar} (hg : ∀ q ∈ given, q.1 ∈ vars)
    (hc : ∀ c ∈ cmds, ∀ o, withAccess c .streamOutput = [o] → o ∈ vars) {s t : PipeState α} (h : Towards env s)
    (hst : PipeStep prog cmds given s t) : (vars.map (leftOver env t)).sum + 1 ≤ (vars.map (leftOver env s)).sum := by
  cases hst with
  | arrive hq ho hw hx =>
      obtain ⟨h1, h2⟩ := leftOver_append (env := env) hw (by rw [he.given _ hq]; exact hx)
      exact (sum_less h1 vars).2 _ (hg _ hq) h2
  | last hq ho hx =>
      obtain ⟨h1, h2⟩ := leftOver_close (env := env) ho
      exact (sum_less h1 vars).2 _ (hg _ hq) h2
  | write hd hv ho hw hx =>
      obtain ⟨h1, h2⟩ := leftOver_append (env := env) hw (by rw [he.made _ hd _ hv]; exact hx env (towards_possible h _))
      exact (sum_less h1 vars).2 _ (hc _ hd _ hv) h2
  | stop hd hv ho hx =>
      obtain ⟨h1, h2⟩ := leftOver_close (env := env) ho
      exact (sum_less h1 vars).2 _ (hc _ hd _ hv) h2

theorem run_bounded {cmds : List CommandInvocationWithIOVars} {given : List (IOVar × List α)} {env : IOVar → List α}
    (he : Ends prog cmds given env) {vars : List IOVar} (hg : ∀ q ∈ given, q.1 ∈ vars)
    (hc : ∀ c ∈ cmds, ∀ o, withAccess c .streamOutput = [o] → o ∈ vars) {n : Nat} {s : PipeState α}
    (h : PipeRun prog cmds given n s) :
    n + (vars.map (leftOver env s)).sum ≤ (vars.map fun v => (env v).length + 1).sum := by
  induction h with
  | start =>
      rw [Nat.zero_add]
      refine (sum_less (fun u => ?_) vars).1
      unfold leftOver
      simp
  | step hr hst ih =>
      have := step_leftOver he hg hc (run_towards he hr) hst
      omega

/-- If all given variables are closed, all that are written are, or something can be done. -/
theorem ordered_progress {known : List IOVar} {cmds : List CommandInvocationWithIOVars} {made : List IOVar}
    (h : Ordered known cmds made) {all : List CommandInvocationWithIOVars} {given : List (IOVar × List α)} (hs : ∀ c ∈ cmds, c ∈ all)
    {env : IOVar → List α} (he : Ends prog all given env) {s : PipeState α} (ht : Towards env s)
    (hk : ∀ v ∈ known, s.closed v = true) (hend : NothingLeft prog all given s) : ∀ v ∈ made, s.closed v = true := by
  induction h with
  | nil => simp
  | @cons known c cmds o made hi ho hn h ih =>
      have hco : s.closed o = true := by
        cases hcl : s.closed o with
        | true => rfl
        | false =>
            exfalso
            have hout : ∀ env', Possible s (withAccess c .streamInput) env' → output prog env' c = env o := by
              intro env' hp
              rw [he.made c (hs c List.mem_cons_self) o ho]
              refine output_congr fun v hv => ?_
              have hv' := hk v (hi v hv)
              rw [(hp v hv).2 hv', (ht v).2 hv']
            obtain ⟨w, hw⟩ := (ht o).1
            by_cases hw0 : w = []
            · refine hend _ (.stop (hs c List.mem_cons_self) ho hcl fun env' hp => ?_)
              rw [hout env' hp, ← hw, hw0, List.append_nil]
            · refine hend _ (.write (w := w) (hs c List.mem_cons_self) ho hcl hw0 fun env' hp => ?_)
              rw [hout env' hp, ← hw]
              exact List.prefix_refl _
      have hk' : ∀ v ∈ o :: known, s.closed v = true := by
        intro v hv
        rcases List.mem_cons.1 hv with rfl | hv
        · exact hco
        · exact hk v hv
      intro v hv
      rcases List.mem_cons.1 hv with rfl | hv
      · exact hco
      · exact ih (fun d hd => hs d (List.mem_cons_of_mem _ hd)) hk' v hv

/-- At the end all given variables are closed. -/
theorem given_closed {cmds : List CommandInvocationWithIOVars} {given : List (IOVar × List α)} {env : IOVar → List α}
    (he : Ends prog cmds given env) {s : PipeState α} (ht : Towards env s) (hend : NothingLeft prog cmds given s) :
    ∀ q ∈ given, s.closed q.1 = true := by
  rintro ⟨v, x⟩ hq
  cases hcl : s.closed v with
  | true => rfl
  | false =>
      exfalso
      have hv : env v = x := he.given _ hq
      obtain ⟨w, hw⟩ := (ht v).1
      rw [hv] at hw
      by_cases hw0 : w = []
      · rw [hw0, List.append_nil] at hw
        exact hend _ (.last hq hcl hw)
      · exact hend _ (.arrive hq hcl hw0 (by rw [hw]; exact List.prefix_refl _))

end PashAnn
