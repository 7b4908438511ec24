import Verif.Spec.Crashes
import Verif.Lemmas.Schedules

/-! Lemmas for Props/Crashes.lean. -/

namespace PashAnn
open Spec

variable {α : Type} {prog : ProgramsOn α}

/-- What has been written is a beginning of what is given, or of what the command writes, whatever is still to come. -/
structure Begun (prog : ProgramsOn α) (cmds : List CommandInvocationWithIOVars) (given : List (IOVar × List α))
    (s : PipeState α) : Prop where
  given : ∀ q ∈ given, s.written q.1 <+: q.2
  made : ∀ c ∈ cmds, ∀ v, withAccess c .streamOutput = [v] → ∀ env, Possible s (withAccess c .streamInput) env →
    s.written v <+: output prog env c

/-- Every variable has one writer. -/
structure OneWriter (cmds : List CommandInvocationWithIOVars) (given : List (IOVar × List α)) : Prop where
  inputs : ∀ q ∈ given, ∀ r ∈ given, q.1 = r.1 → q = r
  outputs : ∀ c ∈ cmds, ∀ d ∈ cmds, ∀ v, withAccess c .streamOutput = [v] → withAccess d .streamOutput = [v] → c = d
  apart : ∀ q ∈ given, ∀ c ∈ cmds, withAccess c .streamOutput ≠ [q.1]

theorem possible_append {s : PipeState α} {v : IOVar} {w : List α} (ho : s.closed v = false) {vars : List IOVar}
    {env : IOVar → List α} (h : Possible (s.append v w) vars env) : Possible s vars env := by
  intro u hu
  obtain ⟨h1, h2⟩ := h u hu
  by_cases e : u = v
  · subst e
    have e1 : (s.append u w).written u = s.written u ++ w := if_pos rfl
    rw [e1] at h1
    exact ⟨(List.prefix_append _ _).trans h1, fun hc => by rw [ho] at hc; cases hc⟩
  · have e1 : (s.append v w).written u = s.written u := if_neg e
    rw [e1] at h1 h2
    exact ⟨h1, h2⟩

theorem possible_close {s : PipeState α} {v : IOVar} {vars : List IOVar} {env : IOVar → List α}
    (h : Possible (s.close v) vars env) : Possible s vars env := by
  intro u hu
  obtain ⟨h1, h2⟩ := h u hu
  refine ⟨h1, fun hc => h2 ?_⟩
  show (if u = v then true else s.closed u) = true
  split
  · rfl
  · exact hc

theorem begun_close {cmds : List CommandInvocationWithIOVars} {given : List (IOVar × List α)} {s : PipeState α}
    (h : Begun prog cmds given s) (v : IOVar) : Begun prog cmds given (s.close v) :=
  ⟨h.given, fun c hc u hu env he => h.made c hc u hu env (possible_close he)⟩

theorem begun_step {cmds : List CommandInvocationWithIOVars} {given : List (IOVar × List α)} (hw1 : OneWriter cmds given)
    {s t : PipeState α} (h : Begun prog cmds given s) (hst : PipeStep prog cmds given s t) : Begun prog cmds given t := by
  cases hst with
  | last => exact begun_close h _
  | stop => exact begun_close h _
  | @arrive v x w hg ho hw hx =>
      refine ⟨fun q hq => ?_, fun c hc u hu env he => ?_⟩
      · by_cases e : q.1 = v
        · rw [hw1.inputs q hq (v, x) hg e]
          exact (show (s.append v w).written v = s.written v ++ w from if_pos rfl) ▸ hx
        · rw [show (s.append v w).written q.1 = s.written q.1 from if_neg e]
          exact h.given q hq
      · have e : u ≠ v := fun e => hw1.apart (v, x) hg c hc (e ▸ hu)
        rw [show (s.append v w).written u = s.written u from if_neg e]
        exact h.made c hc u hu env (possible_append ho he)
  | @write d v w hd hv ho hw hx =>
      refine ⟨fun q hq => ?_, fun c hc u hu env he => ?_⟩
      · have e : q.1 ≠ v := fun e => hw1.apart q hq d hd (e ▸ hv)
        rw [show (s.append v w).written q.1 = s.written q.1 from if_neg e]
        exact h.given q hq
      · by_cases e : u = v
        · subst e
          rw [show (s.append u w).written u = s.written u ++ w from if_pos rfl, hw1.outputs c hc d hd u hu hv]
          refine hx env (possible_append (w := w) ho ?_)
          rw [← hw1.outputs c hc d hd u hu hv]; exact he
        · rw [show (s.append v w).written u = s.written u from if_neg e]
          exact h.made c hc u hu env (possible_append ho he)

theorem run_begun {cmds : List CommandInvocationWithIOVars} {given : List (IOVar × List α)} (hw1 : OneWriter cmds given)
    {dead : List IOVar} {s : PipeState α} (h : CrashRun prog cmds given dead s) : Begun prog cmds given s := by
  induction h with
  | start => exact ⟨fun _ _ => List.nil_prefix, fun _ _ _ _ _ _ => List.nil_prefix⟩
  | works _ hst ih => exact begun_step hw1 ih hst
  | dies _ _ _ _ ih => exact begun_close ih _
  | breaks _ _ _ ih => exact begun_close ih _

/-- A run in which nothing is killed is a run of the work. -/
theorem run_undisturbed {cmds : List CommandInvocationWithIOVars} {given : List (IOVar × List α)} {dead : List IOVar}
    {s : PipeState α} (h : CrashRun prog cmds given dead s) : dead = [] → ∃ n, PipeRun prog cmds given n s := by
  induction h with
  | start => exact fun _ => ⟨0, .start⟩
  | works _ hst ih =>
      intro h0
      obtain ⟨n, hn⟩ := ih h0
      exact ⟨n + 1, .step hn hst⟩
  | dies => exact fun h => by cases h
  | breaks => exact fun h => by cases h

theorem possible_written (s : PipeState α) (vars : List IOVar) : Possible s vars s.written :=
  fun _ _ => ⟨List.prefix_refl _, fun _ => rfl⟩

/-- The state in which the variables of a list have their contents and are closed, and nothing else is written. -/
def filled (env : IOVar → List α) (known : List IOVar) : PipeState α :=
  ⟨fun v => if v ∈ known then env v else [], fun v => decide (v ∈ known)⟩

theorem state_ext {s t : PipeState α} (h1 : ∀ v, s.written v = t.written v) (h2 : ∀ v, s.closed v = t.closed v) : s = t := by
  cases s; cases t
  have := funext h1; have := funext h2
  simp_all

theorem filled_append {env : IOVar → List α} {known : List IOVar} {v : IOVar} (hv : v ∉ known) :
    ((filled env known).append v (env v)).close v = filled env (v :: known) := by
  refine state_ext (fun u => ?_) (fun u => ?_)
  · show (if u = v then (if u ∈ known then env u else []) ++ env v else if u ∈ known then env u else []) =
      if u ∈ v :: known then env u else []
    by_cases e : u = v
    · subst e; simp [hv]
    · simp [e]
  · show (if u = v then true else decide (u ∈ known)) = decide (u ∈ v :: known)
    by_cases e : u = v
    · subst e; simp
    · simp [e]

theorem filled_close {env : IOVar → List α} {known : List IOVar} {v : IOVar} (hv : v ∉ known) (h0 : env v = []) :
    (filled env known).close v = filled env (v :: known) := by
  rw [← filled_append hv]
  congr 1
  refine state_ext (fun u => ?_) (fun u => rfl)
  show _ = if u = v then (if u ∈ known then env u else []) ++ env v else if u ∈ known then env u else []
  by_cases e : u = v
  · subst e; simp [h0, filled, hv]
  · rw [if_neg e]; rfl

/-- The inputs arrive one after the other, each up to where it breaks off. -/
theorem arrive_all {cmds : List CommandInvocationWithIOVars} {given : List (IOVar × List α)} {env : IOVar → List α}
    (hg : ∀ q ∈ given, env q.1 <+: q.2) :
    ∀ (vars known dead : List IOVar), (∀ v ∈ vars, ∃ q ∈ given, q.1 = v) → (vars ++ known).Nodup →
      CrashRun prog cmds given dead (filled env known) → ∃ known' dead', CrashRun prog cmds given dead' (filled env known') ∧
        (∀ v, v ∈ known' ↔ v ∈ vars ++ known) ∧
        (∀ v ∈ dead', v ∈ dead ∨ ∃ q ∈ given, q.1 = v ∧ v ∈ vars ∧ env v ≠ q.2) ∧ (dead.Nodup → (∀ v ∈ vars, v ∉ dead) → dead'.Nodup)
  | [], known, dead, _, _, h => ⟨known, dead, h, by simp, fun _ h => .inl h, fun h _ => h⟩
  | v :: vars, known, dead, hv, hn, h => by
      obtain ⟨hn1, hn2⟩ := List.nodup_cons.1 hn
      have hk : v ∉ known := fun hk => hn1 (List.mem_append_right _ hk)
      obtain ⟨⟨v', x⟩, hq, rfl⟩ := hv v List.mem_cons_self
      have ho : (filled env known).closed v' = false := decide_eq_false hk
      have hw : (filled env known).written v' = [] := if_neg hk
      obtain ⟨d, h', hd, hdn⟩ : ∃ d, CrashRun prog cmds given d (filled env (v' :: known)) ∧
          (∀ u ∈ d, u ∈ dead ∨ (u = v' ∧ env u ≠ x)) ∧ (dead.Nodup → v' ∉ dead → d.Nodup) := by
        by_cases hx : env v' = x
        · by_cases h0 : env v' = []
          · refine ⟨dead, ?_, fun _ h => .inl h, fun h _ => h⟩
            rw [← filled_close hk h0]
            exact .works h (.last hq ho (by rw [hw, ← hx, h0]))
          · refine ⟨dead, ?_, fun _ h => .inl h, fun h _ => h⟩
            rw [← filled_append hk]
            refine .works (.works h (.arrive hq ho h0 (by rw [hw]; exact hg _ hq))) (.last hq ho ?_)
            show (if v' = v' then _ ++ _ else _) = x
            rw [if_pos rfl, hw, List.nil_append, hx]
        · refine ⟨v' :: dead, ?_, fun u hu => ?_, fun h1 h2 => List.nodup_cons.2 ⟨h2, h1⟩⟩
          · by_cases h0 : env v' = []
            · rw [← filled_close hk h0]
              exact .breaks h hq ho
            · rw [← filled_append hk]
              exact .breaks (.works h (.arrive hq ho h0 (by rw [hw]; exact hg _ hq))) hq ho
          · rcases List.mem_cons.1 hu with rfl | hu
            · exact .inr ⟨rfl, hx⟩
            · exact .inl hu
      obtain ⟨k, d', h1, h2, h3, h4⟩ := arrive_all hg vars (v' :: known) d (fun u hu => hv u (List.mem_cons_of_mem _ hu))
        (List.perm_middle.nodup_iff.2 hn) h'
      refine ⟨k, d', h1, fun u => ?_, fun u hu => ?_, fun hn hnv => ?_⟩
      · rw [h2]
        simp only [List.cons_append, List.mem_append, List.mem_cons]
        grind
      · rcases h3 u hu with h | ⟨q, hq', e, hm, hne⟩
        · rcases hd u h with h | ⟨rfl, h⟩
          · exact .inl h
          · exact .inr ⟨_, hq, rfl, List.mem_cons_self, h⟩
        · exact .inr ⟨q, hq', e, List.mem_cons_of_mem _ hm, hne⟩
      · refine h4 (hdn hn (hnv v' List.mem_cons_self)) fun u hu hud => ?_
        rcases hd u hud with h | ⟨rfl, -⟩
        · exact hnv u (List.mem_cons_of_mem _ hu) h
        · exact hn1 (List.mem_append_left _ hu)

/-- The commands work one after the other, each up to where it is killed. -/
theorem crash_all {known : List IOVar} {cmds : List CommandInvocationWithIOVars} {made : List IOVar} (h : Ordered known cmds made)
    {all : List CommandInvocationWithIOVars} {given : List (IOVar × List α)} (hs : ∀ c ∈ cmds, c ∈ all) {env : IOVar → List α}
    (he : ∀ c ∈ cmds, ∀ v, withAccess c .streamOutput = [v] → env v <+: output prog env c)
    {known' dead : List IOVar} (hk : ∀ v, v ∈ known' ↔ v ∈ known) (hr : CrashRun prog all given dead (filled env known')) :
    ∃ k dead', CrashRun prog all given dead' (filled env k) ∧ (∀ v, v ∈ k ↔ v ∈ known ++ made) ∧
      (∀ v ∈ dead', v ∈ dead ∨ ∃ c ∈ cmds, withAccess c .streamOutput = [v] ∧ v ∈ made ∧ env v ≠ output prog env c) ∧
      (dead.Nodup → (∀ v ∈ dead, v ∈ known) → dead'.Nodup) := by
  induction h generalizing known' dead with
  | nil => exact ⟨known', dead, hr, by simpa using hk, fun _ h => .inl h, fun h _ => h⟩
  | @cons known c cmds o made hi ho hn h ih =>
      have hn' : o ∉ known' := fun e => hn ((hk o).1 e)
      have hcl : (filled env known').closed o = false := decide_eq_false hn'
      have hw : (filled env known').written o = [] := if_neg hn'
      have hc := hs c List.mem_cons_self
      have hout : ∀ env', Possible (filled env known') (withAccess c .streamInput) env' → output prog env' c = output prog env c := by
        intro env' hp
        refine output_congr fun v hv => ?_
        have hv' : v ∈ known' := (hk v).2 (hi v hv)
        rw [(hp v hv).2 (decide_eq_true hv')]
        exact if_pos hv'
      have hout' : ∀ env', Possible ((filled env known').append o (env o)) (withAccess c .streamInput) env' →
          output prog env' c = output prog env c := fun env' hp => hout env' (possible_append hcl hp)
      obtain ⟨d, hr', hd, hdn⟩ : ∃ d, CrashRun prog all given d (filled env (o :: known')) ∧
          (∀ u ∈ d, u ∈ dead ∨ (u = o ∧ env u ≠ output prog env c)) ∧ (dead.Nodup → o ∉ dead → d.Nodup) := by
        have hwrite : env o ≠ [] → CrashRun prog all given dead ((filled env known').append o (env o)) := fun h0 =>
          .works hr (.write hc ho hcl h0 fun env' hp => by
            rw [hw, List.nil_append, hout env' hp]
            exact he c List.mem_cons_self o ho)
        by_cases hx : env o = output prog env c
        · refine ⟨dead, ?_, fun _ h => .inl h, fun h _ => h⟩
          by_cases h0 : env o = []
          · rw [← filled_close hn' h0]
            exact .works hr (.stop hc ho hcl fun env' hp => by rw [hw, hout env' hp, ← hx, h0])
          · rw [← filled_append hn']
            refine .works (hwrite h0) (.stop hc ho hcl fun env' hp => ?_)
            rw [hout' env' hp, ← hx]
            show (if o = o then _ ++ _ else _) = _
            rw [if_pos rfl, hw, List.nil_append]
        · refine ⟨o :: dead, ?_, fun u hu => ?_, fun h1 h2 => List.nodup_cons.2 ⟨h2, h1⟩⟩
          · by_cases h0 : env o = []
            · rw [← filled_close hn' h0]
              exact .dies hr hc ho hcl
            · rw [← filled_append hn']
              exact .dies (hwrite h0) hc ho hcl
          · rcases List.mem_cons.1 hu with rfl | hu
            · exact .inr ⟨rfl, hx⟩
            · exact .inl hu
      obtain ⟨k, d', h1, h2, h3, h4⟩ := ih (fun d hd => hs d (List.mem_cons_of_mem _ hd)) (fun d hd => he d (List.mem_cons_of_mem _ hd))
        (known' := o :: known') (by intro v; simp only [List.mem_cons, hk]) hr'
      refine ⟨k, d', h1, fun v => ?_, fun v hv => ?_, fun hnd hdk => ?_⟩
      · rw [h2]
        simp only [List.cons_append, List.mem_append, List.mem_cons]
        grind
      · rcases h3 v hv with h | ⟨e, he', hv', hm, hne⟩
        · rcases hd v h with h | ⟨rfl, hne⟩
          · exact .inl h
          · exact .inr ⟨c, List.mem_cons_self, ho, List.mem_cons_self, hne⟩
        · exact .inr ⟨e, List.mem_cons_of_mem _ he', hv', List.mem_cons_of_mem _ hm, hne⟩
      · refine h4 (hdn hnd fun e => hn (hdk o e)) fun u hu => ?_
        rcases hd u hu with h | ⟨rfl, -⟩
        · exact List.mem_cons_of_mem _ (hdk u h)
        · exact List.mem_cons_self

/-- Contents such that each command's output is cut as wanted. -/
theorem ordered_cut {known : List IOVar} {cmds : List CommandInvocationWithIOVars} {made : List IOVar}
    (h : Ordered known cmds made) (cut : IOVar → List α → List α) (env : IOVar → List α) :
    ∃ env', (∀ v ∈ known, env' v = env v) ∧
      ∀ c ∈ cmds, ∀ o, withAccess c .streamOutput = [o] → env' o = cut o (output prog env' c) := by
  induction h generalizing env with
  | nil => exact ⟨env, fun _ _ => rfl, by simp⟩
  | @cons known c cmds o made hi ho hn h ih =>
      obtain ⟨env', h1, h2⟩ := ih (fun v => if v = o then cut o (output prog env c) else env v)
      have hk : ∀ v ∈ known, env' v = env v := by
        intro v hv
        rw [h1 v (List.mem_cons_of_mem _ hv)]
        have hne : ¬ v = o := fun e => hn (e ▸ hv)
        exact if_neg hne
      refine ⟨env', hk, fun d hd u hu => ?_⟩
      rcases List.mem_cons.1 hd with rfl | hd
      · rw [ho] at hu; cases hu
        rw [h1 o List.mem_cons_self]
        show (if o = o then _ else _) = _
        rw [if_pos rfl]
        congr 1
        exact output_congr fun v hv => (hk v (hi v hv)).symm
      · exact h2 d hd u hu

theorem beginnings_sublist {ws xs : List (List α)} (h : Beginnings ws xs) : ws.flatten.Sublist xs.flatten := by
  induction h with
  | nil => exact List.Sublist.refl _
  | cons h _ ih =>
      rw [List.flatten_cons, List.flatten_cons]
      exact h.sublist.append ih

theorem beginnings_length {ws xs : List (List α)} (h : Beginnings ws xs) : ws.length = xs.length := by
  induction h with
  | nil => rfl
  | cons _ _ ih => simp [ih]

end PashAnn
