import Verif.Spec.Buffers
import Verif.Lemmas.Schedules

/-!
Lemmas for C117: every process goes on as if it ran alone with complete inputs, the process that others wait for can go on, and
there are only so many steps.
-/

namespace PashAnn
open Spec

variable {α σ : Type} {ps : Processes α σ} {prog : ProgramsOn α}

theorem alone_stop {c : CommandInvocationWithIOVars} {ins : List (List α)} {n : Nat}
    (h : ps.act c (aloneFor ps c ins n).state = .stop) : ∀ m, aloneFor ps c ins (n + m) = aloneFor ps c ins n
  | 0 => rfl
  | m + 1 => by
      show alone ps c ins (aloneFor ps c ins (n + m)) = _
      rw [alone_stop h m]
      unfold alone
      rw [h]

theorem alone_grows (c : CommandInvocationWithIOVars) (ins : List (List α)) (s : Local α σ) : s.out <+: (alone ps c ins s).out := by
  unfold alone
  split
  · exact List.prefix_refl _
  · exact List.prefix_append _ _
  · exact List.prefix_refl _

theorem aloneFor_grows (c : CommandInvocationWithIOVars) (ins : List (List α)) (n : Nat) :
    ∀ m, (aloneFor ps c ins n).out <+: (aloneFor ps c ins (n + m)).out
  | 0 => List.prefix_refl _
  | m + 1 => (aloneFor_grows c ins n m).trans (alone_grows c ins _)

theorem alone_towards {c : CommandInvocationWithIOVars} {ins : List (List α)} {n : Nat} {y : List α}
    (h : ps.act c (aloneFor ps c ins n).state = .stop) (hy : (aloneFor ps c ins n).out = y) (m : Nat) :
    (aloneFor ps c ins m).out <+: y ∧ (ps.act c (aloneFor ps c ins m).state = .stop → (aloneFor ps c ins m).out = y) ∧
    (ps.act c (aloneFor ps c ins m).state ≠ .stop → m < n) := by
  rcases Nat.lt_or_ge m n with hm | hm
  · obtain ⟨d, rfl⟩ : ∃ d, n = m + d := ⟨n - m, by omega⟩
    refine ⟨hy ▸ aloneFor_grows c ins m d, fun hs => ?_, fun _ => hm⟩
    rw [← hy, alone_stop hs d]
  · obtain ⟨d, rfl⟩ : ∃ d, m = n + d := ⟨m - n, by omega⟩
    rw [alone_stop h d]
    exact ⟨hy ▸ List.prefix_refl _, fun _ => hy, fun hs => absurd h hs⟩

/-- How the commands are connected. -/
structure Connected (cmds : List CommandInvocationWithIOVars) (given : List (IOVar × List α)) : Prop where
  writer : ∀ c ∈ cmds, ∀ d ∈ cmds, ∀ o : IOVar, withAccess c .streamOutput = [o] → withAccess d .streamOutput = [o] → c = d
  source : ∀ c ∈ cmds, ∀ v ∈ withAccess c .streamInput, (∃ q ∈ given, q.1 = v) ∨ ∃ d ∈ cmds, withAccess d .streamOutput = [v]

/-- Every process is where it would be after some steps alone with complete inputs, and has read no more than there is. -/
structure OnItsWay (ps : Processes α σ) (cmds : List CommandInvocationWithIOVars) (given : List (IOVar × List α)) (env : IOVar → List α)
    (s : AllLocal α σ) (t : IOVar → Nat) : Prop where
  here : ∀ c ∈ cmds, ∀ o, withAccess c .streamOutput = [o] → s o = aloneFor ps c ((withAccess c .streamInput).map env) (t o)
  taken : ∀ c ∈ cmds, ∀ o k v, withAccess c .streamOutput = [o] → (withAccess c .streamInput)[k]? = some v →
    (s o).taken k ≤ (contents given s v).length

/-- After `T o` steps alone the writer of `o` has stopped, and has written what is there in the end. -/
def StopAt (ps : Processes α σ) (cmds : List CommandInvocationWithIOVars) (env : IOVar → List α) (T : IOVar → Nat) : Prop :=
  ∀ c ∈ cmds, ∀ o, withAccess c .streamOutput = [o] →
    ps.act c (aloneFor ps c ((withAccess c .streamInput).map env) (T o)).state = .stop ∧
    (aloneFor ps c ((withAccess c .streamInput).map env) (T o)).out = env o

theorem stopAt_exists (hd : DoWhat ps prog) {cmds : List CommandInvocationWithIOVars} {given : List (IOVar × List α)}
    {env : IOVar → List α} (hc : Connected cmds given) (he : Ends prog cmds given env) : ∃ T, StopAt ps cmds env T := by
  have : ∀ o, ∃ n, ∀ c ∈ cmds, withAccess c .streamOutput = [o] →
      ps.act c (aloneFor ps c ((withAccess c .streamInput).map env) n).state = .stop ∧
      (aloneFor ps c ((withAccess c .streamInput).map env) n).out = env o := by
    intro o
    by_cases h : ∃ c ∈ cmds, withAccess c .streamOutput = [o]
    · obtain ⟨c, hcm, ho⟩ := h
      obtain ⟨n, h1, h2⟩ := hd c ((withAccess c .streamInput).map env) (List.length_map _)
      refine ⟨n, fun d hdm hdo => ?_⟩
      rw [hc.writer d hdm c hcm o hdo ho]
      exact ⟨h1, by rw [h2, he.made c hcm o ho]; rfl⟩
    · exact ⟨0, fun c hcm ho => absurd ⟨c, hcm, ho⟩ h⟩
  obtain ⟨T, hT⟩ := Classical.axiomOfChoice this
  exact ⟨T, fun c hcm o ho => hT o c hcm ho⟩

variable {cmds : List CommandInvocationWithIOVars} {given : List (IOVar × List α)} {env : IOVar → List α}

theorem lookup_given (he : Ends prog cmds given env) {v : IOVar} {x : List α} (h : given.lookup v = some x) : x = env v := by
  have : ∀ g : List (IOVar × List α), g.lookup v = some x → (v, x) ∈ g := by
    intro g
    induction g with
    | nil => simp
    | cons q g ih =>
        obtain ⟨u, w⟩ := q
        intro hl
        rw [List.lookup_cons] at hl
        split at hl
        · rename_i hb
          have : v = u := by simpa using hb
          cases hl
          rw [this]; exact List.mem_cons_self
        · exact List.mem_cons_of_mem _ (ih hl)
  exact (he.given _ (this given h)).symm

theorem lookup_known {v : IOVar} (h : ∃ q ∈ given, q.1 = v) : ∃ x, given.lookup v = some x := by
  cases hl : given.lookup v with
  | some x => exact ⟨x, rfl⟩
  | none =>
      obtain ⟨q, hq, rfl⟩ := h
      have := List.lookup_eq_none_iff.1 hl q hq
      simp at this

theorem contents_towards (he : Ends prog cmds given env) {T : IOVar → Nat} (hT : StopAt ps cmds env T) {s : AllLocal α σ}
    {t : IOVar → Nat} (h : OnItsWay ps cmds given env s t) {v : IOVar}
    (hv : (∃ q ∈ given, q.1 = v) ∨ ∃ d ∈ cmds, withAccess d .streamOutput = [v]) :
    contents given s v <+: env v := by
  unfold contents
  cases hl : given.lookup v with
  | some x => rw [lookup_given he hl]; exact List.prefix_refl _
  | none =>
      rcases hv with hv | ⟨d, hd, ho⟩
      · obtain ⟨x, hx⟩ := lookup_known hv
        rw [hl] at hx; cases hx
      · show (s v).out <+: env v
        rw [h.here d hd v ho]
        exact (alone_towards (hT d hd v ho).1 (hT d hd v ho).2 (t v)).1

theorem contents_ended (he : Ends prog cmds given env) {T : IOVar → Nat} (hT : StopAt ps cmds env T) {s : AllLocal α σ}
    {t : IOVar → Nat} (h : OnItsWay ps cmds given env s t) {v : IOVar} (hv : Ended ps cmds given s v) : contents given s v = env v := by
  unfold contents
  cases hl : given.lookup v with
  | some x => exact lookup_given he hl
  | none =>
      rcases hv with hv | ⟨d, hd, ho, hs⟩
      · obtain ⟨x, hx⟩ := lookup_known hv
        rw [hl] at hx; cases hx
      · show (s v).out = env v
        rw [h.here d hd v ho] at hs ⊢
        exact (alone_towards (hT d hd v ho).1 (hT d hd v ho).2 (t v)).2.1 hs

/-- One more step of the process at `o`. -/
def later (t : IOVar → Nat) (o : IOVar) : IOVar → Nat := fun u => if u = o then t u + 1 else t u

theorem contents_set {s : AllLocal α σ} {o : IOVar} {l : Local α σ} (hl : (s o).out <+: l.out) (v : IOVar) :
    (contents given s v).length ≤ (contents given (s.set o l) v).length := by
  unfold contents AllLocal.set
  cases given.lookup v with
  | some x => exact Nat.le_refl _
  | none =>
      show (s v).out.length ≤ (if v = o then l else s v).out.length
      split
      · rename_i e; rw [e]; exact hl.length_le
      · exact Nat.le_refl _

/-- A process that goes on as it would alone. -/
theorem onItsWay_set (hc : Connected cmds given) {s : AllLocal α σ} {t : IOVar → Nat} (h : OnItsWay ps cmds given env s t)
    {c : CommandInvocationWithIOVars} {o : IOVar} (hcm : c ∈ cmds) (ho : withAccess c .streamOutput = [o]) {l : Local α σ}
    (hl : l = alone ps c ((withAccess c .streamInput).map env) (s o)) (hg : (s o).out <+: l.out)
    (ht : ∀ k v, (withAccess c .streamInput)[k]? = some v → l.taken k ≤ (contents given s v).length) :
    OnItsWay ps cmds given env (s.set o l) (later t o) := by
  refine ⟨fun d hd u hu => ?_, fun d hd u k v hu hv => ?_⟩
  · unfold AllLocal.set later
    by_cases e : u = o
    · subst e
      rw [if_pos rfl, if_pos rfl, hl, hc.writer d hd c hcm u hu ho]
      show _ = alone ps c _ (aloneFor ps c _ (t u))
      rw [← h.here c hcm u ho]
    · rw [if_neg e, if_neg e]
      exact h.here d hd u hu
  · refine Nat.le_trans ?_ (contents_set hg v)
    unfold AllLocal.set
    by_cases e : u = o
    · subst e
      rw [if_pos rfl]
      rw [hc.writer d hd c hcm u hu ho] at hv
      exact ht k v hv
    · rw [if_neg e]
      exact h.taken d hd u k v hu hv

theorem prefix_get {x y : List α} (h : x <+: y) {n : Nat} {a : α} (hx : x[n]? = some a) : y[n]? = some a := by
  obtain ⟨z, rfl⟩ := h
  have hn := (List.getElem?_eq_some_iff.1 hx).1
  rw [List.getElem?_append_left hn, hx]

theorem bufferStep_way (hc : Connected cmds given) (he : Ends prog cmds given env) {T : IOVar → Nat}
    (hT : StopAt ps cmds env T) {size : IOVar → Nat} {s s' : AllLocal α σ} {t : IOVar → Nat} (h : OnItsWay ps cmds given env s t)
    (hst : BufferStep ps cmds size given s s') :
    ∃ c ∈ cmds, ∃ o, withAccess c .streamOutput = [o] ∧ t o < T o ∧ OnItsWay ps cmds given env s' (later t o) := by
  have less : ∀ c ∈ cmds, ∀ o, withAccess c .streamOutput = [o] → ps.act c (s o).state ≠ .stop → t o < T o := by
    intro c hcm o ho hn
    rw [h.here c hcm o ho] at hn
    exact (alone_towards (hT c hcm o ho).1 (hT c hcm o ho).2 (t o)).2.2 hn
  cases hst with
  | @get c o v k next a hcm ho ha hv hx =>
      refine ⟨c, hcm, o, ho, less c hcm o ho (by rw [ha]; simp), onItsWay_set hc h hcm ho ?_ (List.prefix_refl _) ?_⟩
      · unfold alone
        rw [ha]
        show _ = (s o).reads k next _
        rw [List.getElem?_map, hv]
        show _ = (s o).reads k next ((env v)[(s o).taken k]?)
        rw [prefix_get (contents_towards he hT h (hc.source c hcm v (List.mem_of_getElem? hv))) hx]
      · intro j u hu
        show (if j = k ∧ some a ≠ none then (s o).taken j + 1 else (s o).taken j) ≤ _
        split
        · rename_i e
          rw [e.1] at hu ⊢
          rw [hv] at hu
          cases hu
          exact (List.getElem?_eq_some_iff.1 hx).1
        · exact h.taken c hcm o j u ho hu
  | @atEnd c o v k next hcm ho ha hv hend hx =>
      refine ⟨c, hcm, o, ho, less c hcm o ho (by rw [ha]; simp), onItsWay_set hc h hcm ho ?_ (List.prefix_refl _) ?_⟩
      · unfold alone
        rw [ha]
        show _ = (s o).reads k next _
        rw [List.getElem?_map, hv]
        show _ = (s o).reads k next ((env v)[(s o).taken k]?)
        rw [← contents_ended he hT h hend, hx]
      · intro j u hu
        show (if j = k ∧ (none : Option α) ≠ none then (s o).taken j + 1 else (s o).taken j) ≤ _
        rw [if_neg (by simp)]
        exact h.taken c hcm o j u ho hu
  | @noInput c o k next hcm ho ha hv =>
      refine ⟨c, hcm, o, ho, less c hcm o ho (by rw [ha]; simp), onItsWay_set hc h hcm ho ?_ (List.prefix_refl _) ?_⟩
      · unfold alone
        rw [ha]
        show _ = (s o).reads k next _
        rw [List.getElem?_map, hv]
        rfl
      · intro j u hu
        show (if j = k ∧ (none : Option α) ≠ none then (s o).taken j + 1 else (s o).taken j) ≤ _
        rw [if_neg (by simp)]
        exact h.taken c hcm o j u ho hu
  | @put c o a next hcm ho ha hr =>
      refine ⟨c, hcm, o, ho, less c hcm o ho (by rw [ha]; simp), onItsWay_set hc h hcm ho ?_ (List.prefix_append _ _) ?_⟩
      · unfold alone
        rw [ha]
      · intro j u hu
        exact h.taken c hcm o j u ho hu

/-- At every point of a run the processes are on their way, and the number of steps is bounded. -/
theorem bufferRun_way (hc : Connected cmds given) (he : Ends prog cmds given env) {T : IOVar → Nat}
    (hT : StopAt ps cmds env T) {size : IOVar → Nat} {vars : List IOVar}
    (hvars : ∀ c ∈ cmds, ∀ o, withAccess c .streamOutput = [o] → o ∈ vars) {n : Nat} {s : AllLocal α σ}
    (hr : BufferRun ps cmds size given n s) :
    ∃ t, OnItsWay ps cmds given env s t ∧ n + (vars.map fun v => T v - t v).sum ≤ (vars.map T).sum := by
  induction hr with
  | start h =>
      refine ⟨fun _ => 0, ⟨fun c hcm o ho => h c hcm o ho, fun c hcm o k v ho hv => ?_⟩, ?_⟩
      · rw [h c hcm o ho]; exact Nat.zero_le _
      · simp
  | step hr hst ih =>
      obtain ⟨t, h, hn⟩ := ih
      obtain ⟨c, hcm, o, ho, hlt, h'⟩ := bufferStep_way hc he hT h hst
      refine ⟨later t o, h', ?_⟩
      have := (sum_less (f := fun v => T v - later t o v) (g := fun v => T v - t v) (fun u => by
        simp only [later]; split <;> omega) vars).2 o (hvars c hcm o ho) (by simp only [later, if_true]; omega)
      omega

theorem reader_unique {β γ : Type} {f : β → List γ} : ∀ {l : List β}, (l.flatMap f).Nodup → ∀ {c d : β}, c ∈ l → d ∈ l → ∀ {i j : Nat} {v : γ},
    (f c)[i]? = some v → (f d)[j]? = some v → c = d ∧ i = j
  | [], _, _, _, hc, _, _, _, _, _, _ => by cases hc
  | b :: l, hn, c, d, hc, hd, i, j, v, hi, hj => by
      rw [List.flatMap_cons] at hn
      obtain ⟨h1, h2, h3⟩ := List.nodup_append.1 hn
      rcases List.mem_cons.1 hc with e | hc'
      · subst e
        rcases List.mem_cons.1 hd with e | hd
        · subst e
          refine ⟨rfl, ?_⟩
          have hi' := List.getElem?_eq_some_iff.1 hi
          have hj' := List.getElem?_eq_some_iff.1 hj
          obtain ⟨hi1, hi2⟩ := hi'
          obtain ⟨hj1, hj2⟩ := hj'
          have hp := List.pairwise_iff_getElem.1 h1
          rcases Nat.lt_trichotomy i j with hl | hl | hl
          · exact absurd (hi2.trans hj2.symm) (hp i j hi1 hj1 hl)
          · exact hl
          · exact absurd (hj2.trans hi2.symm) (hp j i hj1 hi1 hl)
        · exact absurd rfl (h3 v (List.mem_of_getElem? hi) v (List.mem_flatMap.2 ⟨d, hd, List.mem_of_getElem? hj⟩))
      · rcases List.mem_cons.1 hd with e | hd
        · subst e
          exact absurd rfl (h3 v (List.mem_of_getElem? hj) v (List.mem_flatMap.2 ⟨c, hc', List.mem_of_getElem? hi⟩))
        · exact reader_unique h2 hc' hd hi hj

/-- A process whose output has room has stopped, or some process can go on. -/
theorem ordered_moves {size : IOVar → Nat} (hsize : ∀ v, 0 < size v) {all : List CommandInvocationWithIOVars}
    (hread : (all.flatMap fun c => withAccess c .streamInput).Nodup)
    {s : AllLocal α σ}
    {known made : List IOVar} {cmds : List CommandInvocationWithIOVars}
    (h : Ordered known cmds made) (hs : ∀ c ∈ cmds, c ∈ all)
    (hk : ∀ v ∈ known, Ended ps all given s v ∨ (Room ps all size s v → ∃ s', BufferStep ps all size given s s')) :
    ∀ v ∈ made, Ended ps all given s v ∨ (Room ps all size s v → ∃ s', BufferStep ps all size given s s') := by
  induction h with
  | nil => simp
  | @cons known c cmds o made hi ho hn h ih =>
      have hcm : c ∈ all := hs c List.mem_cons_self
      have here : Ended ps all given s o ∨ (Room ps all size s o → ∃ s', BufferStep ps all size given s s') := by
        cases ha : ps.act c (s o).state with
        | stop => exact .inl (.inr ⟨c, hcm, ho, ha⟩)
        | write a next => exact .inr fun hr => ⟨_, .put hcm ho ha hr⟩
        | read k next =>
            refine .inr fun _ => ?_
            cases hv : (withAccess c .streamInput)[k]? with
            | none => exact ⟨_, .noInput hcm ho ha hv⟩
            | some v =>
                cases hx : (contents given s v)[(s o).taken k]? with
                | some a => exact ⟨_, .get hcm ho ha hv hx⟩
                | none =>
                    by_cases hend : Ended ps all given s v
                    · exact ⟨_, .atEnd hcm ho ha hv hend hx⟩
                    · rcases hk v (hi v (List.mem_of_getElem? hv)) with h' | h'
                      · exact absurd h' hend
                      · refine h' fun d hd o' k' hdo hdv hds => ?_
                        obtain ⟨e1, e2⟩ := reader_unique hread hcm hd hv hdv
                        subst e1 e2
                        have eo : o = o' := by rw [ho] at hdo; cases hdo; rfl
                        subst eo
                        have hl : given.lookup v = none := by
                          cases hl : given.lookup v with
                          | none => rfl
                          | some x =>
                              refine absurd (.inl ?_) hend
                              have := List.lookup_isSome_iff.1 (by rw [hl]; rfl : (given.lookup v).isSome)
                              obtain ⟨q, hq, e⟩ := this
                              exact ⟨q, hq, (show v = q.1 by simpa using e).symm⟩
                        have : (contents given s v).length ≤ (s o).taken k := List.getElem?_eq_none_iff.1 hx
                        unfold contents at this
                        rw [hl] at this
                        have := hsize v
                        simp at *
                        omega
      intro v hv
      rcases List.mem_cons.1 hv with rfl | hv
      · exact here
      · refine ih (fun d hd => hs d (List.mem_cons_of_mem _ hd)) (fun u hu => ?_) v hv
        rcases List.mem_cons.1 hu with rfl | hu
        · exact here
        · exact hk u hu

end PashAnn
