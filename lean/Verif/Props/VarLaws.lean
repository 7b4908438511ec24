import Verif.Props.Vars

/-! Laws relating several operations on invocations with variables: renaming there and back, substituting twice,
removing before reading. -/

namespace PashAnn
open Spec

/-- Two invocations agree: same parts, and the same access kind for every variable. (The order of the entries of the
access map is not observable by lookup.) -/
def Agree (c c' : CommandInvocationWithIOVars) : Prop :=
  { c with accessMap := [] } = { c' with accessMap := [] } ∧ ∀ v, accessOf c v = accessOf c' v

theorem gReplace_same_ok (v : IOVar) (m : AccessMap) (old : List IOVar) (h : AccessMap.get? m v ≠ none) :
    ∃ r, run (gReplace (some v) v) m old = .ok r := by
  induction old generalizing m with
  | nil => exact ⟨_, rfl⟩
  | cons w old ih =>
      by_cases hw : w = v
      · subst hw
        obtain ⟨a, ha⟩ := Option.ne_none_iff_exists'.1 h
        obtain ⟨r, hr⟩ := ih (AccessMap.set (AccessMap.erase m w) w a) (by simp [get_set])
        exact ⟨_, by simp [run, gReplace, ha, bind, Except.bind, hr]; rfl⟩
      · obtain ⟨r, hr⟩ := ih m h
        exact ⟨_, by simp [run, gReplace, hw, bind, Except.bind, hr]; rfl⟩

/-- C45, exactly: renaming succeeds if and only if the variable does not occur, or it has an access entry and either
occurs once or is renamed to itself. In all other cases it is an `AssertionError`. -/
theorem C45_outcome (c : CommandInvocationWithIOVars) (v w : IOVar) :
    ((∃ c', c.replaceVar (some v) w = .ok c') ↔
      (v ∉ occurrences c ∨ (accessOf c v ≠ none ∧ (v = w ∨ (occurrences c).count v = 1)))) ∧
    ((∀ c', c.replaceVar (some v) w ≠ .ok c') → c.replaceVar (some v) w = .error .assertionError) := by
  by_cases hv : v ∈ occurrences c
  · by_cases hne : v = w
    · subst hne
      cases ha : accessOf c v with
      | some a =>
          obtain ⟨r, hr⟩ := gReplace_same_ok v c.accessMap (occurrences c)
            (by rw [show AccessMap.get? c.accessMap v = _ from ha]; simp)
          obtain ⟨c1, e, _⟩ := traverse_ok (new := r.1) (s' := r.2) hr
          have : c.replaceVar (some v) v = .ok { c1 with accessMap := r.2 } := by
            unfold CommandInvocationWithIOVars.replaceVar
            rw [replaceFun_eq, e]; rfl
          exact ⟨⟨fun _ => .inr ⟨by simp, .inl rfl⟩, fun _ => ⟨_, this⟩⟩, fun h => absurd this (h _)⟩
      | none =>
          have herr : ∀ old : List IOVar, v ∈ old → ∀ m, AccessMap.get? m v = none →
              run (gReplace (some v) v) m old = .error .assertionError := by
            intro old
            induction old with
            | nil => intro h; cases h
            | cons x old ih =>
                intro hm m hg
                by_cases hx : x = v
                · subst hx; simp [run, gReplace, hg, bind, Except.bind]
                · have hm' := (List.mem_cons.1 hm).resolve_left (fun h => hx h.symm)
                  simp [run, gReplace, hx, bind, Except.bind, ih hm' m hg]
          have : c.replaceVar (some v) v = .error .assertionError := by
            unfold CommandInvocationWithIOVars.replaceVar
            rw [replaceFun_eq, traverse_error (herr _ hv _ ha)]; rfl
          rw [this]
          simp [hv]
    · have hc : 0 < (occurrences c).count v := List.count_pos_iff.2 hv
      by_cases h2 : 2 ≤ (occurrences c).count v
      · rw [C45_rejected c v w hne (.inl h2)]
        have : (occurrences c).count v ≠ 1 := by omega
        simp [hv, hne, this]
      · have h1 : (occurrences c).count v = 1 := by omega
        cases ha : accessOf c v with
        | none => rw [C45_rejected c v w hne (.inr ⟨h1, ha⟩)]; simp [hv]
        | some a =>
            obtain ⟨c1, e1, _⟩ := C45_rename_partial c v w a h1 ha
            rw [e1]
            simp [h1]
  · rw [C45_no_op c (some v) w (fun x hx => by cases hx; exact hv)]
    simp [hv]

example : (∃ c', sample.replaceVar (some 2) 2 = .ok c') ∧ sample.replaceVar (some 2) 1 ≠ .error .assertionError ∧
    (⟨"cat", [], [.var 1, .var 1], none, none, [(1, .streamInput)]⟩ : CommandInvocationWithIOVars).replaceVar
      (some 1) 2 = .error .assertionError := by
  refine ⟨((C45_outcome sample 2 2).1).2 (.inr ⟨by decide +kernel, .inl rfl⟩), by decide +kernel, by decide +kernel⟩

/-- C60. Renaming to a fresh variable and back restores the invocation. -/
theorem C60_rename_back (c : CommandInvocationWithIOVars) (v w : IOVar) (hw : w ∉ occurrences c)
    (hm : accessOf c w = none) (c1 : CommandInvocationWithIOVars) (h1 : c.replaceVar (some v) w = .ok c1) :
    ∃ c2, c1.replaceVar (some w) v = .ok c2 ∧ Agree c2 c := by
  by_cases hv : v ∈ occurrences c
  · have hvw : v ≠ w := fun h => hw (h ▸ hv)
    obtain ⟨hr, _, ha⟩ := C45_returns_partial c c1 v w h1
    obtain ⟨a, ha, hacc⟩ := ha hv
    have hone : (occurrences c).count v = 1 := by
      rcases (C45_outcome c v w).1.1 ⟨c1, h1⟩ with h | ⟨_, h | h⟩
      · exact absurd hv h
      · exact absurd h hvw
      · exact h
    have hocc : occurrences c1 = (occurrences c).map (fun x => if x = v then w else x) := by
      rw [← occurrences_rename, ← hr]; rfl
    have hback : (occurrences c1).map (fun x => if x = w then v else x) = occurrences c := by
      rw [hocc, List.map_map]
      conv => rhs; rw [← List.map_id (occurrences c)]
      apply List.map_congr_left
      intro x hx
      have : x ≠ w := fun h => hw (h ▸ hx)
      by_cases hxv : x = v <;> simp [hxv, this]
    have hone1 : (occurrences c1).count w = 1 := by
      rw [← hone, hocc]
      generalize occurrences c = l at hw
      induction l with
      | nil => rfl
      | cons x l ih =>
          have hx : x ≠ w := fun h => hw (h ▸ List.mem_cons_self ..)
          have := ih (fun h => hw (List.mem_cons_of_mem _ h))
          by_cases hxv : x = v
          · simp [hxv, this]
          · simp [hxv, this, hx]
    have ha1 : accessOf c1 w = some a := by rw [hacc]; simp
    obtain ⟨c2, e2, hr2, hacc2⟩ := C45_rename_partial c1 w v a hone1 ha1
    refine ⟨c2, e2, ?_, fun x => ?_⟩
    · have hs : SameShape c c1 := by
        have := rename_shape (fun x => if x = v then w else x) c
        rw [← hr] at this
        exact this
      have hs2 : SameShape c1 c2 := by
        have := rename_shape (fun x => if x = w then v else x) c1
        rw [← hr2] at this
        exact this
      have ho2 : occurrences c2 = occurrences c := by
        rw [← hback, ← occurrences_rename, ← hr2]; rfl
      exact shape_ext ((hs.trans hs2).symm) ho2
    · rw [hacc2, hacc]
      by_cases hxv : x = v
      · rw [hxv]; simp [ha]
      · by_cases hxw : x = w
        · rw [hxw]; simp [hm, hvw.symm]
        · simp [hxv, hxw]
  · have := C45_no_op c (some v) w (fun x hx => by cases hx; exact hv)
    rw [this] at h1; cases h1
    exact ⟨_, C45_no_op c (some w) v (fun x hx => by cases hx; exact hw), rfl, fun _ => rfl⟩

example : (9 : IOVar) ∉ occurrences sample ∧ accessOf sample 9 = none ∧ (2 : IOVar) ∈ occurrences sample ∧
    (sample.replaceVar (some 2) 9).toOption.isSome = true := by decide +kernel

/-- Freshness is needed in C60: renaming to a variable that occurs merges two streams for good. -/
theorem C60_needs_fresh : ∃ c c1 : CommandInvocationWithIOVars, Described c ∧ (occurrences c).Nodup ∧
    c.replaceVar (some 1) 2 = .ok c1 ∧ c1.replaceVar (some 2) 1 = .error .assertionError :=
  ⟨⟨"cat", [], [.var 1, .var 2], none, none, [(1, .streamInput), (2, .streamInput)]⟩,
    ⟨"cat", [], [.var 2, .var 2], none, none, [(2, .streamInput)]⟩, by
      intro v; simp only [occurrences]; intro hv; simp [varOf] at hv; rcases hv with rfl | rfl <;> decide,
    by decide +kernel, by decide +kernel, by decide +kernel⟩


/-- Substitution, with the access kind of every variable afterwards. -/
theorem substitute_spec (c : CommandInvocationWithIOVars) (ins outs : List IOVar) (hd : Described c)
    (hn : (occurrences c).Nodup) (hi : ∀ n ∈ ins, n ∉ occurrences c) (ho : ∀ n ∈ outs, n ∉ occurrences c ∧ n ∉ ins)
    (hin : ins.Nodup) (hli : ins.length = (withAccess c .streamInput).length)
    (hlo : outs.length = (withAccess c .streamOutput).length) :
    ∃ c', c.substitute ins outs = .ok c' ∧
      (∀ v, accessOf c' v = if v ∈ outs then some .streamOutput else if v ∈ withAccess c .streamOutput then none
        else if v ∈ ins then some .streamInput else if v ∈ withAccess c .streamInput then none else accessOf c v) ∧
      (∀ v, v ∈ occurrences c' ↔ v ∈ ins ∨ v ∈ outs ∨
        (v ∈ occurrences c ∧ v ∉ withAccess c .streamInput ∧ v ∉ withAccess c .streamOutput)) ∧
      (outs.Nodup → (occurrences c').Nodup) := by
  obtain ⟨c1, e1, s1, k1, w1, o1, a1, m1, n1, _⟩ := substituteKind_spec .streamInput c ins hd hn hi hli
  have hout : withAccess c1 .streamOutput = withAccess c .streamOutput := o1 _ (by simp)
  obtain ⟨c2, e2, s2, k2, w2, o2, a2, m2, n2, _⟩ := substituteKind_spec .streamOutput c1 outs (described_of hd a1 m1)
    (n1 hin) (fun n hn' => by
      rw [m1]; rintro (h | h)
      · exact (ho n hn').2 h
      · exact (ho n hn').1 h.1) (by rw [hout]; exact hlo)
  refine ⟨c2, ?_, fun v => by rw [a2, hout, a1], fun v => ?_, n2⟩
  · unfold CommandInvocationWithIOVars.substitute
    rw [substituteInputs_eq, e1]
    show c1.substituteOutputs outs = _
    rw [substituteOutputs_eq, e2]
  · rw [m2, m1, hout]
    have : v ∈ ins → v ∉ withAccess c .streamOutput := fun h h' => hi v h (withAccess_mem.1 h').1
    constructor
    · rintro (h | ⟨h | h, h'⟩)
      · exact .inr (.inl h)
      · exact .inl h
      · exact .inr (.inr ⟨h.1, h.2, h'⟩)
    · rintro (h | h | h)
      · exact .inr ⟨.inl h, this h⟩
      · exact .inl h
      · exact .inr ⟨.inr ⟨h.1, h.2.1⟩, h.2.2⟩

/-- A list is determined by the sequence of its kinds and its sublist of each kind. -/
theorem eq_of_kinds {α κ : Type} [DecidableEq κ] (f g : α → κ) (l l' : List α) (h : l.map f = l'.map g)
    (hk : ∀ k, l.filter (fun x => f x = k) = l'.filter (fun x => g x = k)) : l = l' := by
  induction l generalizing l' with
  | nil => simpa using h.symm
  | cons x l ih =>
      cases l' with
      | nil => cases h
      | cons y l' =>
          simp only [List.map_cons, List.cons.injEq] at h
          have h1 := hk (f x)
          simp only [List.filter_cons, h.1] at h1
          simp at h1
          obtain ⟨rfl, _⟩ := h1
          rw [ih l' h.2 fun k => ?_]
          have := hk k
          simp only [List.filter_cons] at this
          by_cases hx : f x = k
          · have hg : g x = k := h.1 ▸ hx
            simpa [hx, hg] using this
          · have hg : ¬ g x = k := fun he => hx (h.1.trans he)
            simpa [hx, hg] using this

/-- C61. Substituting streams in an invocation and then substituting other streams gives what substituting the other
streams at once gives: no trace of the intermediate streams is left. -/
theorem C61_substitute_twice (c : CommandInvocationWithIOVars) (ins outs ins' outs' : List IOVar) (hd : Described c)
    (hn : (occurrences c).Nodup)
    (hi : ∀ n ∈ ins, n ∉ occurrences c ∧ accessOf c n = none) (hin : ins.Nodup)
    (ho : ∀ n ∈ outs, n ∉ occurrences c ∧ accessOf c n = none ∧ n ∉ ins) (hon : outs.Nodup)
    (hi' : ∀ n ∈ ins', n ∉ occurrences c ∧ n ∉ ins ∧ n ∉ outs) (hin' : ins'.Nodup)
    (ho' : ∀ n ∈ outs', n ∉ occurrences c ∧ n ∉ ins ∧ n ∉ outs ∧ n ∉ ins')
    (c1 c2 : CommandInvocationWithIOVars) (h1 : c.substitute ins outs = .ok c1)
    (h2 : c1.substitute ins' outs' = .ok c2) :
    ∃ c3, c.substitute ins' outs' = .ok c3 ∧ Agree c3 c2 := by
  have fi : ∀ n ∈ ins, n ∉ occurrences c := fun n h => (hi n h).1
  have fo : ∀ n ∈ outs, n ∉ occurrences c ∧ n ∉ ins := fun n h => ⟨(ho n h).1, (ho n h).2.2⟩
  have len : ∀ (c : CommandInvocationWithIOVars) (ins outs : List IOVar) c', Described c → (occurrences c).Nodup →
      (∀ n ∈ ins, n ∉ occurrences c) → (∀ n ∈ outs, n ∉ occurrences c ∧ n ∉ ins) → ins.Nodup →
      c.substitute ins outs = .ok c' → ins.length = (withAccess c .streamInput).length ∧
        outs.length = (withAccess c .streamOutput).length := by
    intro c ins outs c' hd hn hi ho hin h
    by_cases hx : ins.length ≠ (withAccess c .streamInput).length ∨ outs.length ≠ (withAccess c .streamOutput).length
    · rcases (C42_rejected_partial c ins outs hd hn hi ho hin).1 hx with h' | h' <;> rw [h] at h' <;> cases h'
    · rw [not_or] at hx; exact ⟨Classical.not_not.1 hx.1, Classical.not_not.1 hx.2⟩
  obtain ⟨hli, hlo⟩ := len c ins outs c1 hd hn fi fo hin h1
  obtain ⟨x, e, s1, k1, wi1, wo1, w1⟩ := C40_substitute c ins outs hd hn fi fo hin hli hlo
  rw [h1] at e; cases e
  obtain ⟨x, e, a1, m1, n1⟩ := substitute_spec c ins outs hd hn fi fo hin hli hlo
  rw [h1] at e; cases e
  have hd1 : Described c1 := by
    intro v hv hnone
    have : accessOf c1 v ∈ (occurrences c).map (accessOf c) := by rw [← k1]; exact List.mem_map.2 ⟨v, hv, rfl⟩
    obtain ⟨w, hw, he⟩ := List.mem_map.1 this
    exact hd w hw (he.trans hnone)
  have fi1 : ∀ n ∈ ins', n ∉ occurrences c1 := by
    intro n hn' hm
    rw [m1] at hm
    rcases hm with h | h | h
    · exact (hi' n hn').2.1 h
    · exact (hi' n hn').2.2 h
    · exact (hi' n hn').1 h.1
  have fo1 : ∀ n ∈ outs', n ∉ occurrences c1 ∧ n ∉ ins' := by
    intro n hn'
    refine ⟨fun hm => ?_, (ho' n hn').2.2.2⟩
    rw [m1] at hm
    rcases hm with h | h | h
    · exact (ho' n hn').2.1 h
    · exact (ho' n hn').2.2.1 h
    · exact (ho' n hn').1 h.1
  obtain ⟨hli1, hlo1⟩ := len c1 ins' outs' c2 hd1 (n1 hon) fi1 fo1 hin' h2
  obtain ⟨x, e, s2, k2, wi2, wo2, w2⟩ := C40_substitute c1 ins' outs' hd1 (n1 hon) fi1 fo1 hin' hli1 hlo1
  rw [h2] at e; cases e
  obtain ⟨x, e, a2, m2, n2⟩ := substitute_spec c1 ins' outs' hd1 (n1 hon) fi1 fo1 hin' hli1 hlo1
  rw [h2] at e; cases e
  have fi' : ∀ n ∈ ins', n ∉ occurrences c := fun n h => (hi' n h).1
  have fo' : ∀ n ∈ outs', n ∉ occurrences c ∧ n ∉ ins' := fun n h => ⟨(ho' n h).1, (ho' n h).2.2.2⟩
  have hli' : ins'.length = (withAccess c .streamInput).length := by rw [hli1, wi1, hli]
  have hlo' : outs'.length = (withAccess c .streamOutput).length := by rw [hlo1, wo1, hlo]
  obtain ⟨c3, e3, s3, k3, wi3, wo3, w3⟩ := C40_substitute c ins' outs' hd hn fi' fo' hin' hli' hlo'
  obtain ⟨x, e, a3, m3, n3⟩ := substitute_spec c ins' outs' hd hn fi' fo' hin' hli' hlo'
  rw [e3] at e; cases e
  refine ⟨c3, e3, ?_, fun v => ?_⟩
  · refine shape_ext (s3.symm.trans (s1.trans s2)) (eq_of_kinds (accessOf c3) (accessOf c2) _ _
      (by rw [k3, k2, k1]) fun k => ?_)
    cases k with
    | none =>
        have nil : ∀ c' : CommandInvocationWithIOVars, (occurrences c').map (accessOf c') =
            (occurrences c).map (accessOf c) → (occurrences c').filter (fun v => accessOf c' v = none) = [] := by
          intro c' hk
          rw [List.filter_eq_nil_iff]
          intro v hv hnone
          have : accessOf c' v ∈ (occurrences c).map (accessOf c) := by rw [← hk]; exact List.mem_map.2 ⟨v, hv, rfl⟩
          obtain ⟨w, hw, he⟩ := List.mem_map.1 this
          exact hd w hw (he.trans (by simpa using hnone))
        rw [nil c3 k3, nil c2 (k2.trans k1)]
    | some k =>
        show withAccess c3 k = withAccess c2 k
        by_cases h : k = .streamInput
        · rw [h, wi3, wi2]
        · by_cases h' : k = .streamOutput
          · rw [h', wo3, wo2]
          · rw [w3 k h h', w2 k h h', w1 k h h']
  · rw [a3, a2, wo1, wi1, a1]
    by_cases q1 : v ∈ outs'
    · simp [q1]
    by_cases q2 : v ∈ outs
    · have p1 : v ∉ withAccess c .streamOutput := fun h => (ho v q2).1 (withAccess_mem.1 h).1
      have p2 : v ∉ withAccess c .streamInput := fun h => (ho v q2).1 (withAccess_mem.1 h).1
      have p3 : v ∉ ins' := fun h => (hi' v h).2.2 q2
      simp [q1, q2, p1, p2, p3, (ho v q2).2.1]
    by_cases q3 : v ∈ ins'
    · have p1 : v ∉ withAccess c .streamOutput := fun h => (hi' v q3).1 (withAccess_mem.1 h).1
      simp [q1, q2, q3, p1]
    by_cases q4 : v ∈ ins
    · have p1 : v ∉ withAccess c .streamOutput := fun h => (hi v q4).1 (withAccess_mem.1 h).1
      have p2 : v ∉ withAccess c .streamInput := fun h => (hi v q4).1 (withAccess_mem.1 h).1
      simp [q1, q2, q3, q4, p1, p2, (hi v q4).2]
    simp [q1, q2, q3, q4]

example : (sample.substitute [10] [11]).bind (·.substitute [20] [21]) = .ok ⟨"cmd",
    [.flag "-x", .optionIO "-p" (.var 7)], [.str "a", .var 20, .var 2], none, some 21,
    [(7, .configInput), (2, .otherInput), (20, .streamInput), (21, .streamOutput)]⟩ := by decide +kernel

/-- Removal keeps an invocation described, without duplicates, and with the same options. -/
theorem removed_ready (c c' : CommandInvocationWithIOVars) (a : AccessKind) (hd : Described c)
    (hn : (occurrences c).Nodup) (hk : { c' with accessMap := c.accessMap } = kept c a)
    (ho : occurrences c' = (occurrences c).filter (fun v => accessOf c v ≠ some a))
    (ha : ∀ v, accessOf c' v = if v ∈ withAccess c a then none else accessOf c v) :
    Described c' ∧ (occurrences c').Nodup ∧ c'.flagOptionList = c.flagOptionList ∧ withAccess c' a = [] := by
  have hacc : ∀ v ∈ occurrences c', v ∈ occurrences c ∧ accessOf c v ≠ some a ∧ accessOf c' v = accessOf c v := by
    intro v hv
    rw [ho, List.mem_filter] at hv
    have h2 : accessOf c v ≠ some a := by simpa using hv.2
    refine ⟨hv.1, h2, ?_⟩
    rw [ha, if_neg]
    intro h; exact h2 (withAccess_mem.1 h).2
  refine ⟨fun v hv => ?_, ?_, ?_, ?_⟩
  · obtain ⟨h1, _, h3⟩ := hacc v hv
    rw [h3]; exact hd v h1
  · rw [ho]; exact hn.filter _
  · have := congrArg CommandInvocationWithIOVars.flagOptionList hk
    exact this
  · apply List.eq_nil_iff_forall_not_mem.2
    intro v hv
    obtain ⟨h1, h2⟩ := withAccess_mem.1 hv
    obtain ⟨_, h3, h4⟩ := hacc v h1
    exact h3 (h4 ▸ h2)

/-- If nothing has the access kind, keeping the others keeps everything. -/
theorem kept_nil (c c' : CommandInvocationWithIOVars) (a : AccessKind) (h0 : withAccess c a = [])
    (hk : { c' with accessMap := c.accessMap } = kept c a)
    (ha : ∀ v, accessOf c' v = if v ∈ withAccess c a then none else accessOf c v) : Agree c' c := by
  have hno : ∀ v ∈ occurrences c, accessOf c v ≠ some a := by
    intro v hv h
    have := withAccess_mem.2 ⟨hv, h⟩
    rw [h0] at this; cases this
  refine ⟨?_, fun v => by rw [ha, h0]; simp⟩
  have hkc : kept c a = c := by
    obtain ⟨n, f, o, i, u, m⟩ := c
    simp only [kept, CommandInvocationWithIOVars.mk.injEq, true_and, and_true]
    refine ⟨?_, ?_, ?_⟩
    · rw [List.filter_eq_self]
      intro x hx
      simp only [decide_eq_true_eq]
      intro v hv
      exact hno v (by simp only [occurrences, List.mem_append, List.mem_flatMap]; exact .inl (.inl (.inr ⟨x, hx, hv⟩)))
    · cases i with
      | none => rfl
      | some v => simp [Option.filter, hno v (by simp [occurrences])]
    · cases u with
      | none => rfl
      | some v => simp [Option.filter, hno v (by simp [occurrences])]
  rw [hkc] at hk
  have := congrArg (fun c : CommandInvocationWithIOVars => { c with accessMap := [] }) hk
  exact this

/-- C62. After its streaming inputs are removed an invocation has none: reading its inputs gives the empty list, and
removing them again changes nothing. -/
theorem C62_remove_inputs (c : CommandInvocationWithIOVars) (hd : Described c) (hn : (occurrences c).Nodup)
    (hopt : ∀ v ∈ c.flagOptionList.flatMap optionVar, accessOf c v ≠ some .streamInput) :
    ∃ c', c.removeStreamingInputs = .ok c' ∧ c'.generateInputs = .ok ([], c') ∧
      ∃ c'', c'.removeStreamingInputs = .ok c'' ∧ Agree c'' c' := by
  obtain ⟨c', e, hk, ho, ha⟩ := (C46_remove c hd hn).1 hopt
  obtain ⟨hd', hn', hf, hw⟩ := removed_ready c c' _ hd hn hk ho ha
  refine ⟨c', e, by rw [(C44_reading c' hd').1, hw], ?_⟩
  obtain ⟨c'', e', hk', _, ha'⟩ := (C46_remove c' hd' hn').1 (fun v hv h => by
    have : v ∈ withAccess c' .streamInput :=
      withAccess_mem.2 ⟨by simp only [occurrences, List.mem_append]; exact .inl (.inl (.inl hv)), h⟩
    rw [hw] at this; cases this)
  exact ⟨c'', e', kept_nil c' c'' _ hw hk' ha'⟩

/-- C62. Likewise for the streaming outputs: those that reading the outputs still reports are other outputs. -/
theorem C62_remove_outputs (c : CommandInvocationWithIOVars) (hd : Described c) (hn : (occurrences c).Nodup)
    (hopt : ∀ v ∈ c.flagOptionList.flatMap optionVar, accessOf c v ≠ some .streamOutput) :
    ∃ c', c.removeStreamingOutputs = .ok c' ∧
      c'.generateOutputs = .ok (withAccess c .otherOutput, c') ∧
      ∃ c'', c'.removeStreamingOutputs = .ok c'' ∧ Agree c'' c' := by
  obtain ⟨c', e, hk, ho, ha⟩ := (C46_remove c hd hn).2 hopt
  obtain ⟨hd', hn', hf, hw⟩ := removed_ready c c' _ hd hn hk ho ha
  refine ⟨c', e, ?_, ?_⟩
  · obtain ⟨_, ⟨outs, h2, rfl⟩, _⟩ := C44_reading c' hd'
    rw [h2, ho, List.filter_filter]
    congr 2
    unfold withAccess
    apply List.filter_congr
    intro v hv
    have : accessOf c' v = if accessOf c v = some .streamOutput then none else accessOf c v := by
      rw [ha]
      by_cases h : accessOf c v = some .streamOutput
      · simp [withAccess_mem.2 ⟨hv, h⟩, h]
      · have : v ∉ withAccess c .streamOutput := fun h' => h (withAccess_mem.1 h').2
        simp [this, h]
    rw [this]
    by_cases h : accessOf c v = some .streamOutput <;> simp [h]
  obtain ⟨c'', e', hk', _, ha'⟩ := (C46_remove c' hd' hn').2 (fun v hv h => by
    have : v ∈ withAccess c' .streamOutput :=
      withAccess_mem.2 ⟨by simp only [occurrences, List.mem_append]; exact .inl (.inl (.inl hv)), h⟩
    rw [hw] at this; cases this)
  exact ⟨c'', e', kept_nil c' c'' _ hw hk' ha'⟩

/-- C62. Removing inputs and removing outputs can be done in either order. -/
theorem C62_commute (c : CommandInvocationWithIOVars) (hd : Described c) (hn : (occurrences c).Nodup)
    (hopt : ∀ v ∈ c.flagOptionList.flatMap optionVar, accessOf c v ≠ some .streamInput ∧
      accessOf c v ≠ some .streamOutput) :
    ∃ c1 c2 c12 c21, c.removeStreamingInputs = .ok c1 ∧ c1.removeStreamingOutputs = .ok c12 ∧
      c.removeStreamingOutputs = .ok c2 ∧ c2.removeStreamingInputs = .ok c21 ∧ Agree c12 c21 := by
  obtain ⟨c1, e1, k1, o1, a1⟩ := (C46_remove c hd hn).1 (fun v h => (hopt v h).1)
  obtain ⟨c2, e2, k2, o2, a2⟩ := (C46_remove c hd hn).2 (fun v h => (hopt v h).2)
  obtain ⟨hd1, hn1, hf1, hw1⟩ := removed_ready c c1 _ hd hn k1 o1 a1
  obtain ⟨hd2, hn2, hf2, hw2⟩ := removed_ready c c2 _ hd hn k2 o2 a2
  have opt : ∀ (a b : AccessKind) (c' : CommandInvocationWithIOVars), c'.flagOptionList = c.flagOptionList →
      (∀ v, accessOf c' v = if v ∈ withAccess c a then none else accessOf c v) →
      (∀ v ∈ c.flagOptionList.flatMap optionVar, accessOf c v ≠ some b) →
      ∀ v ∈ c'.flagOptionList.flatMap optionVar, accessOf c' v ≠ some b := by
    intro a b c' hf ha h v hv
    rw [hf] at hv
    rw [ha]
    split
    · simp
    · exact h v hv
  obtain ⟨c12, e12, k12, o12, a12⟩ := (C46_remove c1 hd1 hn1).2 (opt _ _ c1 hf1 a1 (fun v h => (hopt v h).2))
  obtain ⟨c21, e21, k21, o21, a21⟩ := (C46_remove c2 hd2 hn2).1 (opt _ _ c2 hf2 a2 (fun v h => (hopt v h).1))
  refine ⟨c1, c2, c12, c21, e1, e12, e2, e21, ?_, fun v => ?_⟩
  · have acc1 : ∀ v ∈ occurrences c, accessOf c1 v ≠ some .streamOutput ↔ accessOf c v ≠ some .streamOutput := by
      intro v hv
      rw [a1]
      by_cases h : v ∈ withAccess c .streamInput
      · have := (withAccess_mem.1 h).2
        simp [h, this]
      · simp [h]
    have acc2 : ∀ v ∈ occurrences c, accessOf c2 v ≠ some .streamInput ↔ accessOf c v ≠ some .streamInput := by
      intro v hv
      rw [a2]
      by_cases h : v ∈ withAccess c .streamOutput
      · have := (withAccess_mem.1 h).2
        simp [h, this]
      · simp [h]
    obtain ⟨n, f, o, i, u, m⟩ := c
    obtain ⟨n1, f1, o1', i1, u1, m1⟩ := c1
    obtain ⟨n2, f2, o2', i2, u2, m2⟩ := c2
    obtain ⟨n12, f12, o12', i12, u12, m12⟩ := c12
    obtain ⟨n21, f21, o21', i21, u21, m21⟩ := c21
    simp only [kept, CommandInvocationWithIOVars.mk.injEq, and_true] at k1 k2 k12 k21 ⊢
    obtain ⟨rfl, rfl, rfl, rfl, rfl⟩ := k1
    obtain ⟨rfl, rfl, rfl, rfl, rfl⟩ := k2
    obtain ⟨rfl, rfl, rfl, rfl, rfl⟩ := k12
    obtain ⟨rfl, rfl, rfl, rfl, rfl⟩ := k21
    refine ⟨rfl, rfl, ?_, ?_, ?_⟩
    · rw [List.filter_filter, List.filter_filter]
      apply List.filter_congr
      intro x hx
      rw [← Bool.decide_and, ← Bool.decide_and]
      congr 1
      apply propext
      have acc1' : ∀ v ∈ varOf x, _ := fun v hv => acc1 v (by
        simp only [occurrences, List.mem_append, List.mem_flatMap]; exact .inl (.inl (.inr ⟨x, hx, hv⟩)))
      have acc2' : ∀ v ∈ varOf x, _ := fun v hv => acc2 v (by
        simp only [occurrences, List.mem_append, List.mem_flatMap]; exact .inl (.inl (.inr ⟨x, hx, hv⟩)))
      constructor
      · rintro ⟨h1, h2⟩
        exact ⟨fun v hv => (acc2' v hv).2 (h2 v hv), fun v hv => (acc1' v hv).1 (h1 v hv)⟩
      · rintro ⟨h1, h2⟩
        exact ⟨fun v hv => (acc1' v hv).2 (h2 v hv), fun v hv => (acc2' v hv).1 (h1 v hv)⟩
    · cases i with
      | none => rfl
      | some v =>
          have h1 := acc1 v (by simp [occurrences])
          have h2 := acc2 v (by simp [occurrences])
          grind [Option.filter]
    · cases u with
      | none => rfl
      | some v =>
          have h1 := acc1 v (by simp [occurrences])
          have h2 := acc2 v (by simp [occurrences])
          grind [Option.filter]
  · rw [a12, a21, a1, a2]
    have w12 : v ∈ withAccess c1 .streamOutput ↔ v ∈ withAccess c .streamOutput := by
      rw [withAccess_mem, withAccess_mem, o1, a1, List.mem_filter]
      constructor
      · rintro ⟨h1, h2⟩
        refine ⟨h1.1, ?_⟩
        split at h2
        · cases h2
        · exact h2
      · rintro ⟨h1, h2⟩
        refine ⟨⟨h1, by simp [h2]⟩, ?_⟩
        rw [if_neg]
        · exact h2
        · intro h; rw [(withAccess_mem.1 h).2] at h2; cases h2
    have w21 : v ∈ withAccess c2 .streamInput ↔ v ∈ withAccess c .streamInput := by
      rw [withAccess_mem, withAccess_mem, o2, a2, List.mem_filter]
      constructor
      · rintro ⟨h1, h2⟩
        refine ⟨h1.1, ?_⟩
        split at h2
        · cases h2
        · exact h2
      · rintro ⟨h1, h2⟩
        refine ⟨⟨h1, by simp [h2]⟩, ?_⟩
        rw [if_neg]
        · exact h2
        · intro h; rw [(withAccess_mem.1 h).2] at h2; cases h2
    simp only [w12, w21]
    by_cases h1 : v ∈ withAccess c .streamInput <;> by_cases h2 : v ∈ withAccess c .streamOutput <;> simp [h1, h2]

example : Described sample ∧ (occurrences sample).Nodup ∧
    (∀ v ∈ sample.flagOptionList.flatMap optionVar, accessOf sample v ≠ some .streamInput ∧
      accessOf sample v ≠ some .streamOutput) ∧ withAccess sample .streamInput = [1] ∧
    withAccess sample .streamOutput = [3] := by
  refine ⟨?_, by decide +kernel, by decide +kernel, by decide +kernel, by decide +kernel⟩
  have : ∀ v ∈ occurrences sample, accessOf sample v ≠ none := by decide +kernel
  exact this

end PashAnn
