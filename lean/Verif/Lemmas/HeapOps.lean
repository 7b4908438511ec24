import Verif.Lemmas.Heap

/-! Lemmas on the heap model: each method follows its version on values, and what it leaves alone. -/

namespace PashAnn.Heap
open Spec

/-- The invocation at `self` is `c`, its map is at `mapA` and its lists are outside `N`. -/
def Full (self mapA : Addr) (N : List Addr) (c : CommandInvocationWithIOVars) (h : Heap) : Prop :=
  Shape self mapA N c h ∧ h[mapA]? = some (.map c.accessMap)

theorem Full.commandAt {self mapA : Addr} {N : List Addr} {c : CommandInvocationWithIOVars} {h : Heap}
    (hf : Full self mapA N c h) : commandAt h self = some c := by
  obtain ⟨⟨o, h1, rfl, h3, h4, h5, h6, h7, -, -⟩, hm⟩ := hf
  unfold Spec.commandAt
  simp only [h1, h6, h7, hm, h3, h4, h5]

theorem commandAt_fields {h : Heap} {a : Addr} {c : CommandInvocationWithIOVars} (hc : commandAt h a = some c) :
    ∃ o : InvObj, h[a]? = some (.inv o) ∧ o.cmdName = c.cmdName ∧ o.implicitInput = c.implicitInput ∧
      o.implicitOutput = c.implicitOutput ∧ h[o.flagOptionList]? = some (.options c.flagOptionList) ∧
      h[o.operandList]? = some (.vars c.operandList) ∧ h[o.accessMap]? = some (.map c.accessMap) := by
  unfold commandAt at hc
  split at hc
  · rename_i o ho
    split at hc
    · rename_i fos ops m h1 h2 h3
      cases hc
      exact ⟨o, ho, rfl, rfl, rfl, h1, h2, h3⟩
    · cases hc
  · cases hc

theorem full_of_commandAt {h : Heap} {a : Addr} {c : CommandInvocationWithIOVars} (hc : commandAt h a = some c)
    {o : InvObj} (ho : h[a]? = some (.inv o)) {N : List Addr} (h1 : o.flagOptionList ∉ N) (h2 : o.operandList ∉ N) :
    Full a o.accessMap N c h := by
  obtain ⟨o', ho', e1, e2, e3, e4, e5, e6⟩ := commandAt_fields hc
  rw [ho] at ho'
  cases ho'
  exact ⟨⟨o, ho, rfl, e1, e2, e3, e4, e5, h1, h2⟩, e6⟩

theorem Shape.withMap {self mapA : Addr} {N : List Addr} {c : CommandInvocationWithIOVars} {h : Heap}
    (hs : Shape self mapA N c h) (m : AccessMap) : Shape self mapA N { c with accessMap := m } h := hs

theorem Full.self_lt {self mapA : Addr} {N : List Addr} {c : CommandInvocationWithIOVars} {h : Heap}
    (hf : Full self mapA N c h) : ∃ o, h[self]? = some (.inv o) ∧ o.accessMap = mapA := by
  obtain ⟨⟨o, h1, h2, -⟩, -⟩ := hf
  exact ⟨o, h1, h2⟩

theorem Full.ne {self mapA : Addr} {N : List Addr} {c : CommandInvocationWithIOVars} {h : Heap}
    (hf : Full self mapA N c h) : self ≠ mapA := by
  rintro rfl
  obtain ⟨o, ho, -⟩ := hf.self_lt
  rw [hf.2] at ho; cases ho

theorem Full.ne_list {self mapA : Addr} {N : List Addr} {c : CommandInvocationWithIOVars} {h : Heap}
    (hf : Full self mapA N c h) {a : Addr} {l : List VArg} (ha : h[a]? = some (.vars l)) : self ≠ a ∧ mapA ≠ a := by
  constructor
  · rintro rfl
    obtain ⟨o, ho, -⟩ := hf.self_lt
    rw [ha] at ho; cases ho
  · rintro rfl
    have := hf.2
    rw [ha] at this; cases this

/-- A method that changes only the invocation. -/
theorem method_sim {self mapA : Addr} {N : List Addr} {c : CommandInvocationWithIOVars} {h : Heap}
    {fp : VarFun AccessMap} {fh : IOVar → HM (List IOVar)} (hF : FSim self mapA [mapA] (MapAt mapA) fp fh)
    (hf : Full self mapA N c h) (hN : ∀ a ∈ N, a < h.length) :
    match PashAnn.flatMapAnythingNonNames fp c.accessMap c with
    | .ok r => ∃ h', flatMapAnythingNonNames self fh h = (.ok (), h') ∧
        Full self mapA N { r.1 with accessMap := r.2 } h' ∧ Upd [self, mapA] h h'
    | .error e => ∃ h' c', flatMapAnythingNonNames self fh h = (.error e, h') ∧ Full self mapA N c' h' ∧
        Upd [self, mapA] h h' := by
  have hN' : ∀ a ∈ mapA :: N, a < h.length := by
    intro a ha
    rcases List.mem_cons.1 ha with rfl | ha
    · exact lt_of_get hf.2
    · exact hN a ha
  have hs : Shape self mapA (mapA :: N) c h := by
    obtain ⟨o, h1, h2, h3, h4, h5, h6, h7, h8, h9⟩ := hf.1
    have hm := hf.2
    refine ⟨o, h1, h2, h3, h4, h5, h6, h7, ?_, ?_⟩
    · intro hmem
      rcases List.mem_cons.1 hmem with e | hmem
      · rw [e, hm] at h6; cases h6
      · exact h8 hmem
    · intro hmem
      rcases List.mem_cons.1 hmem with e | hmem
      · rw [e, hm] at h7; cases h7
      · exact h9 hmem
  have weaken : ∀ {c' h'}, Shape self mapA (mapA :: N) c' h' → Shape self mapA N c' h' := by
    rintro c' h' ⟨o, h1, h2, h3, h4, h5, h6, h7, h8, h9⟩
    exact ⟨o, h1, h2, h3, h4, h5, h6, h7, fun hm => h8 (by simp [hm]), fun hm => h9 (by simp [hm])⟩
  have := traverse_sim hF (MapAt.stable mapA) (W := [mapA]) (N := mapA :: N) (by simpa using hf.ne)
    (by simp) hs (s := c.accessMap) hf.2 hN'
  unfold Out at this
  cases hr : PashAnn.flatMapAnythingNonNames fp c.accessMap c with
  | error e =>
      rw [hr] at this
      obtain ⟨h', e', c', m', hs', hm', hu', -⟩ := this
      exact ⟨h', { c' with accessMap := m' }, e', ⟨weaken hs', hm'⟩, hu'⟩
  | ok r =>
      rw [hr] at this
      obtain ⟨_, h', e', hs', hm', hu'⟩ := this
      exact ⟨h', e', ⟨weaken hs', hm'⟩, hu'⟩

/-- Substitution of inputs or of outputs, for a list of any elements: the invocation and what is left of the list. -/
def substOne (pred : AccessKind → Bool) (c : CommandInvocationWithIOVars) (l : List VArg) :
    Py (CommandInvocationWithIOVars × List VArg) := do
  let r ← PashAnn.flatMapAnythingNonNames (substituteAny pred) (c.accessMap, l) c
  pyAssert (decide (r.2.2.length = 0))
  .ok ({ r.1 with accessMap := r.2.1 }, r.2.2)

theorem shape_extend {self mapA : Addr} {N W : List Addr} {c : CommandInvocationWithIOVars} {h : Heap}
    (hs : Shape self mapA N c h) (hW : ∀ o : InvObj, h[self]? = some (.inv o) → o.flagOptionList ∉ W ∧ o.operandList ∉ W) :
    Shape self mapA (W ++ N) c h := by
  obtain ⟨o, h1, h2, h3, h4, h5, h6, h7, h8, h9⟩ := hs
  refine ⟨o, h1, h2, h3, h4, h5, h6, h7, ?_, ?_⟩ <;>
    (rw [List.mem_append, not_or])
  · exact ⟨(hW o h1).1, h8⟩
  · exact ⟨(hW o h1).2, h9⟩

theorem shape_weaken {self mapA : Addr} {N W : List Addr} {c : CommandInvocationWithIOVars} {h : Heap}
    (hs : Shape self mapA (W ++ N) c h) : Shape self mapA N c h := by
  obtain ⟨o, h1, h2, h3, h4, h5, h6, h7, h8, h9⟩ := hs
  exact ⟨o, h1, h2, h3, h4, h5, h6, h7, fun hm => h8 (by simp [hm]), fun hm => h9 (by simp [hm])⟩

theorem substituteOne_sim {self mapA listA : Addr} {N : List Addr} {c : CommandInvocationWithIOVars} {h : Heap}
    (pred : AccessKind → Bool) {l : List VArg} (hf : Full self mapA N c h) (hl : h[listA]? = some (.vars l))
    (hlN : ∀ o : InvObj, h[self]? = some (.inv o) → o.operandList ≠ listA) (hN : ∀ a ∈ N, a < h.length) :
    match substOne pred c l with
    | .ok r => ∃ h', substituteOne self pred listA h = (.ok (), h') ∧ Full self mapA N r.1 h' ∧
        h'[listA]? = some (.vars r.2) ∧ r.2 = [] ∧ Upd [self, mapA, listA] h h' ∧
        (∀ o : InvObj, h'[self]? = some (.inv o) → o.operandList ≠ listA)
    | .error e => ∃ h' c' l', substituteOne self pred listA h = (.error e, h') ∧ Full self mapA N c' h' ∧
        h'[listA]? = some (.vars l') ∧ Upd [self, mapA, listA] h h' := by
  have hne := hf.ne_list hl
  have hs := shape_extend (W := [mapA, listA]) hf.1 (fun o ho => by
    obtain ⟨o', h1, h2, h3, h4, h5, h6, h7, h8, h9⟩ := hf.1
    rw [ho] at h1; cases h1
    have hm := hf.2
    simp only [List.mem_cons, List.not_mem_nil, or_false, not_or]
    refine ⟨⟨fun e => ?_, fun e => ?_⟩, ⟨fun e => ?_, hlN o ho⟩⟩
    · rw [e, hm] at h6; cases h6
    · rw [e, hl] at h6; cases h6
    · rw [e, hm] at h7; cases h7)
  have hN' : ∀ a ∈ [mapA, listA] ++ N, a < h.length := by
    intro a ha
    rcases List.mem_append.1 ha with ha | ha
    · rcases List.mem_cons.1 ha with rfl | ha
      · exact lt_of_get hf.2
      · rw [List.mem_singleton.1 ha]; exact lt_of_get hl
    · exact hN a ha
  have := traverse_sim (substituteAny_sim self mapA listA pred hne.2 hne.1) (MapAndList.stable mapA listA)
    (by simp [hf.ne, hne.1]) (by simp) hs (s := (c.accessMap, l)) ⟨hf.2, hl⟩ hN'
  unfold Out at this
  unfold substituteOne substOne
  cases hr : PashAnn.flatMapAnythingNonNames (substituteAny pred) (c.accessMap, l) c with
  | error e =>
      rw [hr] at this
      obtain ⟨h', e', c', s', hs', hm', hu', -⟩ := this
      exact ⟨h', { c' with accessMap := s'.1 }, s'.2, bind_error e', ⟨shape_weaken hs', hm'.1⟩, hm'.2, hu'⟩
  | ok r =>
      rw [hr] at this
      obtain ⟨_, h', e', hs', hm', hu'⟩ := this
      rw [bind_ok e', pyBind_ok, bind_ok (getVars_eq hm'.2)]
      by_cases hlen : r.2.2.length = 0
      · have : pyAssert (decide (r.2.2.length = 0)) = .ok () := by simp [pyAssert, hlen]
        rw [this]
        refine ⟨h', rfl, ⟨shape_weaken hs', hm'.1⟩, hm'.2, List.length_eq_zero_iff.1 hlen, hu', ?_⟩
        intro o ho e
        obtain ⟨o', h1, -, -, -, -, -, -, -, h9⟩ := hs'
        rw [ho] at h1; cases h1
        exact h9 (by simp [e])
      · have : pyAssert (decide (r.2.2.length = 0)) = .error .assertionError := by simp [pyAssert, hlen]
        rw [this]
        exact ⟨h', { r.1 with accessMap := r.2.1 }, r.2.2, rfl, ⟨shape_weaken hs', hm'.1⟩, hm'.2, hu'⟩

theorem collect_method {self mapA : Addr} {N : List Addr} {c : CommandInvocationWithIOVars} {h : Heap}
    (pred : AccessKind → Bool) (hf : Full self mapA N c h) (hN : ∀ a ∈ N, a < h.length) :
    match PashAnn.flatMapAnythingNonNames (PashAnn.collectFun pred c.accessMap) [] c with
    | .ok r => ∃ h', collect self pred h = (.ok h.length, h') ∧ Full self mapA (h.length :: N) c h' ∧
        h'[h.length]? = some (.vars (r.2.map VArg.var)) ∧ Upd [self, mapA] h h'
    | .error e => ∃ h' l, collect self pred h = (.error e, h') ∧ Full self mapA (h.length :: N) c h' ∧
        h'[h.length]? = some (.vars l) ∧ Upd [self, mapA] h h' := by
  have hacc : (h ++ [Obj.vars []])[h.length]? = some (.vars []) := alloc_new _ _
  have hold : ∀ a x, h[a]? = some x → (h ++ [Obj.vars []])[a]? = some x := fun a x ha => by
    rw [List.getElem?_append_left (lt_of_get ha)]; exact ha
  have hf1 : Full self mapA N c (h ++ [Obj.vars []]) := by
    obtain ⟨⟨o, h1, h2, h3, h4, h5, h6, h7, h8, h9⟩, hm⟩ := hf
    exact ⟨⟨o, hold _ _ h1, h2, h3, h4, h5, hold _ _ h6, hold _ _ h7, h8, h9⟩, hold _ _ hm⟩
  have hne := hf1.ne_list hacc
  have hs := shape_extend (W := [mapA, h.length]) hf1.1 (fun o ho => by
    obtain ⟨o', h1, h2, h3, h4, h5, h6, h7, h8, h9⟩ := hf.1
    rw [hold _ _ h1] at ho; cases ho
    have hm := hf.2
    simp only [List.mem_cons, List.not_mem_nil, or_false, not_or]
    refine ⟨⟨fun e => ?_, fun e => ?_⟩, ⟨fun e => ?_, fun e => ?_⟩⟩
    · rw [e, hm] at h6; cases h6
    · have := lt_of_get h6; rw [e] at this; exact Nat.lt_irrefl _ this
    · rw [e, hm] at h7; cases h7
    · have := lt_of_get h7; rw [e] at this; exact Nat.lt_irrefl _ this)
  have hN' : ∀ a ∈ [mapA, h.length] ++ N, a < (h ++ [Obj.vars []]).length := by
    intro a ha
    rcases List.mem_append.1 ha with ha | ha
    · rcases List.mem_cons.1 ha with rfl | ha
      · exact lt_of_get hf1.2
      · rw [List.mem_singleton.1 ha]; exact lt_of_get hacc
    · have := hN a ha; rw [List.length_append]; exact Nat.lt_add_right _ this
  have := traverse_sim (collect_sim self mapA h.length pred c.accessMap hne.2)
    (fun s h h' => MapAndList.stable mapA _ (c.accessMap, s.map VArg.var) h h')
    (by simp [hf.ne, hne.1]) (by simp) hs (s := []) ⟨hf1.2, hacc⟩ hN'
  have hupd : ∀ h', Upd (self :: [mapA, h.length]) (h ++ [Obj.vars []]) h' → Upd [self, mapA] h h' := by
    intro h' hu
    refine ⟨Nat.le_trans (by simp) hu.1, fun a ha hna => ?_⟩
    rw [hu.2 a (by rw [List.length_append]; exact Nat.lt_add_right _ ha), List.getElem?_append_left ha]
    simp only [List.mem_cons, List.not_mem_nil, or_false, not_or] at hna ⊢
    exact ⟨hna.1, hna.2, Nat.ne_of_lt ha⟩
  have hsh : ∀ {c' h'}, Shape self mapA ([mapA, h.length] ++ N) c' h' → Shape self mapA (h.length :: N) c' h' := by
    rintro c' h' ⟨o, h1, h2, h3, h4, h5, h6, h7, h8, h9⟩
    refine ⟨o, h1, h2, h3, h4, h5, h6, h7, fun hm => h8 ?_, fun hm => h9 ?_⟩ <;>
      (rcases List.mem_cons.1 hm with e | hm)
    · simp [e]
    · simp [hm]
    · simp [e]
    · simp [hm]
  unfold Out at this
  unfold collect
  rw [bind_ok (x := alloc _) rfl]
  cases hr : PashAnn.flatMapAnythingNonNames (PashAnn.collectFun pred c.accessMap) [] c with
  | error e =>
      rw [hr] at this
      obtain ⟨h', e', c', s', hs', hm', hu', hro⟩ := this
      cases hro (collect_readOnly _ _)
      exact ⟨h', _, bind_error e', ⟨hsh hs', hm'.1⟩, hm'.2, hupd _ hu'⟩
  | ok r =>
      rw [hr] at this
      obtain ⟨_, h', e', hs', hm', hu'⟩ := this
      have hc := readOnly_traverse (collect_readOnly _ _) hr
      rw [hc] at hs'
      exact ⟨h', by rw [bind_ok e']; rfl, ⟨hsh hs', hm'.1⟩, hm'.2, hupd _ hu'⟩

end PashAnn.Heap
