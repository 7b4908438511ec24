import Verif.Lemmas.HeapParallel

/-! Lemmas on the heap model: what a client knows stays well-formed and is changed only as announced. -/

namespace PashAnn.Heap
open Spec

/-- What a client knows is complete, the parts of invocations are not known to it, and no two invocations share a map. -/
structure Good (h : Heap) (K : List Addr) : Prop where
  there : ∀ a ∈ K, (valueAt h a).isSome = true
  hidden : ∀ a ∈ K, ∀ o, h[a]? = some (.inv o) → o.flagOptionList ∉ K ∧ o.operandList ∉ K ∧ o.accessMap ∉ K
  separate : ∀ a ∈ K, ∀ b ∈ K, a ≠ b → ∀ o p, h[a]? = some (.inv o) → h[b]? = some (.inv p) → o.accessMap ≠ p.accessMap

/-- What a call does to what is known. -/
structure Keeps (h h' : Heap) (K changed : List Addr) : Prop where
  good : Good h' K
  same : ∀ a ∈ K, a ∉ changed → valueAt h' a = valueAt h a

theorem Good.lt {h : Heap} {K : List Addr} (hg : Good h K) {a : Addr} (ha : a ∈ K) : a < h.length := by
  have := hg.there a ha
  unfold valueAt at this
  cases hh : h[a]? with
  | none => rw [hh] at this; cases this
  | some x => exact lt_of_get hh

theorem Good.command {h : Heap} {K : List Addr} (hg : Good h K) {a : Addr} (ha : a ∈ K) {o : InvObj}
    (ho : h[a]? = some (.inv o)) : ∃ c, commandAt h a = some c := by
  have := hg.there a ha
  unfold valueAt at this
  rw [ho] at this
  cases hc : commandAt h a with
  | none => rw [hc] at this; cases this
  | some c => exact ⟨c, rfl⟩

theorem commandAt_upd {W : List Addr} {h h' : Heap} {a : Addr} {c : CommandInvocationWithIOVars} (hc : commandAt h a = some c)
    {o : InvObj} (ho : h[a]? = some (.inv o)) (hu : Upd W h h')
    (hW : a ∉ W ∧ o.flagOptionList ∉ W ∧ o.operandList ∉ W ∧ o.accessMap ∉ W) : commandAt h' a = some c := by
  obtain ⟨o', ho', e1, e2, e3, e4, e5, e6⟩ := commandAt_fields hc
  rw [ho] at ho'; cases ho'
  unfold commandAt
  simp only [hu.get ho hW.1, hu.get e4 hW.2.1, hu.get e5 hW.2.2.1, hu.get e6 hW.2.2.2, e1, e2, e3]

theorem valueAt_inv {h : Heap} {a : Addr} {c : CommandInvocationWithIOVars} (hc : commandAt h a = some c) :
    valueAt h a = some (.command c) := by
  obtain ⟨o, ho, -⟩ := commandAt_fields hc
  unfold valueAt
  rw [ho, hc]; rfl

/-- The general step: objects in `L` and the invocation `self` with its map may change. -/
theorem Good.method {h h' : Heap} {K L : List Addr} {self : Addr} {o : InvObj} {c' : CommandInvocationWithIOVars}
    (hg : Good h K) (hk : self ∈ K) (ho : h[self]? = some (.inv o)) (hu : Upd (self :: o.accessMap :: L) h h')
    (hL : ∀ l ∈ L, (∀ a ∈ K, ∀ o', h[a]? = some (.inv o') → l ≠ o'.flagOptionList ∧ l ≠ o'.operandList ∧ l ≠ o'.accessMap) ∧
      (l ∈ K → ∃ x, h'[l]? = some (.vars x)))
    (hf : Full self o.accessMap K c' h') : Keeps h h' K (self :: L) := by
  obtain ⟨c, hc⟩ := hg.command hk ho
  obtain ⟨_, ho', -, -, -, e4, e5, e6⟩ := commandAt_fields hc
  rw [ho] at ho'; cases ho'
  -- an invocation that is not `self` stays as it is
  have other : ∀ a ∈ K, a ≠ self → ∀ p, h'[a]? = some (.inv p) → h[a]? = some (.inv p) ∧ a ∉ self :: o.accessMap :: L := by
    intro a ha hne p hp
    have hn : a ∉ self :: o.accessMap :: L := by
      intro hmem
      rcases List.mem_cons.1 hmem with rfl | hmem
      · exact hne rfl
      rcases List.mem_cons.1 hmem with rfl | hmem
      · exact (hg.hidden self hk o ho).2.2 ha
      · obtain ⟨x, hx⟩ := (hL a hmem).2 ha
        rw [hp] at hx; cases hx
    exact ⟨by rw [← hu.2 a (hg.lt ha) hn]; exact hp, hn⟩
  have kept : ∀ a ∈ K, a ∉ self :: L → h'[a]? = h[a]? := by
    intro a ha hna
    simp only [List.mem_cons, not_or] at hna
    refine hu.2 a (hg.lt ha) ?_
    simp only [List.mem_cons, not_or]
    exact ⟨hna.1, fun e => (hg.hidden self hk o ho).2.2 (e ▸ ha), hna.2⟩
  have fields : ∀ a ∈ K, a ≠ self → ∀ p, h[a]? = some (.inv p) → a ∉ self :: o.accessMap :: L → ∀ d,
      commandAt h a = some d → commandAt h' a = some d := by
    intro a ha hne p hp hn d hd
    obtain ⟨_, hp', -, -, -, f4, f5, f6⟩ := commandAt_fields hd
    rw [hp] at hp'; cases hp'
    refine commandAt_upd hd hp hu ⟨hn, ?_, ?_, ?_⟩ <;> simp only [List.mem_cons, not_or]
    · exact ⟨fun e => (hg.hidden a ha p hp).1 (e ▸ hk), fun e => (by rw [e, e6] at f4; cases f4),
        fun hx => ((hL _ hx).1 a ha p hp).1 rfl⟩
    · exact ⟨fun e => (hg.hidden a ha p hp).2.1 (e ▸ hk), fun e => (by rw [e, e6] at f5; cases f5),
        fun hx => ((hL _ hx).1 a ha p hp).2.1 rfl⟩
    · exact ⟨fun e => (hg.hidden a ha p hp).2.2 (e ▸ hk), fun e => hg.separate a ha self hk hne p o hp ho e,
        fun hx => ((hL _ hx).1 a ha p hp).2.2 rfl⟩
  have same : ∀ a ∈ K, a ∉ self :: L → valueAt h' a = valueAt h a := by
    intro a ha hna
    have hk' := kept a ha hna
    cases hh : h[a]? with
    | none => unfold valueAt; rw [hk', hh]
    | some x =>
        cases x with
        | inv p =>
            obtain ⟨d, hd⟩ := hg.command ha hh
            have hn := (other a ha (fun e => hna (by simp [e])) p (by rw [hk']; exact hh)).2
            have hd' := fields a ha (fun e => hna (by simp [e])) p hh hn d hd
            rw [valueAt_inv hd, valueAt_inv hd']
        | _ => unfold valueAt; rw [hk', hh]
  obtain ⟨o2, k1, k2, -, -, -, -, -, k8, k9⟩ := hf.1
  refine ⟨⟨?_, ?_, ?_⟩, same⟩
  · intro a ha
    by_cases hs : a = self
    · subst hs; rw [valueAt_inv hf.commandAt]; rfl
    by_cases hl : a ∈ L
    · obtain ⟨x, hx⟩ := (hL a hl).2 ha
      unfold valueAt; rw [hx]; rfl
    · rw [same a ha (by simp [hs, hl])]; exact hg.there a ha
  · intro a ha p hp
    by_cases hs : a = self
    · subst hs
      rw [k1] at hp; cases hp
      exact ⟨k8, k9, by rw [k2]; exact (hg.hidden a hk o ho).2.2⟩
    · exact hg.hidden a ha p (other a ha hs p hp).1
  · intro a ha b hb hne p q hp hq
    by_cases hs : a = self
    · subst hs
      rw [k1] at hp; cases hp
      rw [k2]
      exact hg.separate a hk b hb hne o q ho (other b hb (Ne.symm hne) q hq).1
    · by_cases hs' : b = self
      · subst hs'
        rw [k1] at hq; cases hq
        rw [k2]
        exact hg.separate a ha b hk hne p o (other a ha hne p hp).1 ho
      · exact hg.separate a ha b hb hne p q (other a ha hs p hp).1 (other b hb hs' q hq).1

/-- Nothing known is touched. -/
theorem Good.fresh {h h' : Heap} {K : List Addr} (hg : Good h K) (hu : Upd [] h h') : Keeps h h' K [] := by
  have kept : ∀ a ∈ K, h'[a]? = h[a]? := fun a ha => hu.2 a (hg.lt ha) (by simp)
  have same : ∀ a ∈ K, a ∉ ([] : List Addr) → valueAt h' a = valueAt h a := by
    intro a ha _
    cases hh : h[a]? with
    | none => unfold valueAt; rw [kept a ha, hh]
    | some x =>
        cases x with
        | inv p =>
            obtain ⟨d, hd⟩ := hg.command ha hh
            rw [valueAt_inv hd, valueAt_inv (commandAt_upd hd hh hu (by simp))]
        | _ => unfold valueAt; rw [kept a ha, hh]
  refine ⟨⟨fun a ha => ?_, fun a ha o ho => ?_, fun a ha b hb hne o p ho hp => ?_⟩, same⟩
  · rw [same a ha (by simp)]; exact hg.there a ha
  · exact hg.hidden a ha o (by rw [← kept a ha]; exact ho)
  · exact hg.separate a ha b hb hne o p (by rw [← kept a ha]; exact ho) (by rw [← kept b hb]; exact hp)

/-- A new list or dictionary becomes known. -/
theorem Good.addPlain {h : Heap} {K : List Addr} (hg : Good h K) {a : Addr} {x : Obj} (hx : h[a]? = some x)
    (hni : ∀ o, x ≠ .inv o)
    (hfree : ∀ b ∈ K, ∀ o, h[b]? = some (.inv o) → a ≠ o.flagOptionList ∧ a ≠ o.operandList ∧ a ≠ o.accessMap) :
    Good h (a :: K) := by
  refine ⟨fun b hb => ?_, fun b hb o ho => ?_, fun b hb d hd hne o p ho hp => ?_⟩
  · rcases List.mem_cons.1 hb with rfl | hb
    · unfold valueAt; rw [hx]
      cases x with
      | inv o => exact absurd rfl (hni o)
      | _ => rfl
    · exact hg.there b hb
  · rcases List.mem_cons.1 hb with rfl | hb
    · rw [hx] at ho; cases ho; exact absurd rfl (hni o)
    · obtain ⟨h1, h2, h3⟩ := hg.hidden b hb o ho
      obtain ⟨f1, f2, f3⟩ := hfree b hb o ho
      simp only [List.mem_cons, not_or]
      exact ⟨⟨Ne.symm f1, h1⟩, ⟨Ne.symm f2, h2⟩, ⟨Ne.symm f3, h3⟩⟩
  · rcases List.mem_cons.1 hb with rfl | hb
    · rw [hx] at ho; cases ho; exact absurd rfl (hni o)
    rcases List.mem_cons.1 hd with rfl | hd
    · rw [hx] at hp; cases hp; exact absurd rfl (hni p)
    exact hg.separate b hb d hd hne o p ho hp

/-- A new invocation becomes known. -/
theorem Good.addNew {h h' : Heap} {K : List Addr} (hg : Good h K) (hu : Upd [] h h') {a : Addr}
    {c : CommandInvocationWithIOVars} (hn : New h h' a c) : Good h' (a :: K) := by
  obtain ⟨hc, o, ho, ha, h1, h2, h3⟩ := hn
  have hk := (hg.fresh hu).good
  obtain ⟨_, ho', -, -, -, e4, e5, e6⟩ := commandAt_fields hc
  rw [ho] at ho'; cases ho'
  have old : ∀ b ∈ K, ∀ p, h'[b]? = some (.inv p) → p.flagOptionList < h.length ∧ p.operandList < h.length ∧
      p.accessMap < h.length := by
    intro b hb p hp
    have hp' : h[b]? = some (.inv p) := by rw [← hu.2 b (hg.lt hb) (by simp)]; exact hp
    obtain ⟨d, hd⟩ := hg.command hb hp'
    obtain ⟨_, hq, -, -, -, f4, f5, f6⟩ := commandAt_fields hd
    rw [hp'] at hq; cases hq
    exact ⟨lt_of_get f4, lt_of_get f5, lt_of_get f6⟩
  have notK : ∀ x, h.length ≤ x → x ∉ K := fun x hx hm => Nat.lt_irrefl _ (Nat.lt_of_lt_of_le (hg.lt hm) hx)
  refine ⟨fun b hb => ?_, fun b hb p hp => ?_, fun b hb d hd hne p q hp hq => ?_⟩
  · rcases List.mem_cons.1 hb with rfl | hb
    · rw [valueAt_inv hc]; rfl
    · exact hk.there b hb
  · rcases List.mem_cons.1 hb with rfl | hb
    · rw [ho] at hp; cases hp
      simp only [List.mem_cons, not_or]
      exact ⟨⟨fun e => (by rw [e, ho] at e4; cases e4), notK _ h1⟩, ⟨fun e => (by rw [e, ho] at e5; cases e5), notK _ h2⟩,
        ⟨fun e => (by rw [e, ho] at e6; cases e6), notK _ h3⟩⟩
    · obtain ⟨g1, g2, g3⟩ := hk.hidden b hb p hp
      obtain ⟨l1, l2, l3⟩ := old b hb p hp
      simp only [List.mem_cons, not_or]
      exact ⟨⟨fun e => Nat.lt_irrefl _ (Nat.lt_of_lt_of_le (e ▸ l1) ha), g1⟩,
        ⟨fun e => Nat.lt_irrefl _ (Nat.lt_of_lt_of_le (e ▸ l2) ha), g2⟩,
        ⟨fun e => Nat.lt_irrefl _ (Nat.lt_of_lt_of_le (e ▸ l3) ha), g3⟩⟩
  · rcases List.mem_cons.1 hb with rfl | hb'
    · rw [ho] at hp; cases hp
      rcases List.mem_cons.1 hd with rfl | hd
      · exact absurd rfl hne
      · intro e
        have := (old d hd q hq).2.2
        rw [← e] at this
        exact Nat.lt_irrefl _ (Nat.lt_of_lt_of_le this h3)
    rcases List.mem_cons.1 hd with rfl | hd
    · rw [ho] at hq; cases hq
      intro e
      have := (old b hb' p hp).2.2
      rw [e] at this
      exact Nat.lt_irrefl _ (Nat.lt_of_lt_of_le this h3)
    · exact hk.separate b hb' d hd hne p q hp hq

theorem Good.fields_lt {h : Heap} {K : List Addr} (hg : Good h K) {b : Addr} (hb : b ∈ K) {p : InvObj}
    (hp : h[b]? = some (.inv p)) : p.flagOptionList < h.length ∧ p.operandList < h.length ∧ p.accessMap < h.length := by
  obtain ⟨d, hd⟩ := hg.command hb hp
  obtain ⟨_, hq, -, -, -, f4, f5, f6⟩ := commandAt_fields hd
  rw [hp] at hq; cases hq
  exact ⟨lt_of_get f4, lt_of_get f5, lt_of_get f6⟩

/-- What a call may do to what is known, given its result and the new heap. -/
def Step (h : Heap) (K changed : List Addr) : Py (Option Addr) × Heap → Prop
  | (.ok (some a), h') => Good h' (a :: K) ∧ ∀ b ∈ K, b ∉ changed → valueAt h' b = valueAt h b
  | (_, h') => Good h' K ∧ ∀ b ∈ K, b ∉ changed → valueAt h' b = valueAt h b

theorem Good.full {h : Heap} {K : List Addr} (hg : Good h K) {a : Addr} (ha : a ∈ K) {o : InvObj}
    (ho : h[a]? = some (.inv o)) {c : CommandInvocationWithIOVars} (hc : commandAt h a = some c) :
    Full a o.accessMap K c h :=
  full_of_commandAt hc ho (hg.hidden a ha o ho).1 (hg.hidden a ha o ho).2.1

theorem step_makes {h : Heap} {K : List Addr} (hg : Good h K) {r : Py (Option CommandInvocationWithIOVars)}
    {x : Py (Option Addr) × Heap} (hm : Makes h r x) : Step h K [] x := by
  obtain ⟨res, h'⟩ := x
  obtain ⟨hu, hr⟩ := hm
  have hk := hg.fresh hu
  cases r with
  | error e => cases hr; exact ⟨hk.good, hk.same⟩
  | ok oc =>
      cases oc with
      | none => cases hr; exact ⟨hk.good, hk.same⟩
      | some c =>
          obtain ⟨a, e, hn⟩ := hr
          cases e
          exact ⟨hg.addNew hu hn, hk.same⟩

theorem step_alloc {h : Heap} {K : List Addr} (hg : Good h K) (x : Obj) (hni : ∀ o, x ≠ .inv o) :
    Step h K [] (.ok (some h.length), h ++ [x]) := by
  have hu := alloc_upd x h
  have hk := hg.fresh hu
  refine ⟨hk.good.addPlain (alloc_new x h) hni fun b hb o ho => ?_, hk.same⟩
  have ho' : h[b]? = some (.inv o) := by rw [← hu.2 b (hg.lt hb) (by simp)]; exact ho
  obtain ⟨l1, l2, l3⟩ := hg.fields_lt hb ho'
  exact ⟨Nat.ne_of_gt l1, Nat.ne_of_gt l2, Nat.ne_of_gt l3⟩

theorem step_put {h : Heap} {K : List Addr} (hg : Good h K) {a : Addr} (ha : a ∈ K) {x y : Obj} (hx : h[a]? = some x)
    (hny : ∀ o, y ≠ .inv o) : Step h K [a] (.ok none, h.set a y) := by
  have kept : ∀ b, b ≠ a → (h.set a y)[b]? = h[b]? := fun b hb => List.getElem?_set_ne (Ne.symm hb)
  have hget : (h.set a y)[a]? = some y := put_get y (lt_of_get hx)
  have inv : ∀ b o, (h.set a y)[b]? = some (.inv o) → b ≠ a ∧ h[b]? = some (.inv o) := by
    intro b o ho
    by_cases hb : b = a
    · subst hb; rw [hget] at ho; cases ho; exact absurd rfl (hny o)
    · exact ⟨hb, by rw [← kept b hb]; exact ho⟩
  have same : ∀ b ∈ K, b ∉ [a] → valueAt (h.set a y) b = valueAt h b := by
    intro b hb hne
    have hne : b ≠ a := by simpa using hne
    cases hh : h[b]? with
    | none => unfold valueAt; rw [kept b hne, hh]
    | some z =>
        cases z with
        | inv p =>
            obtain ⟨d, hd⟩ := hg.command hb hh
            obtain ⟨g1, g2, g3⟩ := hg.hidden b hb p hh
            rw [valueAt_inv hd, valueAt_inv (commandAt_upd hd hh (put_only a y h).upd (by
              simp only [List.mem_singleton]
              exact ⟨hne, fun e => g1 (e ▸ ha), fun e => g2 (e ▸ ha), fun e => g3 (e ▸ ha)⟩))]
        | _ => unfold valueAt; rw [kept b hne, hh]
  refine ⟨⟨fun b hb => ?_, fun b hb o ho => hg.hidden b hb o (inv b o ho).2,
    fun b hb d hd hne o p ho hp => hg.separate b hb d hd hne o p (inv b o ho).2 (inv d p hp).2⟩, same⟩
  by_cases hba : b = a
  · subst hba
    unfold valueAt; rw [hget]
    cases y with
    | inv o => exact absurd rfl (hny o)
    | _ => rfl
  · rw [same b hb (by simpa using hba)]; exact hg.there b hb

/-- A changing method with no other argument. -/
theorem step_method {h : Heap} {K : List Addr} (hg : Good h K) {self : Addr} (hk : self ∈ K) {o : InvObj}
    (ho : h[self]? = some (.inv o)) {fp : VarFun AccessMap} {fh : IOVar → HM (List IOVar)}
    (hF : FSim self o.accessMap [o.accessMap] (MapAt o.accessMap) fp fh) :
    Step h K [self] ((do flatMapAnythingNonNames self fh; pure none : HM (Option Addr)) h) := by
  obtain ⟨c, hc⟩ := hg.command hk ho
  have hm := method_sim hF (hg.full hk ho hc) (fun a ha => hg.lt ha)
  cases hr : PashAnn.flatMapAnythingNonNames fp c.accessMap c with
  | error e =>
      rw [hr] at hm
      obtain ⟨h', c', e', hf', hu'⟩ := hm
      rw [bind_error e']
      have := hg.method hk ho (L := []) hu' (by simp) hf'
      exact ⟨this.good, this.same⟩
  | ok r =>
      rw [hr] at hm
      obtain ⟨h', e', hf', hu'⟩ := hm
      rw [bind_ok e']
      have := hg.method hk ho (L := []) hu' (by simp) hf'
      exact ⟨this.good, this.same⟩

/-- Collecting changes nothing a client sees, and the list is new. -/
theorem collect_keeps {h : Heap} {K : List Addr} (hg : Good h K) {self : Addr} (hk : self ∈ K) {o : InvObj}
    (ho : h[self]? = some (.inv o)) {h' : Heap} {l : List VArg} {c : CommandInvocationWithIOVars}
    (hc : commandAt h self = some c) (hf : Full self o.accessMap (h.length :: K) c h')
    (hl : h'[h.length]? = some (.vars l)) (hu : Upd [self, o.accessMap] h h') :
    Keeps h h' K [] ∧ Good h' (h.length :: K) := by
  have hf' : Full self o.accessMap K c h' := ⟨shape_weaken (W := [h.length]) hf.1, hf.2⟩
  have hkp := hg.method hk ho (L := []) hu (by simp) hf'
  refine ⟨⟨hkp.good, fun a ha _ => ?_⟩, hkp.good.addPlain hl (by simp) fun b hb p hp => ?_⟩
  · by_cases hs : a = self
    · subst hs; rw [valueAt_inv hf.commandAt, valueAt_inv hc]
    · exact hkp.same a ha (by simpa using hs)
  · by_cases hs : b = self
    · subst hs
      obtain ⟨o', k1, k2, -, -, -, -, -, k8, k9⟩ := hf.1
      rw [hp] at k1; cases k1
      refine ⟨fun e => k8 (by simp [← e]), fun e => k9 (by simp [← e]), fun e => ?_⟩
      have := (hg.fields_lt hk ho).2.2
      rw [← k2, ← e] at this
      exact Nat.lt_irrefl _ this
    · have hb' : b ∉ [self, o.accessMap] := by
        simp only [List.mem_cons, List.not_mem_nil, or_false, not_or]
        exact ⟨hs, fun e => (hg.hidden self hk o ho).2.2 (e ▸ hb)⟩
      have hp' : h[b]? = some (.inv p) := by rw [← hu.2 b (hg.lt hb) hb']; exact hp
      obtain ⟨l1, l2, l3⟩ := hg.fields_lt hb hp'
      exact ⟨Nat.ne_of_gt l1, Nat.ne_of_gt l2, Nat.ne_of_gt l3⟩

theorem step_collect {h : Heap} {K : List Addr} (hg : Good h K) {self : Addr} (hk : self ∈ K) {o : InvObj}
    (ho : h[self]? = some (.inv o)) (pred : AccessKind → Bool) :
    Step h K [] ((do let a ← collect self pred; pure (some a) : HM (Option Addr)) h) := by
  obtain ⟨c, hc⟩ := hg.command hk ho
  have hm := collect_method pred (hg.full hk ho hc) (fun a ha => hg.lt ha)
  cases hr : PashAnn.flatMapAnythingNonNames (PashAnn.collectFun pred c.accessMap) [] c with
  | error e =>
      rw [hr] at hm
      obtain ⟨h', l, e', hf', hl', hu'⟩ := hm
      rw [bind_error e']
      have := (collect_keeps hg hk ho hc hf' hl' hu').1
      exact ⟨this.good, this.same⟩
  | ok r =>
      rw [hr] at hm
      obtain ⟨h', e', hf', hl', hu'⟩ := hm
      rw [bind_ok e']
      have := collect_keeps hg hk ho hc hf' hl' hu'
      exact ⟨this.2, this.1.same⟩

theorem step_hasOther {h : Heap} {K : List Addr} (hg : Good h K) {self : Addr} (hk : self ∈ K) {o : InvObj}
    (ho : h[self]? = some (.inv o)) :
    Step h K [] ((do let _ ← hasOtherOutputs self; pure none : HM (Option Addr)) h) := by
  obtain ⟨c, hc⟩ := hg.command hk ho
  have hm := collect_method AccessKind.isOtherOutput (hg.full hk ho hc) (fun a ha => hg.lt ha)
  unfold hasOtherOutputs
  cases hr : PashAnn.flatMapAnythingNonNames (PashAnn.collectFun AccessKind.isOtherOutput c.accessMap) [] c with
  | error e =>
      rw [hr] at hm
      obtain ⟨h', l, e', hf', hl', hu'⟩ := hm
      rw [bind_error (bind_error e')]
      have := (collect_keeps hg hk ho hc hf' hl' hu').1
      exact ⟨this.good, this.same⟩
  | ok r =>
      rw [hr] at hm
      obtain ⟨h', e', hf', hl', hu'⟩ := hm
      rw [bind_ok (a := decide ((r.2.map VArg.var).length > 0)) (h' := h') (by
        rw [bind_ok e', bind_ok (getVars_eq hl')]; rfl)]
      have := (collect_keeps hg hk ho hc hf' hl' hu').1
      exact ⟨this.good, this.same⟩

theorem step_substitute {h : Heap} {K : List Addr} (hg : Good h K) {self ins outs : Addr} (hk : self ∈ K) (hik : ins ∈ K)
    (hok : outs ∈ K) {o : InvObj} (ho : h[self]? = some (.inv o)) {li lo : List VArg} (hi : h[ins]? = some (.vars li))
    (hou : h[outs]? = some (.vars lo)) :
    Step h K [self, ins, outs] ((do substitute self ins outs; pure none : HM (Option Addr)) h) := by
  obtain ⟨c, hc⟩ := hg.command hk ho
  have hm := substitute_sim (hg.full hk ho hc) hi hou hik hok (fun a ha => hg.lt ha)
  have hL : ∀ l ∈ [ins, outs], ∀ a ∈ K, ∀ o', h[a]? = some (.inv o') →
      l ≠ o'.flagOptionList ∧ l ≠ o'.operandList ∧ l ≠ o'.accessMap := by
    intro l hl a ha o' ho'
    have hlK : l ∈ K := by
      simp only [List.mem_cons, List.not_mem_nil, or_false] at hl
      rcases hl with rfl | rfl <;> assumption
    obtain ⟨g1, g2, g3⟩ := hg.hidden a ha o' ho'
    exact ⟨fun e => g1 (e ▸ hlK), fun e => g2 (e ▸ hlK), fun e => g3 (e ▸ hlK)⟩
  cases hr : substBoth (decide (ins = outs)) c li lo with
  | error e =>
      rw [hr] at hm
      obtain ⟨h', c', li', lo', e', hf', hi', ho', hu'⟩ := hm
      rw [bind_error e']
      have := hg.method hk ho (L := [ins, outs]) hu' (fun l hl => ⟨hL l hl, fun _ => by
        simp only [List.mem_cons, List.not_mem_nil, or_false] at hl
        rcases hl with rfl | rfl
        · exact ⟨_, hi'⟩
        · exact ⟨_, ho'⟩⟩) hf'
      exact ⟨this.good, this.same⟩
  | ok r =>
      rw [hr] at hm
      obtain ⟨h', e', hf', hi', ho', hu'⟩ := hm
      rw [bind_ok e']
      have := hg.method hk ho (L := [ins, outs]) hu' (fun l hl => ⟨hL l hl, fun _ => by
        simp only [List.mem_cons, List.not_mem_nil, or_false] at hl
        rcases hl with rfl | rfl
        · exact ⟨_, hi'⟩
        · exact ⟨_, ho'⟩⟩) hf'
      exact ⟨this.good, this.same⟩

theorem call_step {h : Heap} {K : List Addr} (hg : Good h K) (c : Call) (hargs : ∀ a ∈ c.args, a ∈ K) (hty : c.Typed h) :
    Step h K c.changes (c.run h) := by
  cases c with
  | newList l => exact step_alloc hg (.vars l) (by simp)
  | newOptions l => exact step_alloc hg (.options l) (by simp)
  | newDict m => exact step_alloc hg (.map m) (by simp)
  | changeList a l =>
      obtain ⟨x, hx⟩ := hty
      show Step h K [a] ((do let _ ← getVars a; put a (.vars l); pure none : HM (Option Addr)) h)
      rw [bind_ok (getVars_eq hx)]
      exact step_put hg (hargs a (by simp [Call.args])) hx (by simp)
  | changeOptions a l =>
      obtain ⟨x, hx⟩ := hty
      show Step h K [a] ((do let _ ← getOptions a; put a (.options l); pure none : HM (Option Addr)) h)
      rw [bind_ok (getOptions_eq hx)]
      exact step_put hg (hargs a (by simp [Call.args])) hx (by simp)
  | changeDict a l =>
      obtain ⟨x, hx⟩ := hty
      show Step h K [a] ((do let _ ← getMap a; put a (.map l); pure none : HM (Option Addr)) h)
      rw [bind_ok (getMap_eq hx)]
      exact step_put hg (hargs a (by simp [Call.args])) hx (by simp)
  | construct n f o i u m =>
      obtain ⟨⟨fos, hf⟩, ⟨ops, ho⟩, mm, hm⟩ := hty
      obtain ⟨h', e', hf', hu', -⟩ := construct_full (n := n) (i := i) (u := u) hf ho hm
      show Step h K [] ((do let a ← construct n f o i u m; pure (some a) : HM (Option Addr)) h)
      rw [bind_ok e']
      exact step_makes (r := .ok (some _)) hg ⟨hu', _, rfl, hf'.new (fun a ha => by simpa using ha) (by omega) (by omega)⟩
  | substitute s i o =>
      obtain ⟨⟨x, hx⟩, ⟨li, hi⟩, lo, ho⟩ := hty
      exact step_substitute hg (hargs s (by simp [Call.args])) (hargs i (by simp [Call.args]))
        (hargs o (by simp [Call.args])) hx hi ho
  | generateInputs s => obtain ⟨x, hx⟩ := hty; exact step_collect hg (hargs s (by simp [Call.args])) hx _
  | generateOutputs s => obtain ⟨x, hx⟩ := hty; exact step_collect hg (hargs s (by simp [Call.args])) hx _
  | hasOtherOutputs s => obtain ⟨x, hx⟩ := hty; exact step_hasOther hg (hargs s (by simp [Call.args])) hx
  | replaceVar s v w =>
      obtain ⟨x, hx⟩ := hty
      exact step_method hg (hargs s (by simp [Call.args])) hx (replace_sim s x.accessMap v w)
  | removeStreamingInputs s =>
      obtain ⟨x, hx⟩ := hty
      exact step_method hg (hargs s (by simp [Call.args])) hx (remove_sim s x.accessMap _)
  | removeStreamingOutputs s =>
      obtain ⟨x, hx⟩ := hty
      exact step_method hg (hargs s (by simp [Call.args])) hx (remove_sim s x.accessMap _)
  | makeCat i o =>
      obtain ⟨vs, hi⟩ := hty
      have := makeCat_sim o hi
      rw [onlyVars_map] at this
      obtain ⟨a, h', e', hn, hu⟩ := this
      show Step h K [] ((do let a ← makeCat i o; pure (some a) : HM (Option Addr)) h)
      rw [bind_ok e']
      exact step_makes (r := .ok (some _)) hg ⟨hu, _, rfl, hn⟩
  | getMapper ms s i o x =>
      obtain ⟨⟨y, hy⟩, vs, hx⟩ := hty
      obtain ⟨c, hc⟩ := hg.command (hargs s (by simp [Call.args])) hy
      exact step_makes hg (getMapper_sim ms i o hc hx)
  | getAggregator spec s i o =>
      obtain ⟨⟨y, hy⟩, vs, hx⟩ := hty
      obtain ⟨c, hc⟩ := hg.command (hargs s (by simp [Call.args])) hy
      exact step_makes hg (getAggregator_sim spec o hc hx)

theorem call_good {s : Client} (hg : Good s.heap s.known) (c : Call) (hargs : ∀ a ∈ c.args, a ∈ s.known)
    (hty : c.Typed s.heap) : Good (s.call c).heap (s.call c).known ∧
      ∀ a ∈ s.known, a ∉ c.changes → valueAt (s.call c).heap a = valueAt s.heap a := by
  have := call_step hg c hargs hty
  unfold Client.call
  cases hr : c.run s.heap with
  | mk r h' =>
      rw [hr] at this
      match r with
      | .ok (some a) => exact this
      | .ok none => exact this
      | .error e => exact this

theorem history_good {s t : Client} {cs : List Call} (hh : History s cs t) (hg : Good s.heap s.known) :
    Good t.heap t.known := by
  induction hh with
  | done => exact hg
  | step hargs hty _ ih => exact ih (call_good hg _ hargs hty).1

theorem good_empty : Good [] [] := ⟨by simp, by simp, by simp⟩

theorem call_known {s : Client} {c : Call} {a : Addr} (ha : a ∈ s.known) : a ∈ (s.call c).known := by
  unfold Client.call
  split
  · simp [ha]
  · exact ha

end PashAnn.Heap
