import Verif.Lemmas.HeapOps

/-! Lemmas on the heap model: substitution, and the functions that return a new invocation. -/

namespace PashAnn.Heap
open Spec

/-! ### Substitution by a list of variables -/

theorem flagLoop_embed {σ τ : Type} (e : σ → τ) {fp : VarFun σ} {fq : VarFun τ}
    (hfq : ∀ s v, fq (e s) v = (fp s v).map fun r => (r.1, e r.2)) (s : σ) (l : List FlagOptionWithIOVar) :
    PashAnn.flatMapFlagOptionList fq (e s) l = (PashAnn.flatMapFlagOptionList fp s l).map fun r => (r.1, e r.2) := by
  induction l generalizing s with
  | nil => rfl
  | cons x l ih =>
      have simple : (do let r' ← PashAnn.flatMapFlagOptionList fq (e s) l
                        Except.ok (x :: r'.1, r'.2) : Py _) =
          (do let r' ← PashAnn.flatMapFlagOptionList fp s l
              Except.ok (x :: r'.1, r'.2) : Py _).map fun r => (r.1, e r.2) := by
        rw [ih]
        cases PashAnn.flatMapFlagOptionList fp s l <;> rfl
      match x with
      | .flag n => simpa only [PashAnn.flatMapFlagOptionList] using simple
      | .optionVar i n a => simpa only [PashAnn.flatMapFlagOptionList] using simple
      | .optionIO n (.str a) => simpa only [PashAnn.flatMapFlagOptionList] using simple
      | .optionIO n (.io a) => simpa only [PashAnn.flatMapFlagOptionList] using simple
      | .optionIO n (.var v) =>
          simp only [PashAnn.flatMapFlagOptionList, hfq]
          cases fp s v with
          | error er => rfl
          | ok r =>
              obtain ⟨r1, r2⟩ := r
              match r1 with
              | [] => rfl
              | [new] =>
                  show (do let r' ← PashAnn.flatMapFlagOptionList fq (e r2) l
                           Except.ok (_ :: r'.1, r'.2) : Py _) =
                    (do let r' ← PashAnn.flatMapFlagOptionList fp r2 l
                        Except.ok (_ :: r'.1, r'.2) : Py _).map fun r => (r.1, e r.2)
                  rw [ih]
                  cases PashAnn.flatMapFlagOptionList fp r2 l <;> rfl
              | _ :: _ :: _ => rfl

theorem operandLoop_embed {σ τ : Type} (e : σ → τ) {fp : VarFun σ} {fq : VarFun τ}
    (hfq : ∀ s v, fq (e s) v = (fp s v).map fun r => (r.1, e r.2)) (s : σ) (l : List VArg) :
    PashAnn.flatMapOperandList fq (e s) l = (PashAnn.flatMapOperandList fp s l).map fun r => (r.1, e r.2) := by
  induction l generalizing s with
  | nil => rfl
  | cons x l ih =>
      have simple : (do let r' ← PashAnn.flatMapOperandList fq (e s) l
                        Except.ok (x :: r'.1, r'.2) : Py _) =
          (do let r' ← PashAnn.flatMapOperandList fp s l
              Except.ok (x :: r'.1, r'.2) : Py _).map fun r => (r.1, e r.2) := by
        rw [ih]
        cases PashAnn.flatMapOperandList fp s l <;> rfl
      match x with
      | .str a => simpa only [PashAnn.flatMapOperandList] using simple
      | .io a => simpa only [PashAnn.flatMapOperandList] using simple
      | .var v =>
          simp only [PashAnn.flatMapOperandList, hfq]
          cases fp s v with
          | error er => rfl
          | ok r =>
              obtain ⟨r1, r2⟩ := r
              show (do let r' ← PashAnn.flatMapOperandList fq (e r2) l
                       Except.ok (r1.map VArg.var ++ r'.1, r'.2) : Py _) =
                (do let r' ← PashAnn.flatMapOperandList fp r2 l
                    Except.ok (r1.map VArg.var ++ r'.1, r'.2) : Py _).map fun r => (r.1, e r.2)
              rw [ih]
              cases PashAnn.flatMapOperandList fp r2 l <;> rfl

theorem implicit_embed {σ τ : Type} (e : σ → τ) {fp : VarFun σ} {fq : VarFun τ}
    (hfq : ∀ s v, fq (e s) v = (fp s v).map fun r => (r.1, e r.2)) (s : σ) (x : Option IOVar) :
    PashAnn.flatMapImplicit fq (e s) x = (PashAnn.flatMapImplicit fp s x).map fun r => (r.1, e r.2) := by
  cases x with
  | none => rfl
  | some v =>
      simp only [PashAnn.flatMapImplicit, hfq]
      cases fp s v with
      | error er => rfl
      | ok r =>
          obtain ⟨r1, r2⟩ := r
          match r1 with
          | [] => rfl
          | [new] => rfl
          | _ :: _ :: _ => rfl

theorem traverse_embed {σ τ : Type} (e : σ → τ) {fp : VarFun σ} {fq : VarFun τ}
    (hfq : ∀ s v, fq (e s) v = (fp s v).map fun r => (r.1, e r.2)) (s : σ) (c : CommandInvocationWithIOVars) :
    PashAnn.flatMapAnythingNonNames fq (e s) c =
      (PashAnn.flatMapAnythingNonNames fp s c).map fun r => (r.1, e r.2) := by
  unfold PashAnn.flatMapAnythingNonNames
  rw [flagLoop_embed e hfq]
  cases PashAnn.flatMapFlagOptionList fp s c.flagOptionList with
  | error er => rfl
  | ok r =>
      show (PashAnn.flatMapOperandList fq (e r.2) c.operandList >>= _) =
        (PashAnn.flatMapOperandList fp r.2 c.operandList >>= _).map _
      rw [operandLoop_embed e hfq]
      cases PashAnn.flatMapOperandList fp r.2 c.operandList with
      | error er => rfl
      | ok r' =>
          show (PashAnn.flatMapImplicit fq (e r'.2) c.implicitInput >>= _) =
            (PashAnn.flatMapImplicit fp r'.2 c.implicitInput >>= _).map _
          rw [implicit_embed e hfq]
          cases PashAnn.flatMapImplicit fp r'.2 c.implicitInput with
          | error er => rfl
          | ok r'' =>
              show (PashAnn.flatMapImplicit fq (e r''.2) c.implicitOutput >>= _) =
                (PashAnn.flatMapImplicit fp r''.2 c.implicitOutput >>= _).map _
              rw [implicit_embed e hfq]
              cases PashAnn.flatMapImplicit fp r''.2 c.implicitOutput <;> rfl

theorem substituteAny_embed (pred : AccessKind → Bool) (s : AccessMap × List IOVar) (v : IOVar) :
    substituteAny pred (s.1, s.2.map VArg.var) v =
      (PashAnn.substituteFun pred s v).map fun r => (r.1, (r.2.1, r.2.2.map VArg.var)) := by
  unfold substituteAny PashAnn.substituteFun
  cases hg : AccessMap.getItem s.1 v with
  | error e => rfl
  | ok a =>
      simp only [pyBind_ok]
      by_cases hp : pred a = true
      · rw [if_pos hp, if_pos hp]
        cases s.2 with
        | nil => rfl
        | cons x xs =>
            simp only [List.map_cons]
            cases PashAnn.replaceVarConsistently s.1 v x <;> rfl
      · rw [if_neg hp, if_neg hp]; rfl

theorem substOne_inputs (c : CommandInvocationWithIOVars) (l : List IOVar) :
    substOne AccessKind.isStreamInput c (l.map VArg.var) = (c.substituteInputs l).map fun c' => (c', []) := by
  unfold substOne CommandInvocationWithIOVars.substituteInputs
  rw [traverse_embed (fun s : AccessMap × List IOVar => (s.1, s.2.map VArg.var)) (substituteAny_embed _) (c.accessMap, l)]
  cases PashAnn.flatMapAnythingNonNames (PashAnn.substituteFun AccessKind.isStreamInput) (c.accessMap, l) c with
  | error e => rfl
  | ok r =>
      obtain ⟨c', m, rest⟩ := r
      cases rest <;> rfl

theorem substOne_outputs (c : CommandInvocationWithIOVars) (l : List IOVar) :
    substOne AccessKind.isStreamOutput c (l.map VArg.var) = (c.substituteOutputs l).map fun c' => (c', []) := by
  unfold substOne CommandInvocationWithIOVars.substituteOutputs
  rw [traverse_embed (fun s : AccessMap × List IOVar => (s.1, s.2.map VArg.var)) (substituteAny_embed _) (c.accessMap, l)]
  cases PashAnn.flatMapAnythingNonNames (PashAnn.substituteFun AccessKind.isStreamOutput) (c.accessMap, l) c with
  | error e => rfl
  | ok r =>
      obtain ⟨c', m, rest⟩ := r
      cases rest <;> rfl

/-- Substitution of inputs and then of outputs; `same` says that one list is given for both. -/
def substBoth (same : Bool) (c : CommandInvocationWithIOVars) (li lo : List VArg) : Py CommandInvocationWithIOVars := do
  let r ← substOne AccessKind.isStreamInput c li
  let r ← substOne AccessKind.isStreamOutput r.1 (if same then r.2 else lo)
  .ok r.1

theorem substBoth_vars (c : CommandInvocationWithIOVars) (li lo : List IOVar) :
    substBoth false c (li.map VArg.var) (lo.map VArg.var) = c.substitute li lo := by
  unfold substBoth CommandInvocationWithIOVars.substitute
  rw [substOne_inputs]
  cases c.substituteInputs li with
  | error e => rfl
  | ok c' =>
      show (substOne AccessKind.isStreamOutput c' (lo.map VArg.var) >>= _) = c'.substituteOutputs lo
      rw [substOne_outputs]
      cases c'.substituteOutputs lo <;> rfl

theorem Full.operandList_ne {self mapA : Addr} {N : List Addr} {c : CommandInvocationWithIOVars} {h : Heap}
    (hf : Full self mapA N c h) {a : Addr} (ha : a ∈ N) (o : InvObj) (ho : h[self]? = some (.inv o)) :
    o.operandList ≠ a := by
  obtain ⟨⟨o', h1, -, -, -, -, -, -, -, h9⟩, -⟩ := hf
  rw [ho] at h1; cases h1
  rintro rfl
  exact h9 ha

theorem Upd.get {W : List Addr} {h h' : Heap} (hu : Upd W h h') {a : Addr} {x : Obj} (ha : h[a]? = some x) (hW : a ∉ W) :
    h'[a]? = some x := by rw [hu.2 a (lt_of_get ha) hW]; exact ha

theorem substitute_sim {self mapA ins outs : Addr} {N : List Addr} {c : CommandInvocationWithIOVars} {h : Heap}
    {li lo : List VArg} (hf : Full self mapA N c h) (hi : h[ins]? = some (.vars li)) (ho : h[outs]? = some (.vars lo))
    (hiN : ins ∈ N) (hoN : outs ∈ N) (hN : ∀ a ∈ N, a < h.length) :
    match substBoth (decide (ins = outs)) c li lo with
    | .ok c' => ∃ h', substitute self ins outs h = (.ok (), h') ∧ Full self mapA N c' h' ∧
        h'[ins]? = some (.vars []) ∧ h'[outs]? = some (.vars []) ∧ Upd [self, mapA, ins, outs] h h'
    | .error e => ∃ h' c' li' lo', substitute self ins outs h = (.error e, h') ∧ Full self mapA N c' h' ∧
        h'[ins]? = some (.vars li') ∧ h'[outs]? = some (.vars lo') ∧ Upd [self, mapA, ins, outs] h h' := by
  have hne := hf.ne_list ho
  have h1 := substituteOne_sim AccessKind.isStreamInput hf hi (hf.operandList_ne hiN) hN
  unfold substBoth substitute
  cases hr : substOne AccessKind.isStreamInput c li with
  | error e =>
      rw [hr] at h1
      obtain ⟨h', c', l', e1, hf', hl', hu'⟩ := h1
      by_cases hio : ins = outs
      · subst hio
        exact ⟨h', c', l', l', bind_error e1, hf', hl', hl', hu'.mono (by simp)⟩
      · exact ⟨h', c', l', lo, bind_error e1, hf', hl',
          hu'.get ho (by simp [Ne.symm hne.1, Ne.symm hne.2, Ne.symm hio]), hu'.mono (by simp)⟩
  | ok r =>
      rw [hr] at h1
      obtain ⟨h', e1, hf', hl', hnil, hu', -⟩ := h1
      have hN' : ∀ a ∈ N, a < h'.length := fun a ha => Nat.lt_of_lt_of_le (hN a ha) hu'.1
      have ho' : h'[outs]? = some (.vars (if decide (ins = outs) then r.2 else lo)) := by
        by_cases hio : ins = outs
        · subst hio; simpa using hl'
        · simp only [hio, decide_false, Bool.false_eq_true, if_false]
          exact hu'.get ho (by simp [Ne.symm hne.1, Ne.symm hne.2, Ne.symm hio])
      have h2 := substituteOne_sim AccessKind.isStreamOutput hf' ho' (hf'.operandList_ne hoN) hN'
      have hne' := hf'.ne_list hl'
      rw [pyBind_ok, bind_ok e1]
      cases hr' : substOne AccessKind.isStreamOutput r.1 (if decide (ins = outs) then r.2 else lo) with
      | error e =>
          rw [hr'] at h2
          obtain ⟨h'', c', l', e2, hf'', hl'', hu''⟩ := h2
          have hu := (hu'.mono (W' := [self, mapA, ins, outs]) (by simp)).trans
            (hu''.mono (W' := [self, mapA, ins, outs]) (by simp +contextual))
          by_cases hio : ins = outs
          · subst hio
            exact ⟨h'', c', l', l', e2, hf'', hl'', hl'', hu⟩
          · exact ⟨h'', c', r.2, l', e2, hf'',
              hu''.get hl' (by simp [Ne.symm hne'.1, Ne.symm hne'.2, hio]), hl'', hu⟩
      | ok r' =>
          rw [hr'] at h2
          obtain ⟨h'', e2, hf'', hl'', hnil', hu'', -⟩ := h2
          have hu := (hu'.mono (W' := [self, mapA, ins, outs]) (by simp)).trans
            (hu''.mono (W' := [self, mapA, ins, outs]) (by simp +contextual))
          rw [hnil'] at hl''
          by_cases hio : ins = outs
          · subst hio
            exact ⟨h'', e2, hf'', hl'', hl'', hu⟩
          · exact ⟨h'', e2, hf'',
              hu''.get (by rw [hl', hnil]) (by simp [Ne.symm hne'.1, Ne.symm hne'.2, hio]), hl'', hu⟩

/-! ### New invocations -/

/-- In `h'` there is the invocation `c` at `a`, and it and its parts are not in `h`. -/
def New (h h' : Heap) (a : Addr) (c : CommandInvocationWithIOVars) : Prop :=
  commandAt h' a = some c ∧ ∃ o, h'[a]? = some (.inv o) ∧ h.length ≤ a ∧ h.length ≤ o.flagOptionList ∧
    h.length ≤ o.operandList ∧ h.length ≤ o.accessMap

/-- The result of a computation that changes nothing in the heap it is given and whose result, if any, is new. -/
def Makes (h : Heap) (r : Py (Option CommandInvocationWithIOVars)) (x : Py (Option Addr) × Heap) : Prop :=
  Upd [] h x.2 ∧ match r with
    | .ok (some c) => ∃ a, x.1 = .ok (some a) ∧ New h x.2 a c
    | .ok none => x.1 = .ok none
    | .error e => x.1 = .error e

theorem construct_eq {h : Heap} {n : String} {f o m : Addr} {i u : Option IOVar} {fos ops mm}
    (hf : h[f]? = some (.options fos)) (ho : h[o]? = some (.vars ops)) (hm : h[m]? = some (.map mm)) :
    construct n f o i u m h = (.ok (h.length + 3), h ++ [.options fos, .vars ops, .map mm,
      .inv ⟨n, h.length, h.length + 1, i, u, h.length + 2⟩]) := by
  have h1 : ∀ (l : Heap) (a : Addr) (x : Obj), h[a]? = some x → (h ++ l)[a]? = some x := fun l a x ha => by
    rw [List.getElem?_append_left (lt_of_get ha)]; exact ha
  unfold construct
  rw [bind_ok (getOptions_eq hf), bind_ok (x := alloc _) rfl, bind_ok (getVars_eq (h1 _ _ _ ho)),
    bind_ok (x := alloc _) rfl, bind_ok (getMap_eq (by rw [List.append_assoc]; exact h1 _ _ _ hm)),
    bind_ok (x := alloc _) rfl]
  unfold alloc
  simp [List.append_assoc]

theorem construct_full {h : Heap} {n : String} {f o m : Addr} {i u : Option IOVar} {fos ops mm}
    (hf : h[f]? = some (.options fos)) (ho : h[o]? = some (.vars ops)) (hm : h[m]? = some (.map mm)) :
    ∃ h', construct n f o i u m h = (.ok (h.length + 3), h') ∧
      Full (h.length + 3) (h.length + 2) (List.range h.length) ⟨n, fos, ops, i, u, mm⟩ h' ∧ Upd [] h h' ∧
      h'.length = h.length + 4 := by
  refine ⟨_, construct_eq hf ho hm, ⟨⟨⟨n, h.length, h.length + 1, i, u, h.length + 2⟩, ?_, rfl, rfl, rfl, rfl, ?_, ?_, ?_, ?_⟩,
    ?_⟩, ⟨by simp, fun a ha _ => by rw [List.getElem?_append_left ha]⟩, by simp⟩
  · rw [List.getElem?_append_right (by simp)]; simp
  · rw [List.getElem?_append_right (by simp)]; simp
  · rw [List.getElem?_append_right (by simp)]; simp
  · simp
  · simp
  · rw [List.getElem?_append_right (by simp)]; simp

theorem Full.upd {self mapA : Addr} {N : List Addr} {c : CommandInvocationWithIOVars} {h h' : Heap}
    (hf : Full self mapA N c h) (hu : Upd [] h h') : Full self mapA N c h' := by
  obtain ⟨⟨o, h1, h2, h3, h4, h5, h6, h7, h8, h9⟩, hm⟩ := hf
  exact ⟨⟨o, hu.get h1 (by simp), h2, h3, h4, h5, hu.get h6 (by simp), hu.get h7 (by simp), h8, h9⟩, hu.get hm (by simp)⟩

theorem Full.extend {self mapA : Addr} {N : List Addr} {c : CommandInvocationWithIOVars} {h : Heap}
    (hf : Full self mapA N c h) (W : List Addr) (hW : ∀ a ∈ W, h.length ≤ a) : Full self mapA (W ++ N) c h := by
  refine ⟨shape_extend hf.1 fun o ho => ?_, hf.2⟩
  obtain ⟨⟨o', h1, h2, h3, h4, h5, h6, h7, h8, h9⟩, hm⟩ := hf
  rw [ho] at h1; cases h1
  exact ⟨fun hx => Nat.lt_irrefl _ (Nat.lt_of_lt_of_le (lt_of_get h6) (hW _ hx)),
    fun hx => Nat.lt_irrefl _ (Nat.lt_of_lt_of_le (lt_of_get h7) (hW _ hx))⟩

theorem Full.new {self mapA : Addr} {N : List Addr} {c : CommandInvocationWithIOVars} {h h' : Heap}
    (hf : Full self mapA N c h') (hN : ∀ a < h.length, a ∈ N) (h1 : h.length ≤ self) (h2 : h.length ≤ mapA) :
    New h h' self c := by
  refine ⟨hf.commandAt, ?_⟩
  obtain ⟨⟨o, e1, e2, e3, e4, e5, e6, e7, e8, e9⟩, hm⟩ := hf
  refine ⟨o, e1, h1, ?_, ?_, by rw [e2]; exact h2⟩
  · exact Nat.le_of_not_lt fun hlt => e8 (hN _ hlt)
  · exact Nat.le_of_not_lt fun hlt => e9 (hN _ hlt)

mutual
theorem applyTransformer_sim : ∀ (t : Transformer) (a : Addr) (h : Heap) (l : List FlagOptionWithIOVar),
    h[a]? = some (.options l) → ∃ b h', applyTransformer t a h = (.ok b, h') ∧ h'[b]? = some (.options (t.apply l)) ∧
      Upd [] h h'
  | .seq, a, h, l, ha => ⟨a, h, rfl, by simpa [Transformer.apply] using ha, Upd.refl _ _⟩
  | .chain ts, a, h, l, ha => by
      simpa only [applyTransformer, Transformer.apply] using applyChain_sim ts a h l ha
  | .add x, a, h, l, ha => ⟨h.length, _, by simp only [applyTransformer]; rw [bind_ok (getOptions_eq ha)]; rfl,
      alloc_new _ _, alloc_upd _ _⟩
  | .remove x, a, h, l, ha => ⟨h.length, _, by simp only [applyTransformer]; rw [bind_ok (getOptions_eq ha)]; rfl,
      alloc_new _ _, alloc_upd _ _⟩
  | .filter x, a, h, l, ha => ⟨h.length, _, by simp only [applyTransformer]; rw [bind_ok (getOptions_eq ha)]; rfl,
      alloc_new _ _, alloc_upd _ _⟩
  | .empty, a, h, l, ha => ⟨h.length, _, by simp only [applyTransformer]; rw [bind_ok (getOptions_eq ha)]; rfl,
      alloc_new _ _, alloc_upd _ _⟩
  | .custom x, a, h, l, ha => ⟨h.length, _, by simp only [applyTransformer]; rw [bind_ok (getOptions_eq ha)]; rfl,
      alloc_new _ _, alloc_upd _ _⟩

theorem applyChain_sim : ∀ (ts : List Transformer) (a : Addr) (h : Heap) (l : List FlagOptionWithIOVar),
    h[a]? = some (.options l) → ∃ b h', applyChain ts a h = (.ok b, h') ∧
      h'[b]? = some (.options (Transformer.applyChain ts l)) ∧ Upd [] h h'
  | [], a, h, l, ha => ⟨a, h, rfl, by simpa [Transformer.applyChain] using ha, Upd.refl _ _⟩
  | t :: ts, a, h, l, ha => by
      obtain ⟨b, h1, e1, hb, hu⟩ := applyTransformer_sim t a h l ha
      obtain ⟨b', h2, e2, hb', hu'⟩ := applyChain_sim ts b h1 _ hb
      refine ⟨b', h2, ?_, by simpa only [Transformer.applyChain] using hb', hu.trans hu'⟩
      simp only [applyChain]
      rw [bind_ok e1]; exact e2
end

theorem popOperands_sim (mapA : Addr) (ops : List VArg) (m : AccessMap) (h : Heap) (hm : h[mapA]? = some (.map m)) :
    match PashAnn.popOperands m ops with
    | .ok m' => ∃ h', popOperands mapA ops h = (.ok (), h') ∧ h'[mapA]? = some (.map m') ∧ Only [mapA] h h'
    | .error e => ∃ h', popOperands mapA ops h = (.error e, h') ∧ Only [mapA] h h' := by
  induction ops generalizing m h with
  | nil => exact ⟨h, rfl, hm, Only.refl _ _⟩
  | cons x ops ih =>
      match x with
      | .str s => exact ⟨h, rfl, Only.refl _ _⟩
      | .io f => exact ⟨h, rfl, Only.refl _ _⟩
      | .var v =>
          simp only [PashAnn.popOperands, popOperands]
          rw [bind_ok (getMap_eq hm)]
          cases hp : m.pop v with
          | error e => exact ⟨h, bind_error rfl, Only.refl _ _⟩
          | ok r =>
              rw [bind_ok (x := liftPy _) rfl, bind_ok (x := put _ _) rfl, pyBind_ok]
              have hput := put_only mapA (.map r.2) h
              have := ih r.2 (h.set mapA (.map r.2)) (put_get _ (lt_of_get hm))
              cases hr : PashAnn.popOperands r.2 ops with
              | ok m' =>
                  rw [hr] at this
                  obtain ⟨h', e', hm', ho'⟩ := this
                  exact ⟨h', e', hm', hput.trans ho'⟩
              | error e =>
                  rw [hr] at this
                  obtain ⟨h', e', ho'⟩ := this
                  exact ⟨h', e', hput.trans ho'⟩

theorem addFreshInputs_sim (mapA : Addr) (l : List IOVar) (m : AccessMap) (h : Heap) (hm : h[mapA]? = some (.map m)) :
    match PashAnn.addFreshInputs m l with
    | .ok m' => ∃ h', addFreshInputs mapA l h = (.ok (), h') ∧ h'[mapA]? = some (.map m') ∧ Only [mapA] h h'
    | .error e => ∃ h', addFreshInputs mapA l h = (.error e, h') ∧ Only [mapA] h h' := by
  induction l generalizing m h with
  | nil => exact ⟨h, rfl, hm, Only.refl _ _⟩
  | cons v l ih =>
      simp only [PashAnn.addFreshInputs, addFreshInputs]
      rw [bind_ok (getMap_eq hm)]
      cases hp : pyAssert (m.get? v).isNone with
      | error e => exact ⟨h, bind_error rfl, Only.refl _ _⟩
      | ok _ =>
          rw [bind_ok (x := liftPy _) rfl, bind_ok (x := put _ _) rfl, pyBind_ok]
          have hput := put_only mapA (.map (AccessMap.set m v .streamInput)) h
          have := ih _ (h.set mapA (.map (AccessMap.set m v .streamInput))) (put_get _ (lt_of_get hm))
          cases hr : PashAnn.addFreshInputs (AccessMap.set m v .streamInput) l with
          | ok m' =>
              rw [hr] at this
              obtain ⟨h', e', hm', ho'⟩ := this
              exact ⟨h', e', hm', hput.trans ho'⟩
          | error e =>
              rw [hr] at this
              obtain ⟨h', e', ho'⟩ := this
              exact ⟨h', e', hput.trans ho'⟩

theorem onlyVars_ok {l : List VArg} {vs : List IOVar} (h : onlyVars l = .ok vs) : l = vs.map VArg.var := by
  induction l generalizing vs with
  | nil => cases h; rfl
  | cons x l ih =>
      match x with
      | .str s => cases h
      | .io s => cases h
      | .var v =>
          simp only [onlyVars] at h
          cases hl : onlyVars l with
          | error e => rw [hl] at h; cases h
          | ok r => rw [hl] at h; cases h; rw [ih hl]; rfl

theorem onlyVars_map (vs : List IOVar) : onlyVars (vs.map VArg.var) = .ok vs := by
  induction vs with
  | nil => rfl
  | cons v vs ih => simp only [List.map_cons, onlyVars, ih]; rfl

theorem makeCat_sim {h : Heap} {ids : Addr} {l : List VArg} (o : IOVar) (hl : h[ids]? = some (.vars l)) :
    match onlyVars l with
    | .ok vs => ∃ a h', makeCat ids o h = (.ok a, h') ∧ New h h' a (CommandInvocationWithIOVars.makeCat vs o) ∧ Upd [] h h'
    | .error e => makeCat ids o h = (.error e, h) := by
  unfold makeCat
  rw [bind_ok (getVars_eq hl)]
  cases hv : onlyVars l with
  | error e => exact bind_error rfl
  | ok vs =>
      rw [bind_ok (x := liftPy _) rfl, bind_ok (x := alloc _) rfl, bind_ok (x := alloc _) rfl]
      have hu1 := (alloc_upd (.map (AccessMap.set (AccessMap.ofKeys vs .streamInput) o .streamOutput)) h).trans
        (alloc_upd (.options []) _)
      obtain ⟨h', e', hf', hu', hlen⟩ := construct_full (n := "cat") (i := none) (u := some o)
        (alloc_new (.options []) (h ++ [.map (AccessMap.set (AccessMap.ofKeys vs .streamInput) o .streamOutput)]))
        (hu1.get hl (by simp)) ((alloc_upd (.options []) _).get (alloc_new _ h) (by simp))
      rw [onlyVars_ok hv] at hf'
      exact ⟨_, h', e', hf'.new (h := h) (fun a ha => by simp; omega) (by simp; omega) (by simp; omega), hu1.trans hu'⟩

end PashAnn.Heap
