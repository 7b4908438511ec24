import Verif.Lemmas.HeapMake

/-! Lemmas on the heap model: mappers and aggregators. -/

namespace PashAnn.Heap
open Spec

theorem Makes.error {h h' : Heap} {e : PyErr} (hu : Upd [] h h') : Makes h (.error e) (.error e, h') := ⟨hu, rfl⟩

theorem Makes.same {h : Heap} : Makes h (.ok none) (.ok none, h) := ⟨Upd.refl _ _, rfl⟩

theorem Upd.forget {W : List Addr} {h h1 h2 : Heap} (a : Upd [] h h1) (b : Upd W h1 h2) (hW : ∀ x ∈ W, h.length ≤ x) :
    Upd [] h h2 := by
  refine ⟨Nat.le_trans a.1 b.1, fun x hx hn => ?_⟩
  rw [b.2 x (Nat.lt_of_lt_of_le hx a.1) (fun hxW => Nat.lt_irrefl _ (Nat.lt_of_lt_of_le hx (hW x hxW))), a.2 x hx hn]

theorem initialMapper_sim {h : Heap} {a : Addr} {c : CommandInvocationWithIOVars} {o : InvObj} (ms : MapperSpec)
    (ho : h[a]? = some (.inv o)) (hc : commandAt h a = some c) :
    ∃ b mapA h', initialMapper ms o h =
        (.ok b, h') ∧ Full b mapA (List.range h.length) (ms.initialMapper c) h' ∧ Upd [] h h' ∧
        h.length ≤ b ∧ h.length ≤ mapA := by
  obtain ⟨o', ho', e1, e2, e3, e4, e5, e6⟩ := commandAt_fields hc
  rw [ho] at ho'; cases ho'
  unfold MapperSpec.initialMapper initialMapper
  cases ms.kind with
  | sameAsSeq =>
      obtain ⟨h', e, hf, hu, -⟩ := construct_full (n := o.cmdName) (i := o.implicitInput) (u := o.implicitOutput) e4 e5 e6
      refine ⟨h.length + 3, h.length + 2, h', e, ?_, hu, by omega, by omega⟩
      rw [e1, e2, e3] at hf
      exact hf
  | custom =>
      obtain ⟨b, h1, eb, hb, hu1⟩ := applyTransformer_sim ms.transformer o.flagOptionList h _ e4
      obtain ⟨h', e, hf, hu, -⟩ := construct_full (n := ms.specMapperCmdName.getD o.cmdName) (i := o.implicitInput)
        (u := o.implicitOutput) hb (hu1.get e5 (by simp)) (hu1.get e6 (by simp))
      refine ⟨h1.length + 3, h1.length + 2, h', (bind_ok eb).trans e, ?_, hu1.trans hu,
        by have := hu1.1; omega, by have := hu1.1; omega⟩
      rw [e1, e2, e3] at hf
      refine ⟨?_, hf.2⟩
      obtain ⟨o, f1, f2, f3, f4, f5, f6, f7, f8, f9⟩ := hf.1
      exact ⟨o, f1, f2, f3, f4, f5, f6, f7, fun hx => f8 (by simp at hx ⊢; have := hu1.1; omega),
        fun hx => f9 (by simp at hx ⊢; have := hu1.1; omega)⟩

theorem getMapper_sim {h : Heap} {a aux : Addr} {c : CommandInvocationWithIOVars} {vs : List IOVar} (ms : MapperSpec)
    (i u : IOVar) (hc : commandAt h a = some c) (hx : h[aux]? = some (.vars (vs.map VArg.var))) :
    Makes h (ms.getMapper c i u vs) (getMapper ms a i u aux h) := by
  obtain ⟨o, ho, -⟩ := commandAt_fields hc
  unfold getMapper MapperSpec.getMapper
  by_cases himpl : ms.isImplemented = true
  case neg =>
    simp only [himpl, Bool.not_false, if_true]
    exact Makes.same
  simp only [himpl, Bool.not_true, Bool.false_eq_true, if_false]
  rw [bind_ok (getInv_eq ho)]
  obtain ⟨b, mapA, h1, e1, hf1, hu1, hb, hmA⟩ := initialMapper_sim ms ho hc
  rw [bind_ok e1, bind_ok (getVars_eq (hu1.get hx (by simp))), onlyVars_map, bind_ok (x := liftPy _) rfl]
  by_cases hlen : vs.length = 0
  · simp only [hlen, if_true]
    rw [bind_ok (x := alloc _) rfl, bind_ok (x := alloc _) rfl]
    have hua := alloc_upd (.vars [VArg.var i]) h1
    have hub := alloc_upd (.vars [VArg.var u]) (h1 ++ [.vars [VArg.var i]])
    have hl1 : (h1 ++ [Obj.vars [VArg.var i]]).length = h1.length + 1 := by simp
    have hf2 : Full b mapA ([h1.length, h1.length + 1] ++ List.range h.length) (ms.initialMapper c)
        (h1 ++ [.vars [VArg.var i]] ++ [.vars [VArg.var u]]) :=
      (hf1.extend [h1.length, h1.length + 1] (by simp)).upd (hua.trans hub)
    have hN : ∀ x ∈ [h1.length, h1.length + 1] ++ List.range h.length,
        x < (h1 ++ [Obj.vars [VArg.var i]] ++ [Obj.vars [VArg.var u]]).length := by
      have := hu1.1
      simp
      omega
    have hs := substitute_sim (ins := h1.length) (outs := (h1 ++ [Obj.vars [VArg.var i]]).length) hf2
      (hub.get (alloc_new _ _) (by simp)) (alloc_new _ _) (by simp) (by simp) hN
    have hne : decide (h1.length = (h1 ++ [Obj.vars [VArg.var i]]).length) = false := by simp
    rw [hne, show ([VArg.var i] : List VArg) = [i].map VArg.var from rfl,
      show ([VArg.var u] : List VArg) = [u].map VArg.var from rfl, substBoth_vars] at hs
    have hW : ∀ x ∈ [b, mapA, h1.length, (h1 ++ [Obj.vars [VArg.var i]]).length], h.length ≤ x := by
      have := hu1.1
      simp
      omega
    cases hr : (ms.initialMapper c).substitute [i] [u] with
    | error e =>
        rw [hr] at hs
        obtain ⟨h', c', li', lo', e', -, -, -, hu'⟩ := hs
        simp only [List.map_cons, List.map_nil] at e' hu'
        rw [bind_error e', pyBind_error]
        exact Makes.error ((hu1.trans (hua.trans hub)).forget hu' hW)
    | ok c' =>
        rw [hr] at hs
        obtain ⟨h', e', hf', -, -, hu'⟩ := hs
        simp only [List.map_cons, List.map_nil] at e' hu'
        rw [bind_ok e', pyBind_ok]
        exact ⟨(hu1.trans (hua.trans hub)).forget hu' hW, b, rfl, hf'.new (fun x hx => by simp; omega) hb hmA⟩
  · simp only [hlen, if_false]
    obtain ⟨mo, hmo, hmA'⟩ := hf1.self_lt
    subst hmA'
    obtain ⟨⟨mo', f1, -, f3, f4, f5, f6, f7, f8, f9⟩, hm⟩ := hf1
    rw [hmo] at f1; cases f1
    rw [bind_ok (getInv_eq hmo), bind_ok (getVars_eq f7)]
    have hp := popOperands_sim mo.accessMap (ms.initialMapper c).operandList _ h1 hm
    cases hr : PashAnn.popOperands (ms.initialMapper c).accessMap (ms.initialMapper c).operandList with
    | error e =>
        rw [hr] at hp
        obtain ⟨h', e', ho'⟩ := hp
        rw [bind_error e', pyBind_error]
        exact Makes.error (hu1.forget ho'.upd (by simpa using hmA))
    | ok m' =>
        rw [hr] at hp
        obtain ⟨h2, e', hm', ho'⟩ := hp
        rw [bind_ok e', pyBind_ok, bind_ok (x := alloc _) rfl, bind_ok (x := put _ _) rfl]
        have hbm : b ≠ mo.accessMap := by rintro rfl; rw [hmo] at hm; cases hm
        have hfm : mo.flagOptionList ≠ mo.accessMap := by intro e; rw [e, hm] at f6; cases f6
        have hfb : mo.flagOptionList ≠ b := by rintro rfl; rw [hmo] at f6; cases f6
        have hlenb : b < h1.length := lt_of_get hmo
        have hl2 : h2.length = h1.length := ho'.1
        have hget : ∀ x, x < h2.length → (h2 ++ [Obj.vars (([i, u] ++ vs).map VArg.var)])[x]? = h2[x]? := fun x hx =>
          List.getElem?_append_left hx
        have hml : mo.accessMap < h2.length := lt_of_get hm'
        have hfl : mo.flagOptionList < h2.length := by rw [hl2]; exact lt_of_get f6
        have hset : ((h2 ++ [Obj.vars (([i, u] ++ vs).map VArg.var)]).set b
            (.inv { mo with operandList := h2.length }))[mo.accessMap]? = some (.map m') := by
          rw [List.getElem?_set_ne hbm, hget _ hml]; exact hm'
        rw [bind_ok (getMap_eq hset), bind_ok (x := put _ _) rfl, bind_ok (x := put _ _) rfl]
        refine ⟨?_, b, rfl, ?_⟩
        · have u2 := hu1.forget ho'.upd (by simpa using hmA)
          have u3 := u2.trans (alloc_upd (.vars (([i, u] ++ vs).map VArg.var)) h2)
          have u4 := u3.forget (put_only b (.inv { mo with operandList := h2.length }) _).upd (by simpa using hb)
          have u5 := u4.forget (put_only mo.accessMap (.map (AccessMap.setAll (AccessMap.set (AccessMap.set m' i .streamInput) u
            .streamOutput) vs .streamOutput)) _).upd (by simpa using hmA)
          exact u5.forget (put_only b (.inv { mo with operandList := h2.length, implicitOutput := none, implicitInput := none })
            _).upd (by simpa using hb)
        · have hb2 : b < h2.length := by rw [hl2]; exact hlenb
          refine ⟨?_, ⟨mo.cmdName, mo.flagOptionList, h2.length, none, none, mo.accessMap⟩, ?_, hb, ?_, ?_, hmA⟩
          · unfold commandAt
            simp only [pure_def]
            rw [put_get _ (by simp only [List.length_set, List.length_append]; exact Nat.lt_add_right _ hb2)]
            have g1 : h2[mo.flagOptionList]? = some (.options (ms.initialMapper c).flagOptionList) := by
              rw [ho'.2 _ (by simpa using hfm)]; exact f6
            have hnb : b ≠ h2.length := Nat.ne_of_lt hb2
            have hnm : mo.accessMap ≠ h2.length := Nat.ne_of_lt hml
            simp only [List.getElem?_set_ne (Ne.symm hfb), List.getElem?_set_ne (Ne.symm hfm), List.getElem?_set_ne hbm,
              List.getElem?_set_ne hnb, List.getElem?_set_ne hnm, hget _ hfl, g1, alloc_new]
            rw [put_get _ (by simp only [List.length_set, List.length_append]; exact Nat.lt_add_right _ hml)]
            simp only [f3]
          · simp only [pure_def]
            rw [put_get _ (by simp only [List.length_set, List.length_append]; exact Nat.lt_add_right _ hb2)]
          · exact Nat.le_of_not_lt fun hlt => f8 (by simpa using hlt)
          · have := hu1.1
            exact Nat.le_trans this (Nat.le_of_eq hl2.symm)

theorem deepcopy_sim {h h0 : Heap} {a : Addr} {c : CommandInvocationWithIOVars} (hu : Upd [] h0 h)
    (hc : commandAt h a = some c) :
    ∃ b h', deepcopy a h = (.ok b, h') ∧ New h0 h' b c ∧ Upd [] h h' ∧ ∃ mapA, Full b mapA (List.range h.length) c h' ∧
      h.length ≤ b ∧ h.length ≤ mapA := by
  obtain ⟨o, ho, e1, e2, e3, e4, e5, e6⟩ := commandAt_fields hc
  obtain ⟨h', e, hf, hu', -⟩ := construct_full (n := o.cmdName) (i := o.implicitInput) (u := o.implicitOutput) e4 e5 e6
  rw [e1, e2, e3] at hf
  refine ⟨_, h', by unfold deepcopy; rw [bind_ok (getInv_eq ho)]; exact e, hf.new (fun x hx => ?_) ?_ ?_, hu', _, hf, ?_, ?_⟩
  · simp; have := hu.1; omega
  · have := hu.1; omega
  · have := hu.1; omega
  · omega
  · omega

theorem Full.narrow {self mapA : Addr} {N : List Addr} {c : CommandInvocationWithIOVars} {h : Heap}
    (hf : Full self mapA N c h) : Full self mapA [] c h := by
  obtain ⟨⟨o, h1, h2, h3, h4, h5, h6, h7, -, -⟩, hm⟩ := hf
  exact ⟨⟨o, h1, h2, h3, h4, h5, h6, h7, by simp, by simp⟩, hm⟩

/-- The part of `getAggregator` after the checks, for a specification by a transformer. -/
def transformed (t : Transformer) (original inputsFrom : Addr) (outputTo : IOVar) (ids : List IOVar) : HM (Option Addr) := do
  let c ← deepcopy original
  let oo ← getInv original
  let fos ← applyTransformer t oo.flagOptionList
  let o ← getInv c
  put c (.inv { o with flagOptionList := fos })
  removeStreamingInputs c
  let o ← getInv c
  put c (.inv { o with operandList := inputsFrom })
  addFreshInputs o.accessMap ids
  let o ← getInv c
  replaceVar c o.implicitOutput outputTo
  let r ← deepcopy c
  pure (some r)

theorem transformed_sim {h : Heap} {a ins : Addr} {c : CommandInvocationWithIOVars} {vs : List IOVar} (t : Transformer)
    (u : IOVar) (hc : commandAt h a = some c) (hi : h[ins]? = some (.vars (vs.map VArg.var))) :
    Makes h (do
        let c1 ← ({ c with flagOptionList := t.apply c.flagOptionList } : CommandInvocationWithIOVars).removeStreamingInputs
        let m ← PashAnn.addFreshInputs c1.accessMap vs
        let c2 ← ({ c1 with operandList := vs.map VArg.var, accessMap := m } : CommandInvocationWithIOVars).replaceVar
          c1.implicitOutput u
        Except.ok (some c2))
      (transformed t a ins u vs h) := by
  unfold transformed
  obtain ⟨oo, hoo, -, -, -, hfo, -⟩ := commandAt_fields hc
  obtain ⟨b, h1, e1, -, hu1, mapA, hf1, hb, hmA⟩ := deepcopy_sim (Upd.refl [] h) hc
  rw [bind_ok e1, bind_ok (getInv_eq (hu1.get hoo (by simp)))]
  obtain ⟨fosA, h2, e2, hfos, hu2⟩ := applyTransformer_sim t oo.flagOptionList h1 _ (hu1.get hfo (by simp))
  rw [bind_ok e2]
  have hf2 := hf1.upd hu2
  have u2 := hu1.trans hu2
  obtain ⟨⟨o, k1, k2, k3, k4, k5, k6, k7, -, -⟩, km⟩ := hf2
  rw [bind_ok (getInv_eq k1), bind_ok (x := put _ _) rfl]
  have hbl : b < h2.length := lt_of_get k1
  -- after the new list of flags and options is stored
  have hf3 : Full b mapA [] { c with flagOptionList := t.apply c.flagOptionList }
      (h2.set b (.inv { o with flagOptionList := fosA })) := by
    have n1 : b ≠ fosA := by rintro rfl; rw [k1] at hfos; cases hfos
    have n2 : b ≠ o.operandList := by intro e; rw [← e, k1] at k7; cases k7
    have n3 : b ≠ mapA := by rintro rfl; rw [k1] at km; cases km
    exact ⟨⟨{ o with flagOptionList := fosA }, put_get _ hbl, k2, k3, k4, k5,
      by rw [List.getElem?_set_ne n1]; exact hfos, by rw [List.getElem?_set_ne n2]; exact k7, by simp, by simp⟩,
      by rw [List.getElem?_set_ne n3]; exact km⟩
  have u3 := u2.forget (put_only b (.inv { o with flagOptionList := fosA }) h2).upd (by simpa using hb)
  have hW : ∀ x ∈ [b, mapA], h.length ≤ x := by simp [hb, hmA]
  have hrm := method_sim (remove_sim b mapA AccessKind.isStreamInput) hf3 (by simp)
  unfold CommandInvocationWithIOVars.removeStreamingInputs removeStreamingInputs
  dsimp only at hrm ⊢
  cases hr : PashAnn.flatMapAnythingNonNames (PashAnn.removeFun AccessKind.isStreamInput) c.accessMap
      { c with flagOptionList := t.apply c.flagOptionList } with
  | error e =>
      rw [hr] at hrm
      obtain ⟨h4, c', e4, -, u4⟩ := hrm
      rw [bind_error e4]
      exact Makes.error (u3.forget u4 hW)
  | ok r =>
      rw [hr] at hrm
      obtain ⟨h4, e4, hf4, u4'⟩ := hrm
      have u4 := u3.forget u4' hW
      rw [bind_ok e4]
      simp only [pyBind_ok]
      obtain ⟨⟨p, k1, rfl, k3, k4, k5, k6, k7, -, -⟩, km⟩ := hf4
      rw [bind_ok (getInv_eq k1), bind_ok (x := put _ _) rfl]
      have hbl : b < h4.length := lt_of_get k1
      have n3 : b ≠ p.accessMap := by intro e; rw [← e, k1] at km; cases km
      have hi4 := u4.get hi (by simp)
      have n4 : b ≠ ins := by rintro rfl; rw [k1] at hi4; cases hi4
      have n5 : b ≠ p.flagOptionList := by intro e; rw [← e, k1] at k6; cases k6
      have n6 : p.accessMap ≠ ins := by intro e; rw [← e, km] at hi4; cases hi4
      have n7 : p.accessMap ≠ p.flagOptionList := by intro e; rw [← e, km] at k6; cases k6
      have km5 : (h4.set b (.inv { p with operandList := ins }))[p.accessMap]? = some (.map r.2) := by
        rw [List.getElem?_set_ne n3]; exact km
      have u5 := u4.forget (put_only b (.inv { p with operandList := ins }) h4).upd (by simpa using hb)
      have hadd := addFreshInputs_sim p.accessMap vs r.2 _ km5
      cases hr' : PashAnn.addFreshInputs r.2 vs with
      | error e =>
          rw [hr'] at hadd
          obtain ⟨h6, e6, o6⟩ := hadd
          rw [bind_error e6]
          exact Makes.error (u5.forget o6.upd (by simpa using hmA))
      | ok m =>
          rw [hr'] at hadd
          obtain ⟨h6, e6, km6, o6⟩ := hadd
          have u6 := u5.forget o6.upd (by simpa using hmA)
          rw [bind_ok e6]
          simp only [pyBind_ok]
          have hg : ∀ x, x ≠ p.accessMap → b ≠ x → h6[x]? = h4[x]? := fun x hx hx' => by
            rw [o6.2 x (by simpa using hx), List.getElem?_set_ne hx']
          have hb6 : h6[b]? = some (.inv { p with operandList := ins }) := by
            rw [o6.2 b (by simpa using n3), put_get _ hbl]
          have hf6 : Full b p.accessMap [] { r.1 with operandList := vs.map VArg.var, accessMap := m } h6 :=
            ⟨⟨{ p with operandList := ins }, hb6, rfl, k3, k4, k5, by rw [hg _ (Ne.symm n7) n5]; exact k6,
              by rw [hg _ (Ne.symm n6) n4]; exact hi4, by simp, by simp⟩, km6⟩
          rw [bind_ok (getInv_eq hb6)]
          have hrep := method_sim (replace_sim b p.accessMap p.implicitOutput u) hf6 (by simp)
          dsimp only at hrep ⊢
          have k5' : p.implicitOutput = r.1.implicitOutput := k5
          unfold CommandInvocationWithIOVars.replaceVar replaceVar
          dsimp only
          rw [k5'] at hrep ⊢
          cases hr'' : PashAnn.flatMapAnythingNonNames (PashAnn.replaceFun r.1.implicitOutput u) m
              { r.1 with operandList := vs.map VArg.var, accessMap := m } with
          | error e =>
              rw [hr''] at hrep
              obtain ⟨h7, c', e7, -, u7⟩ := hrep
              rw [bind_error e7]
              exact Makes.error (u6.forget u7 hW)
          | ok r'' =>
              rw [hr''] at hrep
              obtain ⟨h7, e7, hf7, u7⟩ := hrep
              rw [bind_ok e7]
              have u7' := u6.forget u7 hW
              obtain ⟨b', h8, e8, hn, hu8, -⟩ := deepcopy_sim u7' hf7.commandAt
              rw [bind_ok e8]
              exact ⟨u7'.trans hu8, b', rfl, hn⟩

theorem getAggregator_sim {h : Heap} {a ins : Addr} {c : CommandInvocationWithIOVars} {vs : List IOVar}
    (spec : AggregatorSpec) (u : IOVar) (hc : commandAt h a = some c) (hi : h[ins]? = some (.vars (vs.map VArg.var))) :
    Makes h ((spec.getAggregator c vs u).map fun r => r.map Aggregator.cmd) (getAggregator spec a ins u h) := by
  unfold getAggregator AggregatorSpec.getAggregator
  cases spec with
  | nonFunc kind impl =>
      cases impl with
      | false => exact Makes.same
      | true =>
          cases kind with
          | concatenate =>
              have h1 := makeCat_sim u hi
              rw [onlyVars_map] at h1
              obtain ⟨b, h1, e1, hn, hu⟩ := h1
              obtain ⟨b', h2, e2, hn', hu', -⟩ := deepcopy_sim hu hn.1
              simp only [Bool.not_true, Bool.false_eq_true, if_false]
              rw [bind_ok e1, bind_ok e2]
              exact ⟨hu.trans hu', b', rfl, hn'⟩
          | adjLinesMerge => exact Makes.error (Upd.refl _ _)
          | adjLinesSeq => exact Makes.error (Upd.refl _ _)
          | adjLinesFunc => exact Makes.same
          | custom2Ary => exact Makes.same
          | customNAry => exact Makes.same
  | funcTransformer kind t impl =>
      cases impl with
      | false => exact Makes.same
      | true =>
          simp only [Bool.not_true, Bool.false_eq_true, if_false]
          rw [bind_ok (getVars_eq hi), onlyVars_map, bind_ok (x := liftPy _) rfl]
          have hassert : ∀ (p : Py Unit), Makes h
              ((do
                p
                let c := { c with flagOptionList := t.apply c.flagOptionList }
                let c ← c.removeStreamingInputs
                let m ← PashAnn.addFreshInputs c.accessMap vs
                let c := { c with operandList := vs.map VArg.var, accessMap := m }
                let c ← c.replaceVar c.implicitOutput u
                Except.ok (some (⟨kind, c⟩ : Aggregator)) : Py (Option Aggregator)).map fun r => r.map Aggregator.cmd)
              ((do liftPy p; transformed t a ins u vs : HM (Option Addr)) h) := by
            intro p
            cases p with
            | error e => exact Makes.error (Upd.refl _ _)
            | ok _ =>
                rw [bind_ok (x := liftPy _) rfl, pyBind_ok]
                have := transformed_sim t u hc hi
                dsimp only at this ⊢
                cases hrem : ({ c with flagOptionList := t.apply c.flagOptionList } :
                    CommandInvocationWithIOVars).removeStreamingInputs with
                | error e =>
                    rw [hrem] at this
                    exact this
                | ok c1 =>
                    rw [hrem] at this
                    rw [pyBind_ok] at this ⊢
                    cases hadd : PashAnn.addFreshInputs c1.accessMap vs with
                    | error e => rw [hadd] at this; exact this
                    | ok m =>
                        rw [hadd] at this
                        rw [pyBind_ok] at this ⊢
                        cases hrep : ({ c1 with operandList := vs.map VArg.var, accessMap := m } :
                          CommandInvocationWithIOVars).replaceVar c1.implicitOutput u with
                        | error e => rw [hrep] at this; exact this
                        | ok c2 => rw [hrep] at this; exact this
          cases kind with
          | adjLinesFunc => exact hassert (pyAssert (decide (vs.length = 1)))
          | custom2Ary => exact hassert (pyAssert (decide (vs.length = 2)))
          | _ => exact hassert (.ok ())
  | funcString kind s impl =>
      cases impl with
      | false => exact Makes.same
      | true =>
          simp only [Bool.not_true, Bool.false_eq_true, if_false]
          cases hp : parse s with
          | error e => exact Makes.error (Upd.refl _ _)
          | ok agg =>
              rw [bind_ok (x := liftPy _) rfl, pyBind_ok]
              cases hof : onlyFlags agg.flagOptionList with
              | error e => exact Makes.error (Upd.refl _ _)
              | ok fos =>
                  rw [bind_ok (x := liftPy _) rfl, pyBind_ok, bind_ok (x := alloc _) rfl]
                  have hu1 := alloc_upd (.options fos) h
                  rw [bind_ok (getVars_eq (hu1.get hi (by simp))), onlyVars_map, bind_ok (x := liftPy _) rfl,
                    bind_ok (x := alloc _) rfl]
                  have hu2 := alloc_upd (.map (AccessMap.set (AccessMap.ofKeys vs .streamInput) u .streamOutput))
                    (h ++ [.options fos])
                  obtain ⟨h', e', hf', hu', hlen⟩ := construct_full (n := agg.cmdName) (i := none) (u := some u)
                    (hu2.get (alloc_new (.options fos) h) (by simp)) ((hu1.trans hu2).get hi (by simp)) (alloc_new _ _)
                  have hu := (hu1.trans hu2).trans hu'
                  have hn := hf'.new (h := h) (fun a ha => by simp; omega) (by simp; omega) (by simp; omega)
                  rw [bind_ok e']
                  cases kind with
                  | adjLinesFunc =>
                      dsimp only
                      cases pyAssert (decide (vs.length = 1)) with
                      | error e => exact Makes.error hu
                      | ok _ => exact Makes.error hu
                  | custom2Ary =>
                      dsimp only
                      cases pyAssert (decide (vs.length = 2)) with
                      | error e => exact Makes.error hu
                      | ok _ => exact ⟨hu, _, rfl, hn⟩
                  | _ => exact ⟨hu, _, rfl, hn⟩

end PashAnn.Heap
