import Verif.Props.Aggregators
import Verif.Props.VarLaws

/-! Properties C46 and C48, exactly: for which invocations removal of streams returns, and for which a transforming
aggregator exists. Specification vocabulary: `Spec/Vars.lean`. -/

namespace PashAnn
open Spec

theorem removeOperands_iff (a : AccessKind) (pred : AccessKind → Bool) (hp : ∀ b, pred b = decide (b = a))
    (l : List VArg) : ∀ (m : AccessMap), (∃ r, flatMapOperandList (removeFun pred) m l = .ok r) ↔
      (∀ v ∈ l.flatMap varOf, AccessMap.get? m v ≠ none) ∧
      ((l.flatMap varOf).filter (fun v => decide (AccessMap.get? m v = some a))).Nodup := by
  induction l with
  | nil => intro m; exact ⟨fun _ => ⟨by simp, by simp⟩, fun _ => ⟨_, rfl⟩⟩
  | cons x l ih =>
      intro m
      have skip : varOf x = [] → (flatMapOperandList (removeFun pred) m (x :: l) = (do
          let r' ← flatMapOperandList (removeFun pred) m l
          .ok (x :: r'.1, r'.2))) → ((∃ r, flatMapOperandList (removeFun pred) m (x :: l) = .ok r) ↔
          (∀ v ∈ (x :: l).flatMap varOf, AccessMap.get? m v ≠ none) ∧
          (((x :: l).flatMap varOf).filter (fun v => decide (AccessMap.get? m v = some a))).Nodup) := by
        intro hx hstep
        rw [hstep, List.flatMap_cons, hx, List.nil_append, ← ih m]
        constructor
        · rintro ⟨r, h⟩
          obtain ⟨r', hr, _⟩ := bind_ok h
          exact ⟨r', hr⟩
        · rintro ⟨r', hr⟩
          exact ⟨_, by rw [hr]; rfl⟩
      match x, skip with
      | .str s, skip => exact skip rfl rfl
      | .io s, skip => exact skip rfl rfl
      | .var v, _ =>
          rw [List.flatMap_cons, varOf_var]
          cases hg : AccessMap.get? m v with
          | none =>
              constructor
              · rintro ⟨r, h⟩
                simp [flatMapOperandList, removeFun, AccessMap.getItem, hg, bind, Except.bind] at h
              · rintro ⟨h, _⟩
                exact absurd hg (h v (by simp))
          | some b =>
              by_cases hb : b = a
              · subst hb
                have e : (∃ r, flatMapOperandList (removeFun pred) m (.var v :: l) = .ok r) ↔
                    ∃ r, flatMapOperandList (removeFun pred) (AccessMap.erase m v) l = .ok r := by
                  simp only [flatMapOperandList, removeFun, AccessMap.getItem, hg, hp, AccessMap.pop, decide_true,
                    if_true, bind, Except.bind]
                  constructor
                  · rintro ⟨r, h⟩
                    cases hr : flatMapOperandList (removeFun pred) (AccessMap.erase m v) l with
                    | error e => rw [hr] at h; cases h
                    | ok r' => exact ⟨r', rfl⟩
                  · rintro ⟨r, h⟩
                    rw [h]; exact ⟨_, rfl⟩
                rw [e, ih]
                simp only [List.singleton_append, List.filter_cons, hg, decide_true, if_true, List.nodup_cons,
                  List.mem_filter, and_true, List.mem_cons, forall_eq_or_imp]
                constructor
                · rintro ⟨h1, h2⟩
                  have hv : v ∉ l.flatMap varOf := fun hv => h1 v hv (by rw [get_erase, if_pos rfl])
                  have hne : ∀ w ∈ l.flatMap varOf, w ≠ v := fun w hw he => hv (he ▸ hw)
                  refine ⟨⟨by simp, fun w hw => ?_⟩, hv, ?_⟩
                  · have := h1 w hw
                    rwa [get_erase, if_neg (hne w hw)] at this
                  · rwa [List.filter_congr (q := fun w => decide (AccessMap.get? m w = some b)) (fun w hw => by
                      rw [get_erase, if_neg (hne w hw)])] at h2
                · rintro ⟨⟨_, h1⟩, hv, h2⟩
                  have hne : ∀ w ∈ l.flatMap varOf, w ≠ v := fun w hw he => hv (he ▸ hw)
                  refine ⟨fun w hw => ?_, ?_⟩
                  · rw [get_erase, if_neg (hne w hw)]; exact h1 w hw
                  · rwa [List.filter_congr (q := fun w => decide (AccessMap.get? m w = some b)) (fun w hw => by
                      rw [get_erase, if_neg (hne w hw)])]
              · have hne : ¬ (some b = some a) := fun he => hb (Option.some.inj he)
                have e : (∃ r, flatMapOperandList (removeFun pred) m (.var v :: l) = .ok r) ↔
                    ∃ r, flatMapOperandList (removeFun pred) m l = .ok r := by
                  simp only [flatMapOperandList, removeFun, AccessMap.getItem, hg, hp, hb, decide_false,
                    Bool.false_eq_true, if_false, bind, Except.bind]
                  constructor
                  · rintro ⟨r, h⟩
                    cases hr : flatMapOperandList (removeFun pred) m l with
                    | error e => rw [hr] at h; cases h
                    | ok r' => exact ⟨r', rfl⟩
                  · rintro ⟨r, h⟩
                    rw [h]; exact ⟨_, rfl⟩
                rw [e, ih]
                simp [hg, hne]

/-- Removal returns exactly when every occurrence is described, no option holds a stream of that kind, and none of
them occurs twice. -/
theorem remove_iff (a : AccessKind) (pred : AccessKind → Bool) (hp : ∀ b, pred b = decide (b = a))
    (c : CommandInvocationWithIOVars) :
    (∃ r, flatMapAnythingNonNames (removeFun pred) c.accessMap c = .ok r) ↔
      Described c ∧ (∀ v ∈ c.flagOptionList.flatMap optionVar, accessOf c v ≠ some a) ∧ (withAccess c a).Nodup := by
  have split : ∀ (hopt : ∀ v ∈ c.flagOptionList.flatMap optionVar, accessOf c v ≠ some a), withAccess c a =
      (c.operandList.flatMap varOf).filter (fun v => decide (AccessMap.get? c.accessMap v = some a)) ++
        (c.implicitInput.toList.filter (fun v => decide (AccessMap.get? c.accessMap v = some a)) ++
        c.implicitOutput.toList.filter (fun v => decide (AccessMap.get? c.accessMap v = some a))) := by
    intro hopt
    unfold withAccess occurrences
    rw [List.filter_append, List.filter_append, List.filter_append,
      show (c.flagOptionList.flatMap optionVar).filter (fun v => decide (accessOf c v = some a)) = [] from
        List.filter_eq_nil_iff.2 (fun v hv => by simpa using hopt v hv), List.nil_append, List.append_assoc]
    rfl
  have one : ∀ (o : Option IOVar) (p : IOVar → Bool), (o.toList.filter p).Nodup := by
    intro o p
    cases o with
    | none => simp
    | some v => simp only [Option.toList, List.filter_cons, List.filter_nil]; split <;> simp
  constructor
  · rintro ⟨r, h⟩
    obtain ⟨_, hd, hopt, _⟩ := remove_inv a pred hp c r h
    refine ⟨hd, hopt, ?_⟩
    obtain ⟨r1, h1, h⟩ := bind_ok h
    obtain ⟨r2, h2, h⟩ := bind_ok h
    obtain ⟨r3, h3, h⟩ := bind_ok h
    obtain ⟨r4, h4, h⟩ := bind_ok h
    obtain ⟨rfl, _⟩ := removeFlags_inv a _ pred hp _ _ h1
    obtain ⟨_, n2⟩ := (removeOperands_iff a pred hp _ _).1 ⟨_, h2⟩
    obtain ⟨_, _, g2⟩ := removeOperands_inv a pred hp _ _ _ h2
    obtain ⟨_, d3, g3⟩ := removeImplicit_inv a pred hp _ _ _ h3
    obtain ⟨_, d4, _⟩ := removeImplicit_inv a pred hp _ _ _ h4
    rw [split hopt]
    refine List.nodup_append.2 ⟨n2, List.nodup_append.2 ⟨one _ _, one _ _, ?_⟩, ?_⟩
    · intro v hv w hw hvw
      subst hvw
      simp only [List.mem_filter, decide_eq_true_eq] at hv hw
      have := d4 v hw.1
      have h2v := g2 v
      rw [g3] at this
      by_cases hx : v ∈ c.operandList.flatMap varOf
      · rw [if_pos ⟨hx, hv.2⟩] at h2v
        rw [h2v] at this; simp at this
      · rw [if_neg (fun h => hx h.1)] at h2v
        rw [if_pos ⟨hv.1, h2v.trans hv.2⟩] at this; exact this rfl
    · intro v hv w hw hvw
      subst hvw
      simp only [List.mem_filter, decide_eq_true_eq, List.mem_append] at hv hw
      have h2n : AccessMap.get? r2.2 v = none := by rw [g2, if_pos ⟨hv.1, hv.2⟩]
      rcases hw with hw | hw
      · exact d3 v hw.1 h2n
      · have := d4 v hw.1
        rw [g3, h2n] at this
        simp at this
  · rintro ⟨hd, hopt, hn⟩
    rw [split hopt] at hn
    obtain ⟨n1, n2, n3⟩ := List.nodup_append.1 hn
    obtain ⟨_, _, n4⟩ := List.nodup_append.1 n2
    have d1 := removeFlags_ok a c.accessMap pred hp c.flagOptionList (fun v hv =>
      ⟨hd v (by unfold occurrences; simp only [List.mem_append]; exact .inl (.inl (.inl hv))), hopt v hv⟩)
    obtain ⟨r2, h2⟩ := (removeOperands_iff a pred hp c.operandList c.accessMap).2 ⟨fun v hv =>
      hd v (by unfold occurrences; simp only [List.mem_append]; exact .inl (.inl (.inr hv))), n1⟩
    obtain ⟨_, _, g2⟩ := removeOperands_inv a pred hp _ _ _ h2
    have p2 : ∀ v, (v ∈ c.implicitInput.toList ∨ v ∈ c.implicitOutput.toList) →
        AccessMap.get? r2.2 v = accessOf c v := by
      intro v hv
      rw [g2, if_neg]; rfl
      rintro ⟨hx, ha⟩
      refine n3 v (List.mem_filter.2 ⟨hx, by simpa using ha⟩) v ?_ rfl
      rcases hv with hv | hv
      · exact List.mem_append.2 (.inl (List.mem_filter.2 ⟨hv, by simpa using ha⟩))
      · exact List.mem_append.2 (.inr (List.mem_filter.2 ⟨hv, by simpa using ha⟩))
    obtain ⟨m3, e3, g3⟩ := removeImplicit_ok a pred hp c.implicitInput r2.2 (fun v hv => by
      rw [p2 v (.inl hv)]
      exact hd v (by unfold occurrences; simp only [List.mem_append]; exact .inl (.inr hv)))
    have p3 : ∀ v ∈ c.implicitOutput.toList, AccessMap.get? m3 v = accessOf c v := by
      intro v hv
      rw [g3, if_neg, p2 v (.inr hv)]
      rintro ⟨hx, ha⟩
      rw [p2 v (.inr hv)] at ha
      have ha : AccessMap.get? c.accessMap v = some a := ha
      exact n4 v (List.mem_filter.2 ⟨hx, by simpa using ha⟩) v (List.mem_filter.2 ⟨hv, by simpa using ha⟩) rfl
    obtain ⟨m4, e4, _⟩ := removeImplicit_ok a pred hp c.implicitOutput m3 (fun v hv => by
      rw [p3 v hv]
      exact hd v (by unfold occurrences; simp only [List.mem_append]; exact .inr hv))
    cases hr : flatMapAnythingNonNames (removeFun pred) c.accessMap c with
    | ok r => exact ⟨r, rfl⟩
    | error e =>
        unfold flatMapAnythingNonNames at hr
        simp only [d1, bind, Except.bind, h2, e3, e4] at hr
        cases hr

theorem removeFlags_err (a : AccessKind) (m : AccessMap) (pred : AccessKind → Bool)
    (hp : ∀ b, pred b = decide (b = a)) (l : List FlagOptionWithIOVar) (e : PyErr)
    (h : flatMapFlagOptionList (removeFun pred) m l = .error e) : e = .keyError ∨
      ((∃ s, e = .valueError s) ∧ ∃ v ∈ l.flatMap optionVar, AccessMap.get? m v = some a) := by
  induction l with
  | nil => cases h
  | cons x l ih =>
      have skip : (flatMapFlagOptionList (removeFun pred) m (x :: l) = (do
          let r' ← flatMapFlagOptionList (removeFun pred) m l
          .ok (x :: r'.1, r'.2))) → e = .keyError ∨
      ((∃ s, e = .valueError s) ∧ ∃ v ∈ (x :: l).flatMap optionVar, AccessMap.get? m v = some a) := by
        intro hstep
        rw [hstep] at h
        cases hr : flatMapFlagOptionList (removeFun pred) m l with
        | ok r => rw [hr] at h; cases h
        | error e' =>
            rw [hr] at h; cases h
            rcases ih hr with h | ⟨h1, v, hv, h2⟩
            · exact .inl h
            · exact .inr ⟨h1, v, by rw [List.flatMap_cons]; exact List.mem_append.2 (.inr hv), h2⟩
      match x, skip, h with
      | .optionIO n (.var v), skip, h =>
          cases hg : AccessMap.get? m v with
          | none =>
              simp [flatMapFlagOptionList, removeFun, AccessMap.getItem, hg, bind, Except.bind] at h
              exact .inl h.symm
          | some b =>
              by_cases hb : b = a
              · subst hb
                simp [flatMapFlagOptionList, removeFun, AccessMap.getItem, hg, bind, Except.bind, hp,
                  AccessMap.pop] at h
                exact .inr ⟨⟨_, h.symm⟩, v, by simp [optionVar, varOf_var], hg⟩
              · apply skip
                simp [flatMapFlagOptionList, removeFun, AccessMap.getItem, hg, bind, Except.bind, hp, hb]
      | .flag n, skip, _ => exact skip rfl
      | .optionVar _ n y, skip, _ => exact skip rfl
      | .optionIO n (.str s), skip, _ => exact skip rfl
      | .optionIO n (.io s), skip, _ => exact skip rfl

theorem removeOperands_err (pred : AccessKind → Bool) (l : List VArg) : ∀ (m : AccessMap) (e : PyErr),
    flatMapOperandList (removeFun pred) m l = .error e → e = .keyError := by
  induction l with
  | nil => intro m e h; cases h
  | cons x l ih =>
      intro m e h
      have skip : (flatMapOperandList (removeFun pred) m (x :: l) = (do
          let r' ← flatMapOperandList (removeFun pred) m l
          .ok (x :: r'.1, r'.2))) → e = .keyError := by
        intro hstep
        rw [hstep] at h
        cases hr : flatMapOperandList (removeFun pred) m l with
        | ok r => rw [hr] at h; cases h
        | error e' => rw [hr] at h; cases h; exact ih _ _ hr
      match x, skip, h with
      | .str s, skip, _ => exact skip rfl
      | .io s, skip, _ => exact skip rfl
      | .var v, skip, h =>
          cases hg : AccessMap.get? m v with
          | none =>
              simp [flatMapOperandList, removeFun, AccessMap.getItem, hg, bind, Except.bind] at h
              exact h.symm
          | some b =>
              cases hb : pred b with
              | false =>
                  apply skip
                  simp [flatMapOperandList, removeFun, AccessMap.getItem, hg, bind, Except.bind, hb]
              | true =>
                  simp only [flatMapOperandList, removeFun, AccessMap.getItem, hg, hb, AccessMap.pop, if_true, bind,
                    Except.bind] at h
                  cases hr : flatMapOperandList (removeFun pred) (AccessMap.erase m v) l with
                  | ok r => rw [hr] at h; cases h
                  | error e' => rw [hr] at h; cases h; exact ih _ _ hr

theorem removeImplicit_err (pred : AccessKind → Bool) (o : Option IOVar) (m : AccessMap) (e : PyErr)
    (h : flatMapImplicit (removeFun pred) m o = .error e) : e = .keyError := by
  cases o with
  | none => cases h
  | some v =>
      cases hg : AccessMap.get? m v with
      | none =>
          simp [flatMapImplicit, removeFun, AccessMap.getItem, hg, bind, Except.bind] at h
          exact h.symm
      | some b =>
          cases hb : pred b <;>
            simp [flatMapImplicit, removeFun, AccessMap.getItem, hg, bind, Except.bind, hb, AccessMap.pop] at h

theorem remove_err (a : AccessKind) (pred : AccessKind → Bool) (hp : ∀ b, pred b = decide (b = a))
    (c : CommandInvocationWithIOVars) (e : PyErr)
    (h : flatMapAnythingNonNames (removeFun pred) c.accessMap c = .error e) : e = .keyError ∨
      ((∃ s, e = .valueError s) ∧ ∃ v ∈ c.flagOptionList.flatMap optionVar, accessOf c v = some a) := by
  unfold flatMapAnythingNonNames at h
  cases h1 : flatMapFlagOptionList (removeFun pred) c.accessMap c.flagOptionList with
  | error e' =>
      rw [h1] at h; cases h
      exact removeFlags_err a _ pred hp _ _ h1
  | ok r1 =>
      simp only [h1, bind, Except.bind] at h
      left
      cases h2 : flatMapOperandList (removeFun pred) r1.2 c.operandList with
      | error e' => rw [h2] at h; cases h; exact removeOperands_err _ _ _ _ h2
      | ok r2 =>
          simp only [h2] at h
          cases h3 : flatMapImplicit (removeFun pred) r2.2 c.implicitInput with
          | error e' => rw [h3] at h; cases h; exact removeImplicit_err _ _ _ _ h3
          | ok r3 =>
              simp only [h3] at h
              cases h4 : flatMapImplicit (removeFun pred) r3.2 c.implicitOutput with
              | error e' => rw [h4] at h; cases h; exact removeImplicit_err _ _ _ _ h4
              | ok r4 => rw [h4] at h; cases h

/-- C46, exactly. Removing the streaming inputs (or outputs) returns if and only if every variable read has an access
entry, no option holds a variable of that kind, and no variable of that kind occurs twice. Otherwise it raises a
`KeyError`, or a `ValueError` and then an option does hold one. What it returns: `C46_returns`. -/
theorem C46_outcome (c : CommandInvocationWithIOVars) :
    (((∃ c', c.removeStreamingInputs = .ok c') ↔ Described c ∧
        (∀ v ∈ c.flagOptionList.flatMap optionVar, accessOf c v ≠ some .streamInput) ∧
        (withAccess c .streamInput).Nodup) ∧
      ∀ e, c.removeStreamingInputs = .error e → e = .keyError ∨ ((∃ s, e = .valueError s) ∧
        ∃ v ∈ c.flagOptionList.flatMap optionVar, accessOf c v = some .streamInput)) ∧
    (((∃ c', c.removeStreamingOutputs = .ok c') ↔ Described c ∧
        (∀ v ∈ c.flagOptionList.flatMap optionVar, accessOf c v ≠ some .streamOutput) ∧
        (withAccess c .streamOutput).Nodup) ∧
      ∀ e, c.removeStreamingOutputs = .error e → e = .keyError ∨ ((∃ s, e = .valueError s) ∧
        ∃ v ∈ c.flagOptionList.flatMap optionVar, accessOf c v = some .streamOutput)) := by
  constructor
  · have hp : ∀ b, AccessKind.isStreamInput b = decide (b = .streamInput) := by intro b; cases b <;> rfl
    refine ⟨?_, fun e h => ?_⟩
    · rw [← remove_iff .streamInput _ hp c]
      constructor
      · rintro ⟨c', h⟩
        obtain ⟨r, hr, _⟩ := bind_ok h
        exact ⟨r, hr⟩
      · rintro ⟨r, hr⟩
        exact ⟨_, by unfold CommandInvocationWithIOVars.removeStreamingInputs; rw [hr]; rfl⟩
    · apply remove_err .streamInput _ hp
      unfold CommandInvocationWithIOVars.removeStreamingInputs at h
      cases hr : flatMapAnythingNonNames (removeFun AccessKind.isStreamInput) c.accessMap c with
      | ok r => rw [hr] at h; cases h
      | error e' => rw [hr] at h; cases h; rfl
  · have hp : ∀ b, AccessKind.isStreamOutput b = decide (b = .streamOutput) := by intro b; cases b <;> rfl
    refine ⟨?_, fun e h => ?_⟩
    · rw [← remove_iff .streamOutput _ hp c]
      constructor
      · rintro ⟨c', h⟩
        obtain ⟨r, hr, _⟩ := bind_ok h
        exact ⟨r, hr⟩
      · rintro ⟨r, hr⟩
        exact ⟨_, by unfold CommandInvocationWithIOVars.removeStreamingOutputs; rw [hr]; rfl⟩
    · apply remove_err .streamOutput _ hp
      unfold CommandInvocationWithIOVars.removeStreamingOutputs at h
      cases hr : flatMapAnythingNonNames (removeFun AccessKind.isStreamOutput) c.accessMap c with
      | ok r => rw [hr] at h; cases h
      | error e' => rw [hr] at h; cases h; rfl

-- A variable of another kind may occur twice; a streaming input may not; nor may an option hold one.
example : (∃ c', (⟨"cmd", [.optionIO "-p" (.var 2)], [.var 2, .var 1], none, none,
      [(1, .streamInput), (2, .configInput)]⟩ : CommandInvocationWithIOVars).removeStreamingInputs = .ok c') ∧
    (⟨"cat", [], [.var 1, .var 1], none, none, [(1, .streamInput)]⟩ :
      CommandInvocationWithIOVars).removeStreamingInputs = .error .keyError ∧
    (⟨"cmd", [.optionIO "-p" (.var 1)], [], none, none, [(1, .streamInput)]⟩ :
      CommandInvocationWithIOVars).removeStreamingInputs = .error (.valueError "not enough values to unpack") := by
  refine ⟨(C46_outcome _).1.1.2 ⟨?_, by decide +kernel, by decide +kernel⟩, by decide +kernel, by decide +kernel⟩
  unfold Described; decide +kernel

theorem addFreshInputs_all (vs : List IOVar) : ∀ (m : AccessMap), vs.Nodup → (∀ v ∈ vs, AccessMap.get? m v = none) →
    ∃ m', addFreshInputs m vs = .ok m' ∧
      ∀ v, AccessMap.get? m' v = if v ∈ vs then some .streamInput else AccessMap.get? m v := by
  induction vs with
  | nil => intro m _ _; exact ⟨m, rfl, fun v => by simp⟩
  | cons x vs ih =>
      intro m hn h
      obtain ⟨hx, hn⟩ := List.nodup_cons.1 hn
      obtain ⟨m', h1, h2⟩ := ih (AccessMap.set m x .streamInput) hn (fun v hv => by
        have hne : v ≠ x := by rintro rfl; exact hx hv
        rw [get_set, if_neg hne]
        exact h v (List.mem_cons_of_mem _ hv))
      refine ⟨m', ?_, fun v => ?_⟩
      · have := h x (by simp)
        simp only [addFreshInputs, this, pyAssert, Option.isNone_none, if_true, bind, Except.bind, h1]
      · rw [h2, get_set]
        by_cases hv : v = x
        · subst hv; simp
        · simp [hv]

/-- C48, exactly. An aggregator made by a transformer exists if and only if: the number of inputs is right; every
variable the transformed command reads has an access entry; no option of it holds a streaming input and no streaming
input occurs twice in it; the given inputs are pairwise distinct and each is unused or one of the removed streaming
inputs; and an implicit output that stays is the new output itself or occurs nowhere else. -/
theorem C48_exact (kind : AggregatorKind) (t : Transformer) (c c1 : CommandInvocationWithIOVars) (ins : List IOVar)
    (out : IOVar) (hc1 : c1 = { c with flagOptionList := t.apply c.flagOptionList }) :
    (∃ agg, (AggregatorSpec.funcTransformer kind t true).getAggregator c ins out = .ok (some agg)) ↔
      (kind = .adjLinesFunc → ins.length = 1) ∧ (kind = .custom2Ary → ins.length = 2) ∧
      Described c1 ∧ (∀ v ∈ c1.flagOptionList.flatMap optionVar, accessOf c1 v ≠ some .streamInput) ∧
      (withAccess c1 .streamInput).Nodup ∧
      ins.Nodup ∧ (∀ v ∈ ins, accessOf c1 v = none ∨ v ∈ withAccess c1 .streamInput) ∧
      (∀ o, c1.implicitOutput = some o → accessOf c1 o ≠ some .streamInput → o = out ∨
        (o ∉ c1.flagOptionList.flatMap optionVar ∧ c1.implicitInput ≠ some o)) := by
  -- the checks on the number of inputs
  have hnum : (∃ agg, (AggregatorSpec.funcTransformer kind t true).getAggregator c ins out = .ok (some agg)) ↔
      (kind = .adjLinesFunc → ins.length = 1) ∧ (kind = .custom2Ary → ins.length = 2) ∧
      ∃ c2 m c4, c1.removeStreamingInputs = .ok c2 ∧ addFreshInputs c2.accessMap ins = .ok m ∧
        CommandInvocationWithIOVars.replaceVar { c2 with operandList := ins.map VArg.var, accessMap := m }
          c2.implicitOutput out = .ok c4 := by
    subst hc1
    constructor
    · rintro ⟨agg, h⟩
      have hr : ∃ c2 m c4, CommandInvocationWithIOVars.removeStreamingInputs
            { c with flagOptionList := t.apply c.flagOptionList } = .ok c2 ∧
          addFreshInputs c2.accessMap ins = .ok m ∧
          CommandInvocationWithIOVars.replaceVar { c2 with operandList := ins.map VArg.var, accessMap := m }
            c2.implicitOutput out = .ok c4 := by
        cases kind <;>
        · simp only [AggregatorSpec.getAggregator, Bool.not_true, Bool.false_eq_true, if_false] at h
          obtain ⟨_, _, h⟩ := bind_ok h
          obtain ⟨c2, h2, h⟩ := bind_ok h
          obtain ⟨m, hm, h⟩ := bind_ok h
          obtain ⟨c4, h4, h⟩ := bind_ok h
          exact ⟨c2, m, c4, h2, hm, h4⟩
      refine ⟨?_, ?_, hr⟩
      · rintro rfl
        simp only [AggregatorSpec.getAggregator, Bool.not_true, Bool.false_eq_true, if_false] at h
        obtain ⟨_, h1, _⟩ := bind_ok h
        simpa using pyAssert_ok h1
      · rintro rfl
        simp only [AggregatorSpec.getAggregator, Bool.not_true, Bool.false_eq_true, if_false] at h
        obtain ⟨_, h1, _⟩ := bind_ok h
        simpa using pyAssert_ok h1
    · rintro ⟨k1, k2, c2, m, c4, h2, hm, h4⟩
      refine ⟨⟨kind, c4⟩, ?_⟩
      cases kind <;>
        simp [AggregatorSpec.getAggregator, pyAssert, k1, k2, bind, Except.bind, h2, hm, h4]
  rw [hnum]
  clear hnum hc1
  refine and_congr Iff.rfl (and_congr Iff.rfl ?_)
  -- what the command is once the new inputs are in
  have after : ∀ c2 m, c1.removeStreamingInputs = .ok c2 → addFreshInputs c2.accessMap ins = .ok m →
      ((∃ c4, CommandInvocationWithIOVars.replaceVar { c2 with operandList := ins.map VArg.var, accessMap := m }
          c2.implicitOutput out = .ok c4) ↔
        (∀ o, c1.implicitOutput = some o → accessOf c1 o ≠ some .streamInput → o = out ∨
          (o ∉ c1.flagOptionList.flatMap optionVar ∧ c1.implicitInput ≠ some o))) := by
    intro c2 m h2 hm
    obtain ⟨hn, hf⟩ := addFreshInputs_inv ins _ m hm
    obtain ⟨m', hm', hg⟩ := addFreshInputs_all ins c2.accessMap hn hf
    rw [hm] at hm'; cases hm'
    obtain ⟨k, _, ka⟩ := C46_returns c1 c2 .streamInput (.inl ⟨rfl, h2⟩)
    obtain ⟨hd, hopt, _⟩ := (C46_outcome c1).1.1.1 ⟨c2, h2⟩
    have kf : c2.flagOptionList = c1.flagOptionList := congrArg (·.flagOptionList) k
    have ki : c2.implicitInput = c1.implicitInput.filter (fun v => accessOf c1 v ≠ some .streamInput) :=
      congrArg (·.implicitInput) k
    have ko : c2.implicitOutput = c1.implicitOutput.filter (fun v => accessOf c1 v ≠ some .streamInput) :=
      congrArg (·.implicitOutput) k
    cases hc2o : c2.implicitOutput with
    | none =>
        constructor
        · intro _ o ho hne
          rw [hc2o, ho] at ko
          simp [Option.filter, hne] at ko
        · intro _
          exact ⟨_, C45_no_op _ none out (fun x hx => by cases hx)⟩
    | some o =>
        rw [hc2o] at ko
        obtain ⟨ho1, hone⟩ := Option.filter_eq_some_iff.1 ko.symm
        have hone : accessOf c1 o ≠ some .streamInput := by simpa using hone
        have hdo : accessOf c1 o ≠ none := hd o (by
          unfold occurrences; simp only [List.mem_append]; exact .inr (by simp [ho1]))
        have hw : o ∉ withAccess c1 .streamInput := fun h => hone (withAccess_mem.1 h).2
        have h2o : accessOf c2 o = accessOf c1 o := by rw [ka, if_neg hw]
        have hins : o ∉ ins := fun h => hdo (by rw [← h2o]; exact hf o h)
        rw [(C45_outcome _ o out).1]
        have hocc : occurrences { c2 with operandList := ins.map VArg.var, accessMap := m } =
            c1.flagOptionList.flatMap optionVar ++ ins ++ c2.implicitInput.toList ++ [o] := by
          unfold occurrences
          simp only [kf, occ_operands, hc2o, Option.toList]
        have hacc : accessOf { c2 with operandList := ins.map VArg.var, accessMap := m } o ≠ none := by
          show AccessMap.get? m o ≠ none
          rw [hg, if_neg hins]
          show accessOf c2 o ≠ none
          rw [h2o]; exact hdo
        have hcount : (occurrences { c2 with operandList := ins.map VArg.var, accessMap := m }).count o = 1 ↔
            (o ∉ c1.flagOptionList.flatMap optionVar ∧ c1.implicitInput ≠ some o) := by
          rw [hocc]
          simp only [List.count_append, List.count_eq_zero_of_not_mem hins, List.count_singleton_self]
          have hi : c2.implicitInput.toList.count o = 0 ↔ c1.implicitInput ≠ some o := by
            rw [List.count_eq_zero, ki]
            simp only [Option.mem_toList, Option.filter_eq_some_iff]
            constructor
            · intro h he; exact h ⟨he, by simpa using hone⟩
            · intro h he; exact h he.1
          constructor
          · intro h
            exact ⟨List.count_eq_zero.1 (by omega), hi.1 (by omega)⟩
          · rintro ⟨h1, h2⟩
            rw [List.count_eq_zero.2 h1, hi.2 h2]
        simp only [hc2o] at hocc hacc hcount
        rw [hcount]
        constructor
        · rintro (h | ⟨_, h⟩)
          · exact absurd (by rw [hocc]; simp) h
          · intro o' ho' _
            rw [ho1] at ho'; cases ho'
            exact h
        · intro h
          exact .inr ⟨hacc, h o ho1 hone⟩
  constructor
  · rintro ⟨c2, m, c4, h2, hm, h4⟩
    obtain ⟨hd, hopt, hn⟩ := (C46_outcome c1).1.1.1 ⟨c2, h2⟩
    obtain ⟨hin, hf⟩ := addFreshInputs_inv ins _ m hm
    obtain ⟨_, _, ka⟩ := C46_returns c1 c2 .streamInput (.inl ⟨rfl, h2⟩)
    refine ⟨hd, hopt, hn, hin, fun v hv => ?_, (after c2 m h2 hm).1 ⟨c4, h4⟩⟩
    have h3 : accessOf c2 v = none := hf v hv
    rw [ka v] at h3
    by_cases hw : v ∈ withAccess c1 .streamInput
    · exact .inr hw
    · rw [if_neg hw] at h3
      exact .inl h3
  · rintro ⟨hd, hopt, hn, hin, hf, ho⟩
    obtain ⟨c2, h2⟩ := (C46_outcome c1).1.1.2 ⟨hd, hopt, hn⟩
    obtain ⟨_, _, ka⟩ := C46_returns c1 c2 .streamInput (.inl ⟨rfl, h2⟩)
    obtain ⟨m, hm, _⟩ := addFreshInputs_all ins c2.accessMap hin (fun v hv => by
      show accessOf c2 v = none
      rw [ka v]
      rcases hf v hv with h | h
      · split <;> first | rfl | exact h
      · rw [if_pos h])
    obtain ⟨c4, h4⟩ := (after c2 m h2 hm).2 ho
    exact ⟨c2, m, c4, h2, hm, h4⟩

/-- C48. What the aggregator is, whenever there is one, for every kind, command and variables: the transformed command
over the given inputs, in order; an implicit input stays only if it is no streaming input; an implicit output that is
no streaming input becomes the given output and hands its access on to it. All other access entries are those of the
original, except that the given inputs are streaming inputs and the removed streaming inputs are gone. -/
theorem C48_made (kind : AggregatorKind) (t : Transformer) (c : CommandInvocationWithIOVars) (ins : List IOVar)
    (out : IOVar) (agg : Aggregator)
    (h : (AggregatorSpec.funcTransformer kind t true).getAggregator c ins out = .ok (some agg)) :
    agg.kind = kind ∧ agg.cmd.cmdName = c.cmdName ∧ agg.cmd.flagOptionList = t.apply c.flagOptionList ∧
    agg.cmd.operandList = ins.map VArg.var ∧
    agg.cmd.implicitInput = c.implicitInput.filter (fun v => accessOf c v ≠ some .streamInput) ∧
    agg.cmd.implicitOutput =
      (c.implicitOutput.filter (fun v => accessOf c v ≠ some .streamInput)).map (fun _ => out) ∧
    ∀ v, accessOf agg.cmd v =
      match c.implicitOutput.filter (fun v => accessOf c v ≠ some .streamInput) with
      | none => if v ∈ ins then some .streamInput
          else if v ∈ withAccess { c with flagOptionList := t.apply c.flagOptionList } .streamInput then none
          else accessOf c v
      | some o => if v = out then accessOf c o else if v = o then none else if v ∈ ins then some .streamInput
          else if v ∈ withAccess { c with flagOptionList := t.apply c.flagOptionList } .streamInput then none
          else accessOf c v := by
  have hex := (C48_exact kind t c _ ins out rfl).1 ⟨agg, h⟩
  generalize hc1 : ({ c with flagOptionList := t.apply c.flagOptionList } : CommandInvocationWithIOVars) = c1 at hex ⊢
  have hr : ∃ c2 m c4, c1.removeStreamingInputs = .ok c2 ∧ addFreshInputs c2.accessMap ins = .ok m ∧
      CommandInvocationWithIOVars.replaceVar { c2 with operandList := ins.map VArg.var, accessMap := m }
        c2.implicitOutput out = .ok c4 ∧ agg = ⟨kind, c4⟩ := by
    subst hc1
    cases kind <;>
    · simp only [AggregatorSpec.getAggregator, Bool.not_true, Bool.false_eq_true, if_false] at h
      obtain ⟨_, _, h⟩ := bind_ok h
      obtain ⟨c2, h2, h⟩ := bind_ok h
      obtain ⟨m, hm, h⟩ := bind_ok h
      obtain ⟨c4, h4, h⟩ := bind_ok h
      cases h
      exact ⟨c2, m, c4, h2, hm, h4, rfl⟩
  obtain ⟨c2, m, c4, h2, hm, h4, rfl⟩ := hr
  obtain ⟨_, _, hd, _, _, _, _, hout⟩ := hex
  have e1 : c1.cmdName = c.cmdName := by rw [← hc1]
  have e2 : c1.flagOptionList = t.apply c.flagOptionList := by rw [← hc1]
  have e3 : c1.implicitInput = c.implicitInput := by rw [← hc1]
  have e4 : c1.implicitOutput = c.implicitOutput := by rw [← hc1]
  have e5 : ∀ v, accessOf c1 v = accessOf c v := by intro v; rw [← hc1]; rfl
  obtain ⟨hn, hf⟩ := addFreshInputs_inv ins _ m hm
  obtain ⟨m', hm', hg⟩ := addFreshInputs_all ins c2.accessMap hn hf
  rw [hm] at hm'; cases hm'
  obtain ⟨k, _, ka⟩ := C46_returns c1 c2 .streamInput (.inl ⟨rfl, h2⟩)
  have kn : c2.cmdName = c.cmdName := by rw [← e1]; exact congrArg (·.cmdName) k
  have kf : c2.flagOptionList = t.apply c.flagOptionList := by rw [← e2]; exact congrArg (·.flagOptionList) k
  have ki : c2.implicitInput = c.implicitInput.filter (fun v => accessOf c v ≠ some .streamInput) := by
    rw [← e3]
    simp only [← e5]
    exact congrArg (·.implicitInput) k
  have ko : c2.implicitOutput = c.implicitOutput.filter (fun v => accessOf c v ≠ some .streamInput) := by
    rw [← e4]
    simp only [← e5]
    exact congrArg (·.implicitOutput) k
  have hma : ∀ v, AccessMap.get? m v = if v ∈ ins then some .streamInput
      else if v ∈ withAccess c1 .streamInput then none else accessOf c v := by
    intro v
    rw [hg, show AccessMap.get? c2.accessMap v = accessOf c2 v from rfl, ka, e5]
  rw [← ko, ← ki]
  cases hc2o : c2.implicitOutput with
  | none =>
      simp only [hc2o] at h4
      rw [C45_no_op _ none out (fun x hx => by cases hx)] at h4
      cases h4
      exact ⟨rfl, kn, kf, rfl, rfl, rfl, hma⟩
  | some o =>
      simp only [hc2o] at h4
      rw [hc2o] at ko
      obtain ⟨ho1, hone⟩ := Option.filter_eq_some_iff.1 ko.symm
      have hone : accessOf c1 o ≠ some .streamInput := by rw [e5]; simpa using hone
      have hdo : accessOf c1 o ≠ none := hd o (by
        unfold occurrences; simp only [List.mem_append]; exact .inr (by simp [e4, ho1]))
      have hw : o ∉ withAccess c1 .streamInput := fun h => hone (withAccess_mem.1 h).2
      have h2o : accessOf c2 o = accessOf c1 o := by rw [ka, if_neg hw]
      have hins : o ∉ ins := fun h => hdo (by rw [← h2o]; exact hf o h)
      have hocc : o ∈ occurrences { c2 with operandList := ins.map VArg.var, implicitOutput := some o, accessMap := m } := by
        unfold occurrences; simp
      obtain ⟨r1, _, r2⟩ := C45_returns_partial _ c4 o out h4
      obtain ⟨a, ha, r2⟩ := r2 hocc
      have ha' : accessOf c o = some a := by
        have : AccessMap.get? m o = some a := ha
        rwa [hma, if_neg hins, if_neg hw] at this
      -- the renaming leaves options, operands and the implicit input as they were
      have hout := hout o (by rw [e4]; exact ho1) hone
      have hsame : ∀ x, x ∈ c2.flagOptionList.flatMap optionVar ++ ins ++ c2.implicitInput.toList →
          (if x = o then out else x) = x := by
        intro x hx
        by_cases hxo : x = o
        · subst hxo
          rcases hout with h | ⟨h3, h4⟩
          · simp [h]
          · exfalso
            simp only [List.mem_append] at hx
            rcases hx with (hx | hx) | hx
            · exact h3 (by rw [e2, ← kf]; exact hx)
            · exact hins hx
            · rw [ki] at hx
              have := (Option.filter_eq_some_iff.1 (Option.mem_toList.1 hx)).1
              exact h4 (by rw [e3]; exact this)
        · simp [hxo]
      have q1 : c4.cmdName = c2.cmdName := congrArg (·.cmdName) r1
      have q2 := congrArg (·.flagOptionList) r1
      have q3 := congrArg (·.operandList) r1
      have q4 := congrArg (·.implicitInput) r1
      have q5 := congrArg (·.implicitOutput) r1
      simp only [rename] at q2 q3 q4 q5
      refine ⟨rfl, q1.trans kn, ?_, ?_, ?_, ?_, ?_⟩
      · show c4.flagOptionList = _
        rw [q2, ← kf]
        conv => rhs; rw [← List.map_id c2.flagOptionList]
        apply List.map_congr_left
        intro x hx
        have hv : ∀ w ∈ optionVar x, (if w = o then out else w) = w := fun w hw => hsame w (by
          simp only [List.mem_append, List.mem_flatMap]; exact .inl (.inl ⟨x, hx, hw⟩))
        match x, hv with
        | .optionIO n (.var w), hv =>
            have := hv w (by simp [optionVar, varOf_var])
            simp [renameOption, renameArg, this]
        | .optionIO n (.str _), _ => rfl
        | .optionIO n (.io _), _ => rfl
        | .flag _, _ => rfl
        | .optionVar _ _ _, _ => rfl
      · show c4.operandList = _
        rw [q3, List.map_map]
        apply List.map_congr_left
        intro x hx
        have := hsame x (by simp only [List.mem_append]; exact .inl (.inr hx))
        simp [renameArg, this]
      · show c4.implicitInput = _
        rw [q4]
        cases hi : c2.implicitInput with
        | none => rfl
        | some x =>
            have := hsame x (by simp [hi])
            simp [this]
      · show c4.implicitOutput = _
        rw [q5]; simp
      · intro v
        show accessOf c4 v = _
        rw [r2, ← ha']
        show (if v = out then _ else if v = o then none else AccessMap.get? m v) = _
        rw [hma]

example : (AggregatorSpec.funcTransformer .customNAry .seq true).getAggregator
    ⟨"cmd", [.flag "-a"], [.var 1, .str "x"], some 3, some 2,
      [(1, .streamInput), (2, .streamOutput), (3, .otherInput)]⟩ [4, 5, 6] 7 =
    .ok (some ⟨.customNAry, ⟨"cmd", [.flag "-a"], [.var 4, .var 5, .var 6], some 3, some 7,
      [(3, .otherInput), (4, .streamInput), (5, .streamInput), (6, .streamInput), (7, .streamOutput)]⟩⟩) := by
  decide +kernel

-- The removed streaming input 1 may itself be given as an input of the aggregator.
example : ∃ agg, (AggregatorSpec.makeCustom2AryFromTransformers (some .seq) true).getAggregator
    ⟨"cmd", [], [.var 1], none, some 2, [(1, .streamInput), (2, .streamOutput)]⟩ [1, 6] 2 = .ok (some agg) := by
  refine (C48_exact .custom2Ary .seq _ _ [1, 6] 2 rfl).2
    ⟨by decide, by decide, ?_, by decide +kernel, by decide +kernel, by decide, by decide +kernel, ?_⟩
  · unfold Described; decide +kernel
  · intro o ho _
    cases ho
    exact .inl rfl

end PashAnn
