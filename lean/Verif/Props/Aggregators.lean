import Verif.Props.Vars

/-! Properties C47 to C49: the commands that aggregators and mappers with auxiliary pipes become.
Specification vocabulary: `Spec/Vars.lean`. -/

namespace PashAnn
open Spec

/-- Assigning one kind to all of a list of variables. -/
theorem accessOf_ofKeys (n : String) (f : List FlagOptionWithIOVar) (o : List VArg) (i u : Option IOVar)
    (ks : List IOVar) (a : AccessKind) (out : IOVar) (b : AccessKind) (v : IOVar) :
    accessOf ⟨n, f, o, i, u, AccessMap.set (AccessMap.ofKeys ks a) out b⟩ v =
      if v = out then some b else if v ∈ ks then some a else none := by
  show AccessMap.get? (AccessMap.set (AccessMap.ofKeys ks a) out b) v = _
  rw [get_set, get_ofKeys]

theorem occ_operands (vs : List IOVar) : (vs.map VArg.var).flatMap varOf = vs := by
  induction vs with
  | nil => rfl
  | cons v vs ih => rw [List.map_cons, List.flatMap_cons, ih, varOf_var]; rfl

/-- C47. The concatenation aggregator is `cat` of the inputs in order into the output, and its access map has
exactly these. It does not depend on the original command. -/
theorem C47_concatenate (p : Parallelizer) (hp : p.coreAggregatorSpec = AggregatorSpec.makeConcatenate)
    (c : CommandInvocationWithIOVars) (ins : List IOVar) (out : IOVar) :
    ∃ agg, p.getActualAggregator c ins out = .ok (some agg) ∧ agg.isConcatenate = true ∧
      agg.cmd.cmdName = "cat" ∧ agg.cmd.flagOptionList = [] ∧ agg.cmd.operandList = ins.map VArg.var ∧
      agg.cmd.implicitInput = none ∧ agg.cmd.implicitOutput = some out ∧
      (∀ v, accessOf agg.cmd v = if v = out then some .streamOutput else if v ∈ ins then some .streamInput else none) ∧
      Consistent agg.cmd := by
  have hacc : ∀ v, accessOf (CommandInvocationWithIOVars.makeCat ins out) v =
      if v = out then some .streamOutput else if v ∈ ins then some .streamInput else none := fun v =>
    accessOf_ofKeys _ _ _ _ _ ins .streamInput out .streamOutput v
  refine ⟨⟨.concatenate, CommandInvocationWithIOVars.makeCat ins out⟩, ?_, rfl, rfl, rfl, rfl, rfl, rfl, hacc, ?_⟩
  · unfold Parallelizer.getActualAggregator; rw [hp]; rfl
  · intro v
    have ho : occurrences (CommandInvocationWithIOVars.makeCat ins out) = ins ++ [out] := by
      unfold occurrences CommandInvocationWithIOVars.makeCat
      simp only [occ_operands]; simp
    have hh : hiddenVars (CommandInvocationWithIOVars.makeCat ins out) = [] := rfl
    rw [hacc, ho, hh]
    by_cases h1 : v = out
    · simp [h1]
    · by_cases h2 : v ∈ ins
      · simp [h1, h2]
      · simp [h1, h2]

/-- C47, reading back: the inputs in order and the output, for an output that is not one of the inputs. -/
theorem C47_read_back (ins : List IOVar) (out : IOVar) (h : out ∉ ins) (c : CommandInvocationWithIOVars) (agg : Aggregator)
    (ha : AggregatorSpec.makeConcatenate.getAggregator c ins out = .ok (some agg)) :
    agg.cmd.generateInputs = .ok (ins, agg.cmd) ∧ agg.cmd.generateOutputs = .ok ([out], agg.cmd) ∧
      agg.cmd.hasOtherOutputs = .ok (false, agg.cmd) := by
  cases ha
  have hacc : ∀ v, accessOf (CommandInvocationWithIOVars.makeCat ins out) v =
      if v = out then some .streamOutput else if v ∈ ins then some .streamInput else none := fun v =>
    accessOf_ofKeys _ _ _ _ _ ins .streamInput out .streamOutput v
  have ho : occurrences (CommandInvocationWithIOVars.makeCat ins out) = ins ++ [out] := by
    unfold occurrences CommandInvocationWithIOVars.makeCat
    simp only [occ_operands]; simp
  have hd : Described (CommandInvocationWithIOVars.makeCat ins out) := by
    intro v hv
    rw [ho] at hv
    rw [hacc]
    rcases List.mem_append.1 hv with hv | hv
    · by_cases h1 : v = out <;> simp [h1, hv]
    · simp [List.mem_singleton.1 hv]
  have hne : ∀ v ∈ ins, v ≠ out := fun v hv he => h (he ▸ hv)
  obtain ⟨h1, ⟨outs, h2, rfl⟩, b, h3, h4⟩ := C44_reading _ hd
  refine ⟨?_, ?_, ?_⟩
  · rw [h1]
    have : withAccess (CommandInvocationWithIOVars.makeCat ins out) .streamInput = ins := by
      unfold withAccess
      rw [ho, List.filter_append]
      have e1 : ins.filter (fun v => accessOf (CommandInvocationWithIOVars.makeCat ins out) v = some .streamInput) =
          ins := List.filter_eq_self.2 (fun v hv => by simp [hacc, hne v hv, hv])
      rw [e1]
      simp [List.filter, hacc]
    rw [this]
  · rw [h2]
    have : (occurrences (CommandInvocationWithIOVars.makeCat ins out)).filter (fun v =>
        accessOf (CommandInvocationWithIOVars.makeCat ins out) v = some .streamOutput ∨
        accessOf (CommandInvocationWithIOVars.makeCat ins out) v = some .otherOutput) = [out] := by
      rw [ho, List.filter_append]
      have e1 : ins.filter (fun v => accessOf (CommandInvocationWithIOVars.makeCat ins out) v = some .streamOutput ∨
          accessOf (CommandInvocationWithIOVars.makeCat ins out) v = some .otherOutput) = [] :=
        List.filter_eq_nil_iff.2 (fun v hv => by simp [hacc, hne v hv, hv])
      rw [e1]
      simp [List.filter, hacc]
    rw [this]
  · rw [h3]
    have : b = false := by
      cases b with
      | false => rfl
      | true =>
          obtain ⟨v, _, hv⟩ := h4.1 rfl
          rw [hacc] at hv
          by_cases h1 : v = out
          · simp [h1] at hv
          · by_cases h2 : v ∈ ins <;> simp [h1, h2] at hv
    rw [this]

example : AggregatorSpec.makeConcatenate.getAggregator sample [4, 5, 6] 9 =
    .ok (some ⟨.concatenate, ⟨"cat", [], [.var 4, .var 5, .var 6], none, some 9,
      [(4, .streamInput), (5, .streamInput), (6, .streamInput), (9, .streamOutput)]⟩⟩) := by decide +kernel

/-- C48. Any other number of inputs is rejected, whatever the original. -/
theorem C48_two_inputs (t : Transformer) (c : CommandInvocationWithIOVars) (ins : List IOVar) (out : IOVar)
    (h : ins.length ≠ 2) :
    (AggregatorSpec.makeCustom2AryFromTransformers (some t) true).getAggregator c ins out = .error .assertionError ∧
    ∀ s inv, parse s = .ok inv → (∀ x ∈ inv.flagOptionList, ∃ n, x = .flag n) →
      (AggregatorSpec.makeCustom2AryFromString s true).getAggregator c ins out = .error .assertionError := by
  constructor
  · simp [AggregatorSpec.makeCustom2AryFromTransformers, transformerSameAsSeqIfNone, AggregatorSpec.getAggregator,
      pyAssert, h, bind, Except.bind]
  · intro s inv hp hf
    have : ∃ fos, onlyFlags inv.flagOptionList = .ok fos := by
      generalize inv.flagOptionList = l at hf
      induction l with
      | nil => exact ⟨_, rfl⟩
      | cons x l ih =>
          obtain ⟨n, rfl⟩ := hf x (by simp)
          obtain ⟨fos, hfos⟩ := ih (fun y hy => hf y (by simp [hy]))
          exact ⟨_, by simp only [onlyFlags, hfos]; rfl⟩
    obtain ⟨fos, hfos⟩ := this
    simp [AggregatorSpec.makeCustom2AryFromString, AggregatorSpec.getAggregator, hp, hfos,
      pyAssert, h, bind, Except.bind]

theorem addFreshInputs_two (m : AccessMap) (a b : IOVar) (hab : a ≠ b) (ha : AccessMap.get? m a = none)
    (hb : AccessMap.get? m b = none) : ∃ m', addFreshInputs m [a, b] = .ok m' ∧
      ∀ v, AccessMap.get? m' v = if v = a ∨ v = b then some .streamInput else AccessMap.get? m v := by
  refine ⟨AccessMap.set (AccessMap.set m a .streamInput) b .streamInput, ?_, ?_⟩
  · have : AccessMap.get? (AccessMap.set m a .streamInput) b = none := by
      rw [get_set, if_neg (Ne.symm hab), hb]
    simp [addFreshInputs, ha, this, pyAssert, bind, Except.bind]
  · intro v
    rw [get_set, get_set]
    by_cases h1 : v = a <;> by_cases h2 : v = b <;> simp [h1, h2]

/-- C48. The two-way aggregator made by a transformer: the original command name, the transformed flags, the two
inputs as operands, and the given output as the output; both inputs are streaming inputs, the output is a streaming
output. It exists for every original (with the transformed flags its variables described and distinct, no streaming
input in an option, a streaming implicit output, any implicit input streaming) and any two distinct variables not yet
used. Entries of the access map that belong to other operands of the original are kept, although these
operands are dropped. -/
theorem C48_transformed_partial (t : Transformer) (c : CommandInvocationWithIOVars) (a b o out : IOVar)
    (hd : Described { c with flagOptionList := t.apply c.flagOptionList })
    (hn : (occurrences { c with flagOptionList := t.apply c.flagOptionList }).Nodup)
    (hopt : ∀ v ∈ (t.apply c.flagOptionList).flatMap optionVar, accessOf c v ≠ some .streamInput)
    (hi : ∀ i, c.implicitInput = some i → accessOf c i = some .streamInput)
    (ho : c.implicitOutput = some o) (hoa : accessOf c o = some .streamOutput)
    (ha : accessOf c a = none) (hb : accessOf c b = none) (hab : a ≠ b) :
    ∃ agg, (AggregatorSpec.makeCustom2AryFromTransformers (some t) true).getAggregator c [a, b] out = .ok (some agg) ∧
      agg.kind = .custom2Ary ∧ agg.cmd.cmdName = c.cmdName ∧
      agg.cmd.flagOptionList = t.apply c.flagOptionList ∧ agg.cmd.operandList = [.var a, .var b] ∧
      agg.cmd.implicitInput = none ∧ agg.cmd.implicitOutput = some out ∧
      ∀ v, accessOf agg.cmd v = if v = out then some .streamOutput else if v = o then none
        else if v = a ∨ v = b then some .streamInput
        else if v ∈ occurrences { c with flagOptionList := t.apply c.flagOptionList } ∧ accessOf c v = some .streamInput
          then none else accessOf c v := by
  generalize hc1 : ({ c with flagOptionList := t.apply c.flagOptionList } : CommandInvocationWithIOVars) = c1
  have e1 : c1.cmdName = c.cmdName := by rw [← hc1]
  have e2 : c1.flagOptionList = t.apply c.flagOptionList := by rw [← hc1]
  have e3 : c1.implicitInput = c.implicitInput := by rw [← hc1]
  have e4 : c1.implicitOutput = c.implicitOutput := by rw [← hc1]
  have e5 : ∀ v, accessOf c1 v = accessOf c v := by intro v; rw [← hc1]; rfl
  rw [hc1] at hd hn
  obtain ⟨c2, h2, h2', h2o, h2a⟩ := (C46_remove c1 hd hn).1 (by rw [e2]; intro v hv; rw [e5]; exact hopt v hv)
  have hnone : ∀ v, accessOf c v = none → AccessMap.get? c2.accessMap v = none := by
    intro v hv
    show accessOf c2 v = none
    rw [h2a, e5, hv]; split <;> rfl
  obtain ⟨m, hm, hma⟩ := addFreshInputs_two c2.accessMap a b hab (hnone a ha) (hnone b hb)
  have k1 : c2.cmdName = c1.cmdName := by have := congrArg (·.cmdName) h2'; exact this
  have k2 : c2.flagOptionList = c1.flagOptionList := by have := congrArg (·.flagOptionList) h2'; exact this
  have k3 : c2.implicitInput = none := by
    have : c2.implicitInput = c1.implicitInput.filter (fun v => accessOf c1 v ≠ some .streamInput) :=
      congrArg (·.implicitInput) h2'
    rw [this, e3]
    cases hii : c.implicitInput with
    | none => rfl
    | some i => simp [Option.filter, e5, hi i hii]
  have k4 : c2.implicitOutput = some o := by
    have : c2.implicitOutput = c1.implicitOutput.filter (fun v => accessOf c1 v ≠ some .streamInput) :=
      congrArg (·.implicitOutput) h2'
    rw [this, e4, ho]
    simp [Option.filter, e5, hoa]
  have hao : o ≠ a := by rintro rfl; rw [hoa] at ha; cases ha
  have hbo : o ≠ b := by rintro rfl; rw [hoa] at hb; cases hb
  have hofl : o ∉ (t.apply c.flagOptionList).flatMap optionVar := by
    intro h
    unfold occurrences at hn
    rw [e2, e4, ho] at hn
    have := (List.nodup_append.1 hn).2.2 o (by simp only [List.mem_append]; exact .inl (.inl h)) o (by simp)
    exact this rfl
  -- the invocation before the output is renamed
  have hocc : occurrences { c2 with operandList := [VArg.var a, VArg.var b], accessMap := m } =
      (t.apply c.flagOptionList).flatMap optionVar ++ [a, b, o] := by
    unfold occurrences
    simp only [k2, k3, k4, e2, List.flatMap_cons, List.flatMap_nil, varOf_var]
    simp
  have hcount : (occurrences { c2 with operandList := [VArg.var a, VArg.var b], accessMap := m }).count o = 1 := by
    rw [hocc, List.count_append, List.count_eq_zero_of_not_mem hofl]
    simp [Ne.symm hao, Ne.symm hbo]
  have hacc3 : ∀ v, accessOf { c2 with operandList := [VArg.var a, VArg.var b], accessMap := m } v =
      if v = a ∨ v = b then some .streamInput else accessOf c2 v := hma
  have hoacc : accessOf { c2 with operandList := [VArg.var a, VArg.var b], accessMap := m } o = some .streamOutput := by
    rw [hacc3, if_neg (fun h => h.elim hao hbo), h2a, e5, hoa, if_neg]
    rw [withAccess_mem, e5, hoa]; simp
  obtain ⟨c4, h4, h4', h4a⟩ := C45_rename_partial _ o out .streamOutput hcount hoacc
  have q : c4 = { rename (fun x => if x = o then out else x) { c2 with operandList := [VArg.var a, VArg.var b], accessMap := m } with accessMap := c4.accessMap } := by
    have := congrArg (fun c : CommandInvocationWithIOVars => { c with accessMap := c4.accessMap }) h4'
    exact this
  have hmapf : ∀ l : List FlagOptionWithIOVar, o ∉ l.flatMap optionVar →
      l.map (renameOption (fun x => if x = o then out else x)) = l := by
    intro l hl
    conv => rhs; rw [← List.map_id l]
    apply List.map_congr_left
    intro x hx
    match x, hx with
    | .flag _, _ => rfl
    | .optionVar _ _ _, _ => rfl
    | .optionIO _ (.str _), _ => rfl
    | .optionIO _ (.io _), _ => rfl
    | .optionIO n (.var w), hx =>
        have : w ≠ o := by
          rintro rfl
          exact hl (List.mem_flatMap.2 ⟨_, hx, by simp [optionVar, varOf_var]⟩)
        simp [renameOption, renameArg, this]
  refine ⟨⟨.custom2Ary, c4⟩, ?_, rfl, ?_, ?_, ?_, ?_, ?_, ?_⟩
  · simp only [AggregatorSpec.makeCustom2AryFromTransformers, transformerSameAsSeqIfNone,
      AggregatorSpec.getAggregator, Bool.not_true, Bool.false_eq_true, if_false, pyAssert, List.length_cons,
      List.length_nil, Nat.zero_add, Nat.reduceAdd, decide_true, if_true, bind, Except.bind]
    rw [hc1, h2]
    simp only
    rw [hm]
    simp only [List.map_cons, List.map_nil, k4]
    rw [k4] at h4
    rw [h4]
  · rw [q]; simp only [rename, k1, e1]
  · rw [q]; simp only [rename, k2, e2]; exact hmapf _ hofl
  · rw [q]; simp only [rename, List.map_cons, List.map_nil, renameArg, Ne.symm hao, Ne.symm hbo, if_false]
  · rw [q]; simp only [rename, k3, Option.map_none]
  · rw [q]; simp only [rename, k4, Option.map_some, if_true]
  · intro v
    show accessOf c4 v = _
    rw [h4a, hacc3, h2a, e5]
    simp only [withAccess_mem, e5]

/-- An original for the example: `sort -r -k 1` with its file and output as variables. -/
def sortCmd : CommandInvocationWithIOVars :=
  ⟨"sort", [.flag "-r", .optionVar 0 "-k" (.str "1")], [.var 1], none, some 2, [(1, .streamInput), (2, .streamOutput)]⟩

/-- The transformer of sort's aggregator: keep the ordering flags and add `-m`. -/
def mergeFlags : Transformer := .chain [.filter ["-r", "-k"], .add [.flag "-m"]]

example : (Described { sortCmd with flagOptionList := mergeFlags.apply sortCmd.flagOptionList } ∧
    (occurrences { sortCmd with flagOptionList := mergeFlags.apply sortCmd.flagOptionList }).Nodup) ∧
    (∀ v ∈ (mergeFlags.apply sortCmd.flagOptionList).flatMap optionVar, accessOf sortCmd v ≠ some .streamInput) ∧
    sortCmd.implicitOutput = some 2 ∧ accessOf sortCmd 2 = some .streamOutput ∧ accessOf sortCmd 5 = none ∧
    accessOf sortCmd 6 = none ∧ sortCmd.implicitInput = none := by
  unfold Described; decide +kernel

example : (AggregatorSpec.makeCustom2AryFromTransformers (some mergeFlags) true).getAggregator sortCmd [5, 6] 7 =
    .ok (some ⟨.custom2Ary, ⟨"sort", [.flag "-r", .optionVar 0 "-k" (.str "1"), .flag "-m"], [.var 5, .var 6], none,
      some 7, [(5, .streamInput), (6, .streamInput), (7, .streamOutput)]⟩⟩) := by decide +kernel

theorem addFreshInputs_inv (vs : List IOVar) : ∀ (m m' : AccessMap), addFreshInputs m vs = .ok m' →
    vs.Nodup ∧ ∀ v ∈ vs, AccessMap.get? m v = none := by
  induction vs with
  | nil => intro m m' _; exact ⟨List.nodup_nil, fun v hv => by cases hv⟩
  | cons v vs ih =>
      intro m m' h
      rw [addFreshInputs] at h
      obtain ⟨_, h1, h⟩ := bind_ok h
      have hm : AccessMap.get? m v = none := by
        by_cases hv : (AccessMap.get? m v).isNone
        · simpa using hv
        · simp [pyAssert, hv] at h1
      obtain ⟨hn, hf⟩ := ih _ _ h
      have hnot : v ∉ vs := by
        intro hv
        have := hf v hv
        rw [get_set] at this
        simp at this
      refine ⟨List.nodup_cons.2 ⟨hnot, hn⟩, ?_⟩
      intro w hw
      rcases List.mem_cons.1 hw with rfl | hw
      · exact hm
      · have hne : w ≠ v := fun h => hnot (h ▸ hw)
        have := hf w hw
        rw [get_set, if_neg hne] at this
        exact this

theorem funcTransformer_ok (kind : AggregatorKind) (t : Transformer) (c : CommandInvocationWithIOVars)
    (ins : List IOVar) (out : IOVar) (r : Option Aggregator)
    (h : (AggregatorSpec.funcTransformer kind t true).getAggregator c ins out = .ok r) :
    ∃ c2 m agg, CommandInvocationWithIOVars.removeStreamingInputs
        { c with flagOptionList := t.apply c.flagOptionList } = .ok c2 ∧
      addFreshInputs c2.accessMap ins = .ok m ∧ r = some agg := by
  cases kind <;>
  · simp only [AggregatorSpec.getAggregator, Bool.not_true, Bool.false_eq_true, if_false] at h
    obtain ⟨_, _, h⟩ := bind_ok h
    obtain ⟨c2, h2, h⟩ := bind_ok h
    obtain ⟨m, hm, h⟩ := bind_ok h
    obtain ⟨_, _, h⟩ := bind_ok h
    cases h
    exact ⟨c2, m, _, h2, hm, rfl⟩

/-- C48. The transforming aggregator, of any kind, only accepts inputs that are pairwise distinct and have no access
left once the streaming inputs of the transformed command are gone. -/
theorem C48_fresh (kind : AggregatorKind) (t : Transformer) (c : CommandInvocationWithIOVars) (ins : List IOVar)
    (out : IOVar) (agg : Aggregator)
    (h : (AggregatorSpec.funcTransformer kind t true).getAggregator c ins out = .ok (some agg)) :
    ins.Nodup ∧ ∀ v ∈ ins, accessOf c v = none ∨
      v ∈ withAccess { c with flagOptionList := t.apply c.flagOptionList } .streamInput := by
  obtain ⟨c2, m, _, h2, hm, _⟩ := funcTransformer_ok kind t c ins out _ h
  obtain ⟨hn, hf⟩ := addFreshInputs_inv ins _ m hm
  obtain ⟨_, _, ka⟩ := C46_returns _ c2 .streamInput (.inl ⟨rfl, h2⟩)
  refine ⟨hn, fun v hv => ?_⟩
  have := hf v hv
  have h3 : accessOf c2 v = none := this
  rw [ka v] at h3
  by_cases hw : v ∈ withAccess { c with flagOptionList := t.apply c.flagOptionList } .streamInput
  · exact .inr hw
  · rw [if_neg hw] at h3
    exact .inl h3

/-- C48. So a repeated input, or one that the command still uses otherwise, is refused with an exception. -/
theorem C48_clash (kind : AggregatorKind) (t : Transformer) (c : CommandInvocationWithIOVars) (ins : List IOVar)
    (out : IOVar)
    (h : ¬ ins.Nodup ∨ ∃ v ∈ ins, accessOf c v ≠ none ∧
      v ∉ withAccess { c with flagOptionList := t.apply c.flagOptionList } .streamInput) :
    ∃ e, (AggregatorSpec.funcTransformer kind t true).getAggregator c ins out = .error e := by
  cases hr : (AggregatorSpec.funcTransformer kind t true).getAggregator c ins out with
  | error e => exact ⟨e, rfl⟩
  | ok r =>
      cases r with
      | some agg =>
          obtain ⟨h1, h2⟩ := C48_fresh kind t c ins out agg hr
          rcases h with h | ⟨v, hv, hne, hw⟩
          · exact absurd h1 h
          · rcases h2 v hv with h3 | h3
            · exact absurd h3 hne
            · exact absurd h3 hw
      | none =>
          obtain ⟨_, _, _, _, _, h3⟩ := funcTransformer_ok kind t c ins out _ hr
          cases h3

example : (AggregatorSpec.makeCustom2AryFromTransformers (some mergeFlags) true).getAggregator sortCmd [5, 5] 7 =
    .error .assertionError := by decide +kernel

/-- C48 is false without an implicit streaming output: the given output is dropped, whatever it is. -/
theorem C48_no_output_false (t : Transformer) (c : CommandInvocationWithIOVars) (ins : List IOVar) (out : IOVar)
    (agg : Aggregator) (ho : c.implicitOutput = none)
    (h : (AggregatorSpec.makeCustom2AryFromTransformers (some t) true).getAggregator c ins out = .ok (some agg)) :
    agg.cmd.implicitOutput = none ∧ agg.cmd.operandList = ins.map VArg.var ∧
      agg.cmd.flagOptionList = t.apply c.flagOptionList := by
  simp only [AggregatorSpec.makeCustom2AryFromTransformers, transformerSameAsSeqIfNone,
    AggregatorSpec.getAggregator, Bool.not_true, Bool.false_eq_true, if_false] at h
  obtain ⟨_, _, h⟩ := bind_ok h
  obtain ⟨c2, h2, h⟩ := bind_ok h
  obtain ⟨m, _, h⟩ := bind_ok h
  obtain ⟨c4, h4, h⟩ := bind_ok h
  cases h
  obtain ⟨k, _, _⟩ := C46_returns _ c2 .streamInput (.inl ⟨rfl, h2⟩)
  have k4 : c2.implicitOutput = none := by
    have := congrArg (·.implicitOutput) k
    simp only [kept, ho, Option.filter] at this
    exact this
  have k2 : c2.flagOptionList = t.apply c.flagOptionList := congrArg (·.flagOptionList) k
  simp only [k4] at h4
  rw [C45_no_op _ none out (fun x hx => by cases hx)] at h4
  cases h4
  exact ⟨rfl, rfl, k2⟩

example : ∃ agg, (AggregatorSpec.makeCustom2AryFromTransformers (some mergeFlags) true).getAggregator
    ⟨"sort", [.optionVar 0 "-o" (.var 2)], [.var 1], none, none, [(1, .streamInput), (2, .streamOutput)]⟩ [5, 6] 7 =
      .ok (some agg) ∧ accessOf agg.cmd 7 = none :=
  ⟨⟨.custom2Ary, ⟨"sort", [.flag "-m"], [.var 5, .var 6], none, none,
    [(2, .streamOutput), (5, .streamInput), (6, .streamInput)]⟩⟩, by decide +kernel, by decide +kernel⟩

/-- Operands of the original other than streaming inputs are dropped too, but their access entries stay. -/
theorem C48_stale_entries : ∃ c agg, Consistent c ∧ Described c ∧ (occurrences c).Nodup ∧
    (AggregatorSpec.makeCustom2AryFromTransformers (some .seq) true).getAggregator c [5, 6] 7 = .ok (some agg) ∧
    3 ∉ occurrences agg.cmd ∧ 3 ∉ hiddenVars agg.cmd ∧ accessOf agg.cmd 3 = some .configInput := by
  refine ⟨⟨"cmd", [], [.var 3, .var 1], none, some 2, [(3, .configInput), (1, .streamInput), (2, .streamOutput)]⟩,
    ⟨.custom2Ary, ⟨"cmd", [], [.var 5, .var 6], none, some 7,
      [(3, .configInput), (5, .streamInput), (6, .streamInput), (7, .streamOutput)]⟩⟩, ?_, by unfold Described; decide +kernel,
    by decide +kernel, by decide +kernel, by decide +kernel, by decide +kernel, by decide +kernel⟩
  intro v
  simp only [accessOf, occurrences, hiddenVars, List.lookup_cons]
  by_cases h1 : v = 1
  · subst h1; simp [varOf]
  by_cases h2 : v = 2
  · subst h2; simp [varOf]
  by_cases h3 : v = 3
  · subst h3; simp [varOf]
  simp [beq_eq_false_iff_ne.2 h1, beq_eq_false_iff_ne.2 h2, beq_eq_false_iff_ne.2 h3, h1, h2, h3, varOf]

/-- C49. A mapper with auxiliary outputs: input, output, auxiliary outputs, in this order, and nothing implicit; the
outputs are streaming outputs, the input a streaming input. Everything about the original's operands is gone from the
command. -/
theorem C49_mapper (p : Parallelizer) (c m : CommandInvocationWithIOVars) (i o : IOVar) (aux : List IOVar)
    (haux : aux ≠ []) (h : p.getActualMapper c i o aux = .ok (some m)) :
    aux.length = p.infoMapperAggregator ∧ m.operandList = (i :: o :: aux).map VArg.var ∧
      m.implicitInput = none ∧ m.implicitOutput = none ∧
      (∀ v ∈ o :: aux, accessOf m v = some .streamOutput) ∧ (i ∉ o :: aux → accessOf m i = some .streamInput) := by
  unfold Parallelizer.getActualMapper at h
  obtain ⟨_, h1, h⟩ := bind_ok h
  have hl : aux.length = p.infoMapperAggregator := by
    simp only [pyAssert] at h1
    split at h1
    · rename_i hh; exact of_decide_eq_true hh
    · cases h1
  have hlen : ¬ aux.length = 0 := fun h => haux (List.length_eq_zero_iff.1 h)
  unfold MapperSpec.getMapper at h
  by_cases himpl : p.coreMapperSpec.isImplemented
  · simp only [himpl, Bool.not_true, Bool.false_eq_true, if_false, hlen] at h
    obtain ⟨am, h2, h⟩ := bind_ok h
    cases h
    refine ⟨hl, rfl, rfl, rfl, ?_, ?_⟩
    · intro v hv
      show AccessMap.get? _ v = _
      rw [get_setAll, get_set]
      by_cases h1 : v ∈ aux
      · simp [h1]
      · have : v = o := by simpa [h1] using hv
        simp [this]
    · intro hi
      show AccessMap.get? _ i = _
      rw [List.mem_cons, not_or] at hi
      rw [get_setAll, if_neg hi.2, get_set, if_neg hi.1, get_set, if_pos rfl]
  · simp [himpl] at h

/-- C49. The number of auxiliary outputs must be the declared one. -/
theorem C49_mapper_rejected (p : Parallelizer) (c : CommandInvocationWithIOVars) (i o : IOVar) (aux : List IOVar)
    (h : aux.length ≠ p.infoMapperAggregator) : p.getActualMapper c i o aux = .error .assertionError := by
  unfold Parallelizer.getActualMapper
  simp [pyAssert, h, bind, Except.bind]

theorem popOperands_ok (l : List IOVar) (m : AccessMap) (hn : l.Nodup) (hd : ∀ v ∈ l, AccessMap.get? m v ≠ none) :
    ∃ m', popOperands m (l.map VArg.var) = .ok m' ∧
      ∀ v, AccessMap.get? m' v = if v ∈ l then none else AccessMap.get? m v := by
  induction l generalizing m with
  | nil => exact ⟨m, rfl, by simp⟩
  | cons x l ih =>
      obtain ⟨a, ha⟩ := Option.ne_none_iff_exists'.1 (hd x (by simp))
      rw [List.nodup_cons] at hn
      obtain ⟨m', h1, h2⟩ := ih (AccessMap.erase m x) hn.2 (fun v hv => by
        have hne : v ≠ x := fun he => hn.1 (he ▸ hv)
        rw [get_erase, if_neg hne]; exact hd v (by simp [hv]))
      refine ⟨m', ?_, ?_⟩
      · simp only [List.map_cons, popOperands, AccessMap.pop, ha, bind, Except.bind]
        exact h1
      · intro v
        rw [h2, get_erase]
        by_cases hv : v = x <;> by_cases hl : v ∈ l <;> simp [hv, hl]

/-- C49. The mapper exists for every original whose operands are distinct described variables. -/
theorem C49_mapper_exists (p : Parallelizer) (c : CommandInvocationWithIOVars) (ops : List IOVar) (i o : IOVar)
    (aux : List IOVar) (himpl : p.coreMapperSpec.isImplemented = true) (hl : aux.length = p.infoMapperAggregator)
    (haux : aux ≠ []) (hops : c.operandList = ops.map VArg.var) (hn : ops.Nodup)
    (hd : ∀ v ∈ ops, accessOf c v ≠ none) : ∃ m, p.getActualMapper c i o aux = .ok (some m) ∧
      m.cmdName = (p.coreMapperSpec.initialMapper c).cmdName ∧
      m.flagOptionList = (p.coreMapperSpec.initialMapper c).flagOptionList ∧
      ∀ v, v ∉ i :: o :: aux → accessOf m v = if v ∈ ops then none else accessOf c v := by
  have q1 : (p.coreMapperSpec.initialMapper c).operandList = ops.map VArg.var := by
    rw [← hops]; unfold MapperSpec.initialMapper; split <;> rfl
  have q2 : (p.coreMapperSpec.initialMapper c).accessMap = c.accessMap := by
    unfold MapperSpec.initialMapper; split <;> rfl
  obtain ⟨m', h1, h2⟩ := popOperands_ok ops c.accessMap hn hd
  refine ⟨{ p.coreMapperSpec.initialMapper c with
      operandList := ([i, o] ++ aux).map VArg.var
      accessMap := AccessMap.setAll (AccessMap.set (AccessMap.set m' i .streamInput) o .streamOutput) aux .streamOutput
      implicitOutput := none
      implicitInput := none }, ?_, rfl, rfl, ?_⟩
  · unfold Parallelizer.getActualMapper MapperSpec.getMapper
    have hlen : ¬ p.infoMapperAggregator = 0 := fun h => haux (List.length_eq_zero_iff.1 (hl.trans h))
    simp only [pyAssert, hl, decide_true, if_true, himpl, Bool.not_true, Bool.false_eq_true, if_false, hlen, bind,
      Except.bind, q1, q2, h1]
  · intro v hv
    simp only [List.mem_cons, not_or] at hv
    show AccessMap.get? _ v = _
    rw [get_setAll, if_neg hv.2.2, get_set, if_neg hv.2.1, get_set, if_neg hv.1, h2]; rfl

/-- A parallelizer with one auxiliary pipe for the examples. -/
def auxPar : Parallelizer :=
  ⟨.consecChunks, MapperSpec.makeCustom "map_bigrams_aux" none true,
    AggregatorSpec.makeCustom2AryFromString "bigram_aux_reduce" true, .noAddInput, 1⟩

example : auxPar.getActualMapper sortCmd 5 6 [7] = .ok (some ⟨"map_bigrams_aux",
    [.flag "-r", .optionVar 0 "-k" (.str "1")], [.var 5, .var 6, .var 7], none, none,
    [(2, .streamOutput), (5, .streamInput), (6, .streamOutput), (7, .streamOutput)]⟩) := by decide +kernel

theorem popOperands_inv (l : List VArg) (m m' : AccessMap) (h : popOperands m l = .ok m') :
    ∃ ops : List IOVar, l = ops.map VArg.var ∧ ops.Nodup ∧ ∀ v ∈ ops, AccessMap.get? m v ≠ none := by
  induction l generalizing m with
  | nil => exact ⟨[], rfl, List.nodup_nil, by simp⟩
  | cons x l ih =>
      match x with
      | .str s => cases h
      | .var v =>
          simp only [popOperands, AccessMap.pop] at h
          obtain ⟨r, hr, h⟩ := bind_ok h
          split at hr
          · rename_i a ha
            cases hr
            obtain ⟨ops, e, hn, hd⟩ := ih _ h
            have hv : v ∉ ops := fun hv => hd v hv (by simp [get_erase])
            refine ⟨v :: ops, by rw [e]; rfl, List.nodup_cons.2 ⟨hv, hn⟩, ?_⟩
            intro w hw
            rcases List.mem_cons.1 hw with rfl | hw
            · rw [ha]; simp
            · have := hd w hw
              rw [get_erase] at this
              split at this
              · exact absurd rfl this
              · exact this
          · cases hr

/-- A mapper with auxiliary pipes exists only for commands all of whose operands are variables, each occurring
once and known to the access map (for the converse see `C49_mapper_exists`). -/
theorem C49_mapper_operands (p : Parallelizer) (c m : CommandInvocationWithIOVars) (i o : IOVar) (aux : List IOVar)
    (haux : aux ≠ []) (h : p.getActualMapper c i o aux = .ok (some m)) :
    p.coreMapperSpec.isImplemented = true ∧
    ∃ ops : List IOVar, c.operandList = ops.map VArg.var ∧ ops.Nodup ∧ ∀ v ∈ ops, accessOf c v ≠ none := by
  have q1 : (p.coreMapperSpec.initialMapper c).operandList = c.operandList := by
    unfold MapperSpec.initialMapper; split <;> rfl
  have q2 : (p.coreMapperSpec.initialMapper c).accessMap = c.accessMap := by
    unfold MapperSpec.initialMapper; split <;> rfl
  unfold Parallelizer.getActualMapper at h
  obtain ⟨_, -, h⟩ := bind_ok h
  have hlen : ¬ aux.length = 0 := fun h => haux (List.length_eq_zero_iff.1 h)
  unfold MapperSpec.getMapper at h
  by_cases himpl : p.coreMapperSpec.isImplemented = true
  · refine ⟨himpl, ?_⟩
    simp only [himpl, Bool.not_true, Bool.false_eq_true, if_false, hlen, q1, q2] at h
    obtain ⟨m', h1, -⟩ := bind_ok h
    exact popOperands_inv _ _ _ h1
  · simp only [himpl, Bool.not_false, if_true] at h
    cases h

/-- With a constant among the operands the mapper is refused. -/
example : auxPar.getActualMapper { sortCmd with operandList := [.str "1", .var 0] } 5 6 [7] = .error .assertionError := by
  decide +kernel

/-- The entry of an implicit stream of the original stays in the map of such a mapper, although the stream is gone. -/
theorem C49_stale_entries : ∃ m, auxPar.getActualMapper sortCmd 5 6 [7] = .ok (some m) ∧
    2 ∉ occurrences m ∧ 2 ∉ hiddenVars m ∧ accessOf m 2 = some .streamOutput :=
  ⟨⟨"map_bigrams_aux", [.flag "-r", .optionVar 0 "-k" (.str "1")], [.var 5, .var 6, .var 7], none, none,
    [(2, .streamOutput), (5, .streamInput), (6, .streamOutput), (7, .streamOutput)]⟩, by decide +kernel,
    by decide +kernel, by decide +kernel, by decide +kernel⟩

theorem onlyFlags_iff (l : List FlagOption) (fos : List FlagOptionWithIOVar) :
    onlyFlags l = .ok fos ↔ ∃ ns : List String, l = ns.map FlagOption.flag ∧ fos = ns.map FlagOptionWithIOVar.flag := by
  induction l generalizing fos with
  | nil =>
      simp only [onlyFlags, Except.ok.injEq]
      constructor
      · rintro rfl; exact ⟨[], rfl, rfl⟩
      · rintro ⟨ns, h1, h2⟩
        cases ns with
        | nil => exact h2.symm
        | cons => simp at h1
  | cons x l ih =>
      cases x with
      | flag n =>
          constructor
          · intro h
            obtain ⟨r, hr, h⟩ := bind_ok h
            cases h
            obtain ⟨ns, h1, h2⟩ := (ih r).1 hr
            exact ⟨n :: ns, by rw [h1]; rfl, by rw [h2]; rfl⟩
          · rintro ⟨ns, h1, h2⟩
            cases ns with
            | nil => simp at h1
            | cons n' ns =>
                simp only [List.map_cons, List.cons.injEq, FlagOption.flag.injEq] at h1
                obtain ⟨rfl, h1⟩ := h1
                have := (ih (ns.map FlagOptionWithIOVar.flag)).2 ⟨ns, h1, rfl⟩
                simp only [onlyFlags, this, h2, bind, Except.bind, List.map_cons]
      | option n a =>
          constructor
          · intro h; simp [onlyFlags] at h
          · rintro ⟨ns, h1, _⟩
            cases ns <;> simp at h1

/-- C49. A two-way aggregator with auxiliary pipes, given by the text of a command with flags only: first input, its
auxiliary inputs, second input, its auxiliary inputs, output, auxiliary outputs, in this order. -/
theorem C49_aggregator (p : Parallelizer) (kind : AggregatorKind) (s : String) (impl : Bool)
    (hp : p.coreAggregatorSpec = .funcString kind s impl) (inv : CommandInvocationInitial) (ns : List String)
    (hparse : parse s = .ok inv) (hflags : inv.flagOptionList = ns.map FlagOption.flag)
    (i1 i2 o : IOVar) (aux1 aux2 auxo : List IOVar) (h1 : aux1.length = aux2.length) (h2 : aux1.length = auxo.length) :
    ∃ agg, p.getActual2AryAggregatorWithAux i1 aux1 i2 aux2 o auxo = .ok agg ∧ agg.kind = kind ∧
      agg.cmd.cmdName = inv.cmdName ∧ agg.cmd.flagOptionList = ns.map FlagOptionWithIOVar.flag ∧
      agg.cmd.operandList = (i1 :: aux1 ++ i2 :: aux2 ++ o :: auxo).map VArg.var ∧
      agg.cmd.implicitInput = none ∧ agg.cmd.implicitOutput = none ∧
      ∀ v, accessOf agg.cmd v = if v ∈ o :: auxo then some .streamOutput
        else if v ∈ i1 :: aux1 ++ i2 :: aux2 then some .streamInput else none := by
  have hf := (onlyFlags_iff inv.flagOptionList (ns.map FlagOptionWithIOVar.flag)).2 ⟨ns, hflags, rfl⟩
  unfold Parallelizer.getActual2AryAggregatorWithAux
  rw [hp]
  simp only [AggregatorSpec.getActual2AryAggregatorWithAux, pyAssert, h1, h1 ▸ h2, decide_true, if_true, bind,
    Except.bind, hparse, hf]
  refine ⟨_, rfl, rfl, rfl, rfl, ?_, rfl, rfl, ?_⟩
  · simp
  · intro v
    show AccessMap.get? _ v = _
    rw [get_setAll, get_setAll]
    have e1 : (v ∈ [o] ++ auxo) ↔ v ∈ o :: auxo := by simp
    have e2 : (v ∈ [i1] ++ aux1 ++ [i2] ++ aux2) ↔ v ∈ i1 :: aux1 ++ i2 :: aux2 := by simp
    simp only [e1, e2]
    rfl

/-- C48, for aggregators given as the text of a command with flags only: whatever the original, the command of the text
with its flags, the inputs as operands in their order, and the given output as the output. The inputs are streaming
inputs, the output is a streaming output, and the access map has nothing else. The two-way one needs two inputs, the one
for any number takes any number. -/
theorem C48_text (kind : AggregatorKind) (s : String) (inv : CommandInvocationInitial) (ns : List String)
    (hparse : parse s = .ok inv) (hflags : inv.flagOptionList = ns.map FlagOption.flag)
    (c : CommandInvocationWithIOVars) (ins : List IOVar) (out : IOVar)
    (hk : (kind = .custom2Ary ∧ ins.length = 2) ∨ kind = .customNAry) :
    ∃ agg, (AggregatorSpec.funcString kind s true).getAggregator c ins out = .ok (some agg) ∧ agg.kind = kind ∧
      agg.cmd.cmdName = inv.cmdName ∧ agg.cmd.flagOptionList = ns.map FlagOptionWithIOVar.flag ∧
      agg.cmd.operandList = ins.map VArg.var ∧ agg.cmd.implicitInput = none ∧ agg.cmd.implicitOutput = some out ∧
      ∀ v, accessOf agg.cmd v = if v = out then some .streamOutput else if v ∈ ins then some .streamInput else none := by
  have hf := (onlyFlags_iff inv.flagOptionList (ns.map FlagOptionWithIOVar.flag)).2 ⟨ns, hflags, rfl⟩
  rcases hk with ⟨rfl, h2⟩ | rfl
  · simp only [AggregatorSpec.getAggregator, pyAssert, h2, decide_true, if_true, bind, Except.bind, hparse, hf,
      Bool.not_true, Bool.false_eq_true, if_false]
    exact ⟨_, rfl, rfl, rfl, rfl, rfl, rfl, rfl, fun v => accessOf_ofKeys _ _ _ _ _ ins .streamInput out .streamOutput v⟩
  · simp only [AggregatorSpec.getAggregator, bind, Except.bind, hparse, hf, Bool.not_true, Bool.false_eq_true, if_false]
    exact ⟨_, rfl, rfl, rfl, rfl, rfl, rfl, rfl, fun v => accessOf_ofKeys _ _ _ _ _ ins .streamInput out .streamOutput v⟩

example : ∃ agg, (AggregatorSpec.makeCustom2AryFromString "sort -m" true).getAggregator sample [4, 5] 9 =
    .ok (some agg) ∧ agg.cmd.flagOptionList = [.flag "-m"] ∧ accessOf agg.cmd 9 = some .streamOutput ∧
    accessOf agg.cmd 5 = some .streamInput :=
  ⟨⟨.custom2Ary, ⟨"sort", [.flag "-m"], [.var 4, .var 5], none, some 9,
    [(4, .streamInput), (5, .streamInput), (9, .streamOutput)]⟩⟩, by decide +kernel⟩

/-- C49. Numbers of auxiliary pipes that do not match, and aggregators not given as text, are rejected. -/
theorem C49_aggregator_rejected (p : Parallelizer) (i1 i2 o : IOVar) (aux1 aux2 auxo : List IOVar) :
    (∀ kind s impl, p.coreAggregatorSpec = .funcString kind s impl →
      (aux1.length ≠ aux2.length ∨ aux1.length ≠ auxo.length) →
      p.getActual2AryAggregatorWithAux i1 aux1 i2 aux2 o auxo = .error .assertionError) ∧
    ((∀ kind s impl, p.coreAggregatorSpec ≠ .funcString kind s impl) →
      ∃ msg, p.getActual2AryAggregatorWithAux i1 aux1 i2 aux2 o auxo = .error (.exception msg)) := by
  constructor
  · intro kind s impl hp h
    unfold Parallelizer.getActual2AryAggregatorWithAux
    rw [hp]
    by_cases h1 : aux1.length = aux2.length
    · have h2 : aux1.length ≠ auxo.length := h.resolve_left (fun h => h h1)
      simp only [AggregatorSpec.getActual2AryAggregatorWithAux, pyAssert, h1, h1 ▸ h2, decide_true, decide_false,
        if_true, Bool.false_eq_true, if_false, bind, Except.bind]
    · simp only [AggregatorSpec.getActual2AryAggregatorWithAux, pyAssert, h1, decide_false,
        Bool.false_eq_true, if_false, bind, Except.bind]
  · intro h
    unfold Parallelizer.getActual2AryAggregatorWithAux
    cases hp : p.coreAggregatorSpec with
    | nonFunc k b => exact ⟨_, rfl⟩
    | funcTransformer k t b => exact ⟨_, rfl⟩
    | funcString k s b => exact absurd hp (h k s b)

example : parse "bigram_aux_reduce" = .ok ⟨"bigram_aux_reduce", [], []⟩ := by decide +kernel

end PashAnn
