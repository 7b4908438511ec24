import Verif.Lemmas.VarOps

/-! Properties C40 to C46: substituting, reading, renaming and removing variables. Specification:
`Spec/Vars.lean`. The original invocation is a value in the model, so "the original is unchanged" is a matter of
the translation (the code copies it deeply first). -/

namespace PashAnn
open Spec

/-- The running example of this file: a configuration file in an option, a string operand, a streaming input, another
input, and an implicit streaming output. -/
def sample : CommandInvocationWithIOVars :=
  ⟨"cmd", [.flag "-x", .optionIO "-p" (.var 7)], [.str "a", .var 1, .var 2], none, some 3,
    [(7, .configInput), (1, .streamInput), (2, .otherInput), (3, .streamOutput)]⟩

/-- `sample` meets the hypotheses used below. -/
theorem sample_ok : Described sample ∧ (occurrences sample).Nodup ∧ Consistent sample ∧
    withAccess sample .streamInput = [1] ∧ withAccess sample .streamOutput = [3] := by
  refine ⟨by unfold Described; decide +kernel, by decide +kernel, ?_, by decide +kernel, by decide +kernel⟩
  intro v
  have hh : hiddenVars sample = [] := by decide +kernel
  have ho : occurrences sample = [7, 1, 2, 3] := by decide +kernel
  rw [hh, ho]
  unfold accessOf sample
  simp only [List.lookup_cons]
  by_cases h7 : v = 7
  · subst h7; simp
  by_cases h1 : v = 1
  · subst h1; simp
  by_cases h2 : v = 2
  · subst h2; simp
  by_cases h3 : v = 3
  · subst h3; simp
  simp [beq_eq_false_iff_ne.2 h7, beq_eq_false_iff_ne.2 h1, beq_eq_false_iff_ne.2 h2, beq_eq_false_iff_ne.2 h3,
    h7, h1, h2, h3]

/-- What one substitution does, in terms of access kinds: the sequence of kinds is kept, the replaced kind now
holds the new variables in order, every other kind its old ones. -/
theorem substituteKind_spec (a : AccessKind) (c : CommandInvocationWithIOVars) (ns : List IOVar) (hd : Described c)
    (hn : (occurrences c).Nodup) (hf : ∀ n ∈ ns, n ∉ occurrences c) (hl : ns.length = (withAccess c a).length) :
    ∃ c', substituteKind a c ns = .ok c' ∧ SameShape c c' ∧
      (occurrences c').map (accessOf c') = (occurrences c).map (accessOf c) ∧
      withAccess c' a = ns ∧ (∀ b, b ≠ a → withAccess c' b = withAccess c b) ∧
      (∀ v, accessOf c' v = if v ∈ ns then some a else if v ∈ withAccess c a then none else accessOf c v) ∧
      (∀ v, v ∈ occurrences c' ↔ v ∈ ns ∨ (v ∈ occurrences c ∧ v ∉ withAccess c a)) ∧
      (ns.Nodup → (occurrences c').Nodup) ∧
      occurrences c' = replaceInOrder (fun v => accessOf c v = some a) (occurrences c) ns := by
  obtain ⟨c', h1, h2, h3, h4⟩ := substituteKind_ok a c ns hd hn hf hl
  have keep : ∀ v ∈ occurrences c, accessOf c v ≠ some a → accessOf c' v = accessOf c v := by
    intro v hv hva
    rw [h4, if_neg (fun h => hf v h hv), if_neg]
    simp [withAccess, hva]
  have new : ∀ v ∈ ns, accessOf c' v = some a := by intro v hv; rw [h4, if_pos hv]
  refine ⟨c', h1, h2, ?_, ?_, ?_, h4, ?_, ?_, h3⟩
  · rw [h3]
    exact replaceInOrder_map _ _ _ _ _ (some a) (fun _ _ h => h) new (fun v hv h => keep v hv h) hl
  · unfold withAccess; rw [h3]
    exact replaceInOrder_filter _ _ _ _ new (fun v hv h => by rw [keep v hv h]; exact h) hl
  · intro b hb
    have e1 : withAccess c' b = (occurrences c').filter (fun v => v ∈ occurrences c ∧ accessOf c v = some b) := by
      unfold withAccess
      apply List.filter_congr
      intro v hv
      rw [h3, mem_replaceInOrder _ _ _ hl] at hv
      congr 1
      apply propext
      rcases hv with hv | ⟨hv, hva⟩
      · rw [new v hv]
        constructor
        · intro h; exact absurd (Option.some.inj h).symm hb
        · intro h; exact absurd h.1 (hf v hv)
      · rw [keep v hv hva]; simp [hv]
    have e2 : withAccess c b = (occurrences c).filter (fun v => v ∈ occurrences c ∧ accessOf c v = some b) := by
      unfold withAccess
      apply List.filter_congr
      intro v hv
      simp [hv]
    rw [e1, e2, h3]
    exact replaceInOrder_filter_other _ _ _ _ (fun v hv h => hf v hv h.1)
      (fun v hv hva h => hb (Option.some.inj (h.2.symm.trans hva))) hl
  · intro v
    rw [h3, mem_replaceInOrder _ _ _ hl]
    constructor
    · rintro (h | ⟨h, h'⟩)
      · exact .inl h
      · exact .inr ⟨h, by simp [withAccess, h']⟩
    · rintro (h | ⟨h, h'⟩)
      · exact .inl h
      · refine .inr ⟨h, fun h'' => h' ?_⟩
        simp [withAccess, h, h'']
  · intro hns
    rw [h3]
    exact replaceInOrder_nodup _ _ _ hn hns hf hl

theorem withAccess_mem {c : CommandInvocationWithIOVars} {a : AccessKind} {v : IOVar} :
    v ∈ withAccess c a ↔ v ∈ occurrences c ∧ accessOf c v = some a := by simp [withAccess]

theorem described_of {c c' : CommandInvocationWithIOVars} {ns : List IOVar} {a : AccessKind} (hd : Described c)
    (h4 : ∀ v, accessOf c' v = if v ∈ ns then some a else if v ∈ withAccess c a then none else accessOf c v)
    (h5 : ∀ v, v ∈ occurrences c' ↔ v ∈ ns ∨ (v ∈ occurrences c ∧ v ∉ withAccess c a)) : Described c' := by
  intro v hv
  rw [h4]
  rcases (h5 v).1 hv with h | ⟨h, h'⟩
  · rw [if_pos h]; simp
  · by_cases hn : v ∈ ns
    · rw [if_pos hn]; simp
    · rw [if_neg hn, if_neg h']; exact hd v h

theorem consistent_of {c c' : CommandInvocationWithIOVars} {ns : List IOVar} {a : AccessKind} (hc : Consistent c)
    (hs : SameShape c c') (hdis : ∀ v ∈ occurrences c, v ∉ hiddenVars c)
    (h4 : ∀ v, accessOf c' v = if v ∈ ns then some a else if v ∈ withAccess c a then none else accessOf c v)
    (h5 : ∀ v, v ∈ occurrences c' ↔ v ∈ ns ∨ (v ∈ occurrences c ∧ v ∉ withAccess c a)) : Consistent c' := by
  intro v
  rw [h4, h5, hiddenVars_shape hs]
  by_cases h1 : v ∈ ns
  · simp [h1]
  · by_cases h2 : v ∈ withAccess c a
    · have : v ∉ hiddenVars c := hdis v (withAccess_mem.1 h2).1
      simp [h1, h2, this]
    · have := hc v
      simp only [h1, h2, if_false, false_or, not_false_eq_true, and_true]
      exact this

/-- `substitute_inputs_and_outputs`, for any numbers of streams: it succeeds, keeps everything but the variables,
keeps the sequence of access kinds, puts the given inputs and outputs in place of the streams in order, and keeps
the variables of every other kind. -/
theorem C40_substitute (c : CommandInvocationWithIOVars) (ins outs : List IOVar) (hd : Described c)
    (hn : (occurrences c).Nodup) (hi : ∀ n ∈ ins, n ∉ occurrences c) (ho : ∀ n ∈ outs, n ∉ occurrences c ∧ n ∉ ins)
    (hin : ins.Nodup) (hli : ins.length = (withAccess c .streamInput).length)
    (hlo : outs.length = (withAccess c .streamOutput).length) :
    ∃ c', c.substitute ins outs = .ok c' ∧ SameShape c c' ∧
      (occurrences c').map (accessOf c') = (occurrences c).map (accessOf c) ∧
      withAccess c' .streamInput = ins ∧ withAccess c' .streamOutput = outs ∧
      (∀ a, a ≠ .streamInput → a ≠ .streamOutput → withAccess c' a = withAccess c a) := by
  obtain ⟨c1, e1, s1, k1, w1, o1, a1, m1, n1, _⟩ := substituteKind_spec .streamInput c ins hd hn hi hli
  have hout : withAccess c1 .streamOutput = withAccess c .streamOutput := o1 _ (by simp)
  obtain ⟨c2, e2, s2, k2, w2, o2, a2, m2, n2, _⟩ := substituteKind_spec .streamOutput c1 outs (described_of hd a1 m1)
    (n1 hin) (fun n hn' => by
      rw [m1]; rintro (h | h)
      · exact (ho n hn').2 h
      · exact (ho n hn').1 h.1) (by rw [hout]; exact hlo)
  refine ⟨c2, ?_, s1.trans s2, k2.trans k1, ?_, w2, ?_⟩
  · unfold CommandInvocationWithIOVars.substitute
    rw [substituteInputs_eq, e1]
    show c1.substituteOutputs outs = _
    rw [substituteOutputs_eq, e2]
  · rw [o2 _ (by simp), w1]
  · intro a h1 h2
    rw [o2 a h2, o1 a h1]

/-- The result of substituting in `sample`. -/
def sample' : CommandInvocationWithIOVars :=
  ⟨"cmd", [.flag "-x", .optionIO "-p" (.var 7)], [.str "a", .var 10, .var 2], none, some 11,
    [(7, .configInput), (2, .otherInput), (10, .streamInput), (11, .streamOutput)]⟩

example : sample.substitute [10] [11] = .ok sample' := by decide +kernel

/-- C40. The same-as-sequential mapper is the original with its input and its output renamed; every other part is
the original's; the access kinds move along. -/
theorem C40_mapper (p : Parallelizer) (hp : p.coreMapperSpec = sameCommand) (hp0 : p.infoMapperAggregator = 0)
    (c : CommandInvocationWithIOVars) (i o i' o' : IOVar) (hd : Described c) (hn : (occurrences c).Nodup)
    (hi : withAccess c .streamInput = [i]) (ho : withAccess c .streamOutput = [o])
    (hi' : i' ∉ occurrences c) (ho' : o' ∉ occurrences c) (hne : o' ≠ i') :
    ∃ m, p.getActualMapper c i' o' [] = .ok (some m) ∧
      { m with accessMap := c.accessMap } = rename (fun v => if v = i then i' else if v = o then o' else v) c ∧
      accessOf m i' = some .streamInput ∧ accessOf m o' = some .streamOutput ∧
      accessOf m i = none ∧ accessOf m o = none ∧
      ∀ v, v ≠ i' → v ≠ o' → v ≠ i → v ≠ o → accessOf m v = accessOf c v := by
  obtain ⟨c1, e1, s1, k1, w1, o1, a1, m1, n1, r1⟩ := substituteKind_spec .streamInput c [i'] hd hn (by simpa using hi')
    (by rw [hi]; rfl)
  have hout : withAccess c1 .streamOutput = [o] := (o1 _ (by simp)).trans ho
  obtain ⟨c2, e2, s2, k2, w2, o2, a2, m2, n2, r2⟩ := substituteKind_spec .streamOutput c1 [o'] (described_of hd a1 m1)
    (n1 (by simp)) (by
      simp only [List.mem_singleton, forall_eq]; rw [m1]; rintro (h | h)
      · exact hne (by simpa using h)
      · exact ho' h.1) (by rw [hout]; rfl)
  have hio : i ∈ occurrences c ∧ accessOf c i = some .streamInput := withAccess_mem.1 (by rw [hi]; simp)
  have hoo : o ∈ occurrences c ∧ accessOf c o = some .streamOutput := withAccess_mem.1 (by rw [ho]; simp)
  have hioo : i ≠ o := by rintro rfl; rw [hio.2] at hoo; exact absurd hoo.2 (by simp)
  have hii : i' ≠ i := fun h => hi' (h ▸ hio.1)
  have hio' : i' ≠ o := fun h => hi' (h ▸ hoo.1)
  have hoi' : o' ≠ i := fun h => ho' (h ▸ hio.1)
  have hoo' : o' ≠ o := fun h => ho' (h ▸ hoo.1)
  have acc : ∀ v, accessOf c2 v = if v = o' then some .streamOutput else if v = o then none
      else if v = i' then some .streamInput else if v = i then none else accessOf c v := by
    intro v
    rw [a2, a1, hout, hi]
    simp only [List.mem_singleton]
  refine ⟨c2, ?_, ?_, ?_, ?_, ?_, ?_, ?_⟩
  · unfold Parallelizer.getActualMapper MapperSpec.getMapper MapperSpec.initialMapper
    rw [hp0, hp]
    simp only [sameCommand, pyAssert, List.length_nil, decide_true, if_true, bind, Except.bind, Bool.not_true,
      Bool.false_eq_true, if_false]
    have : c.substitute [i'] [o'] = .ok c2 := by
      unfold CommandInvocationWithIOVars.substitute
      rw [substituteInputs_eq, e1]
      show c1.substituteOutputs [o'] = _
      rw [substituteOutputs_eq, e2]
    rw [this]
  · have q1 : occurrences c1 = (occurrences c).map (fun v => if v = i then i' else v) := by
      rw [r1, replaceInOrder_one _ _ i i' hi]
      apply List.map_congr_left
      intro v hv
      have : accessOf c v = some .streamInput ↔ v = i := by
        rw [← List.mem_singleton (a := v), ← hi, withAccess_mem]; simp [hv]
      simp only [this]
    have q2 : occurrences c2 = (occurrences c1).map (fun v => if v = o then o' else v) := by
      rw [r2, replaceInOrder_one _ _ o o' hout]
      apply List.map_congr_left
      intro v hv
      have : accessOf c1 v = some .streamOutput ↔ v = o := by
        rw [← List.mem_singleton (a := v), ← hout, withAccess_mem]; simp [hv]
      simp only [this]
    have q3 : occurrences c2 = (occurrences c).map (fun v => if v = i then i' else if v = o then o' else v) := by
      rw [q2, q1, List.map_map]
      apply List.map_congr_left
      intro v _
      simp only [Function.comp]
      by_cases h1 : v = i
      · simp [h1, hio']
      · simp [h1]
    have := eq_rename (s1.trans s2) q3
    rw [this]; rfl
  · rw [acc]; simp [Ne.symm hne, hio']
  · rw [acc]; simp
  · rw [acc]; simp [Ne.symm hoi', hioo, Ne.symm hii]
  · rw [acc]; simp [Ne.symm hoo']
  · intro v h1 h2 h3 h4
    rw [acc]; simp [h1, h2, h3, h4]

example : (10 : IOVar) ∉ occurrences sample ∧ (11 : IOVar) ∉ occurrences sample := by decide +kernel

/-- C40 does not reach options that hold variables: if the only streaming output is the argument of an
`OptionWithIOVar` (for example `sort -o FILE`), no mapper can be made. -/
theorem C40_output_in_option_false (p : Parallelizer) (hp : p.coreMapperSpec = sameCommand)
    (hp0 : p.infoMapperAggregator = 0) (c : CommandInvocationWithIOVars) (i i' o' : IOVar) (hd : Described c)
    (hn : (occurrences c).Nodup) (hi : withAccess c .streamInput = [i]) (ho : withAccess c .streamOutput = [])
    (hi' : i' ∉ occurrences c) (ho' : o' ∉ occurrences c) (hne : o' ≠ i') :
    p.getActualMapper c i' o' [] = .error .assertionError := by
  obtain ⟨c1, e1, s1, k1, w1, o1, a1, m1, n1, r1⟩ := substituteKind_spec .streamInput c [i'] hd hn (by simpa using hi')
    (by rw [hi]; rfl)
  have hout : withAccess c1 .streamOutput = [] := (o1 _ (by simp)).trans ho
  have e2 := substituteKind_error .streamOutput c1 [o'] (described_of hd a1 m1) (n1 (by simp)) (by
      simp only [List.mem_singleton, forall_eq]; rw [m1]; rintro (h | h)
      · exact hne (by simpa using h)
      · exact ho' h.1) (by rw [hout]; simp)
  unfold Parallelizer.getActualMapper MapperSpec.getMapper MapperSpec.initialMapper
  rw [hp0, hp]
  simp only [sameCommand, pyAssert, List.length_nil, decide_true, if_true, bind, Except.bind, Bool.not_true,
    Bool.false_eq_true, if_false]
  have : c.substitute [i'] [o'] = .error .assertionError := by
    unfold CommandInvocationWithIOVars.substitute
    rw [substituteInputs_eq, e1]
    show c1.substituteOutputs [o'] = _
    rw [substituteOutputs_eq, e2, hout]; rfl
  rw [this]

example : ∃ c : CommandInvocationWithIOVars, hiddenVars c = [2] ∧ accessOf c 2 = some .streamOutput ∧ Described c ∧
    (occurrences c).Nodup ∧ withAccess c .streamInput = [1] ∧ withAccess c .streamOutput = [] :=
  ⟨⟨"sort", [.optionVar 0 "-o" (.var 2)], [.var 1], none, none, [(1, .streamInput), (2, .streamOutput)]⟩,
    by decide +kernel, by decide +kernel, by unfold Described; decide +kernel, by decide +kernel, by decide +kernel,
    by decide +kernel⟩

/-- C41. Substitution keeps the access map exact, and each occurrence keeps the access kind of the one it
replaced. -/
theorem C41_consistent (c : CommandInvocationWithIOVars) (ins outs : List IOVar) (hc : Consistent c)
    (hn : (occurrences c).Nodup) (hdis : ∀ v ∈ occurrences c, v ∉ hiddenVars c)
    (hi : ∀ n ∈ ins, n ∉ occurrences c ∧ n ∉ hiddenVars c)
    (ho : ∀ n ∈ outs, n ∉ occurrences c ∧ n ∉ hiddenVars c ∧ n ∉ ins)
    (hin : ins.Nodup) (c' : CommandInvocationWithIOVars) (h : c.substitute ins outs = .ok c') :
    Consistent c' ∧ (occurrences c').map (accessOf c') = (occurrences c).map (accessOf c) ∧
      ∀ v ∈ hiddenVars c, accessOf c' v = accessOf c v := by
  have hd : Described c := fun v hv => (hc v).2 (.inl hv)
  obtain ⟨c1, e1, e2⟩ := bind_ok h
  rw [substituteInputs_eq] at e1
  rw [substituteOutputs_eq] at e2
  have hli : ins.length = (withAccess c .streamInput).length := by
    by_cases hl : ins.length = (withAccess c .streamInput).length
    · exact hl
    · rw [substituteKind_error .streamInput c ins hd hn (fun n hm => (hi n hm).1) hl] at e1; cases e1
  obtain ⟨c1', e1', s1, k1, w1, o1, a1, m1, n1, _⟩ := substituteKind_spec .streamInput c ins hd hn
    (fun n hm => (hi n hm).1) hli
  rw [e1'] at e1; cases e1
  have hf1 : ∀ n ∈ outs, n ∉ occurrences c1 := fun n hm => by
    rw [m1]; rintro (h | h)
    · exact (ho n hm).2.2 h
    · exact (ho n hm).1 h.1
  have hlo : outs.length = (withAccess c1 .streamOutput).length := by
    by_cases hl : outs.length = (withAccess c1 .streamOutput).length
    · exact hl
    · rw [substituteKind_error .streamOutput c1 outs (described_of hd a1 m1) (n1 hin) hf1 hl] at e2; cases e2
  obtain ⟨c2, e2', s2, k2, w2, o2, a2, m2, n2, _⟩ := substituteKind_spec .streamOutput c1 outs (described_of hd a1 m1)
    (n1 hin) hf1 hlo
  rw [e2'] at e2; cases e2
  have hdis1 : ∀ v ∈ occurrences c1, v ∉ hiddenVars c1 := by
    intro v hv
    rw [hiddenVars_shape s1]
    rcases (m1 v).1 hv with h | h
    · exact (hi v h).2
    · exact hdis v h.1
  refine ⟨consistent_of (consistent_of hc s1 hdis a1 m1) s2 hdis1 a2 m2, k2.trans k1, ?_⟩
  intro v hv
  have h1 : v ∉ outs := fun h => (ho v h).2.1 hv
  have h2 : v ∉ withAccess c1 .streamOutput := fun h =>
    hdis1 v (withAccess_mem.1 h).1 (by rw [hiddenVars_shape s1]; exact hv)
  have h3 : v ∉ ins := fun h => (hi v h).2 hv
  have h4 : v ∉ withAccess c .streamInput := fun h => hdis v (withAccess_mem.1 h).1 hv
  rw [a2, if_neg h1, if_neg h2, a1, if_neg h3, if_neg h4]

example : sample.substitute [10] [11] = .ok sample' ∧ (∀ v ∈ occurrences sample, v ∉ hiddenVars sample) ∧
    ∀ n ∈ ([10, 11] : List IOVar), n ∉ occurrences sample ∧ n ∉ hiddenVars sample := by decide +kernel

/-- One operation of a history: a substitution of inputs, of outputs or of both, each with variables that are
distinct and new to the invocation. -/
inductive Substituted : CommandInvocationWithIOVars → CommandInvocationWithIOVars → Prop
  | inputs {c c' : CommandInvocationWithIOVars} (ns : List IOVar) (hf : ∀ n ∈ ns, n ∉ occurrences c ∧ n ∉ hiddenVars c)
      (hn : ns.Nodup) (h : c.substituteInputs ns = .ok c') : Substituted c c'
  | outputs {c c' : CommandInvocationWithIOVars} (ns : List IOVar)
      (hf : ∀ n ∈ ns, n ∉ occurrences c ∧ n ∉ hiddenVars c) (hn : ns.Nodup) (h : c.substituteOutputs ns = .ok c') :
      Substituted c c'
  | both {c c' : CommandInvocationWithIOVars} (ins outs : List IOVar)
      (hf : ∀ n ∈ ins ++ outs, n ∉ occurrences c ∧ n ∉ hiddenVars c) (hn : (ins ++ outs).Nodup)
      (h : c.substitute ins outs = .ok c') : Substituted c c'

/-- A history of such operations. -/
inductive History : CommandInvocationWithIOVars → CommandInvocationWithIOVars → Prop
  | start (c : CommandInvocationWithIOVars) : History c c
  | step {c c' c'' : CommandInvocationWithIOVars} (h : History c c') (s : Substituted c' c'') : History c c''

/-- One substitution of one kind. -/
theorem substituteKind_history (a : AccessKind) {c c' : CommandInvocationWithIOVars} (ns : List IOVar)
    (hc : Consistent c) (hn : (occurrences c).Nodup) (hdis : ∀ v ∈ occurrences c, v ∉ hiddenVars c)
    (hf : ∀ n ∈ ns, n ∉ occurrences c ∧ n ∉ hiddenVars c) (hns : ns.Nodup) (h : substituteKind a c ns = .ok c') :
    (Consistent c' ∧ (occurrences c').Nodup ∧ (∀ v ∈ occurrences c', v ∉ hiddenVars c')) ∧ SameShape c c' ∧
      (occurrences c').map (accessOf c') = (occurrences c).map (accessOf c) ∧
      (∀ v ∈ occurrences c', v ∈ ns ∨ v ∈ occurrences c) := by
  have hd : Described c := fun v hv => (hc v).2 (.inl hv)
  have hl : ns.length = (withAccess c a).length := by
    by_cases hl : ns.length = (withAccess c a).length
    · exact hl
    · rw [substituteKind_error a c ns hd hn (fun n hm => (hf n hm).1) hl] at h; cases h
  obtain ⟨c1, e1, s1, k1, _, _, a1, m1, n1, _⟩ := substituteKind_spec a c ns hd hn (fun n hm => (hf n hm).1) hl
  rw [e1] at h; cases h
  refine ⟨⟨consistent_of hc s1 hdis a1 m1, n1 hns, ?_⟩, s1, k1, fun v hv => ((m1 v).1 hv).imp id (·.1)⟩
  intro v hv
  rw [hiddenVars_shape s1]
  rcases (m1 v).1 hv with h | h
  · exact (hf v h).2
  · exact hdis v h.1

/-- C41 for histories: after any sequence of substitutions with fresh variables the access map still describes
exactly the variables that occur, and the occurrences have, position by position, the access kinds they started
with. -/
theorem C41_history (c c' : CommandInvocationWithIOVars) (hc : Consistent c) (hn : (occurrences c).Nodup)
    (hdis : ∀ v ∈ occurrences c, v ∉ hiddenVars c) (h : History c c') :
    Consistent c' ∧ SameShape c c' ∧ (occurrences c').map (accessOf c') = (occurrences c).map (accessOf c) := by
  have key : (Consistent c' ∧ (occurrences c').Nodup ∧ (∀ v ∈ occurrences c', v ∉ hiddenVars c')) ∧ SameShape c c' ∧
      (occurrences c').map (accessOf c') = (occurrences c).map (accessOf c) := by
    induction h with
    | start => exact ⟨⟨hc, hn, hdis⟩, SameShape.refl _, rfl⟩
    | step _ s ih =>
        obtain ⟨⟨hc1, hn1, hdis1⟩, hs1, hk1⟩ := ih
        cases s with
        | inputs ns hf hns h =>
            rw [substituteInputs_eq] at h
            obtain ⟨i, s, k, _⟩ := substituteKind_history _ ns hc1 hn1 hdis1 hf hns h
            exact ⟨i, hs1.trans s, k.trans hk1⟩
        | outputs ns hf hns h =>
            rw [substituteOutputs_eq] at h
            obtain ⟨i, s, k, _⟩ := substituteKind_history _ ns hc1 hn1 hdis1 hf hns h
            exact ⟨i, hs1.trans s, k.trans hk1⟩
        | both ins outs hf hns h =>
            obtain ⟨c1, e1, e2⟩ := bind_ok h
            rw [substituteInputs_eq] at e1
            rw [substituteOutputs_eq] at e2
            rw [List.nodup_append] at hns
            obtain ⟨⟨i1, i2, i3⟩, s, k, m⟩ := substituteKind_history _ ins hc1 hn1 hdis1
              (fun n hm => hf n (List.mem_append_left _ hm)) hns.1 e1
            obtain ⟨j, s', k', _⟩ := substituteKind_history _ outs i1 i2 i3 (by
              intro n hm
              refine ⟨fun hm' => ?_, ?_⟩
              · rcases m n hm' with h | h
                · exact hns.2.2 n h n hm rfl
                · exact (hf n (List.mem_append_right _ hm)).1 h
              · rw [hiddenVars_shape s]; exact (hf n (List.mem_append_right _ hm)).2) hns.2.1 e2
            exact ⟨j, (hs1.trans s).trans s', (k'.trans k).trans hk1⟩
  exact ⟨key.1.1, key.2.1, key.2.2⟩

/-- The result of substituting in `sample` twice. -/
def sample'' : CommandInvocationWithIOVars :=
  ⟨"cmd", [.flag "-x", .optionIO "-p" (.var 7)], [.str "a", .var 20, .var 2], none, some 11,
    [(7, .configInput), (2, .otherInput), (11, .streamOutput), (20, .streamInput)]⟩

example : History sample sample'' :=
  .step (.step (.start _) (.both (c' := sample') [10] [11] (by decide +kernel) (by decide +kernel) (by decide +kernel)))
    (.inputs [20] (by decide +kernel) (by decide +kernel) (by decide +kernel))

/-- Freshness is needed in C41: swapping the two inputs of a command succeeds but loses an access entry, so that
the result cannot even be read. -/
theorem C41_needs_fresh : ∃ c c' : CommandInvocationWithIOVars, Consistent c ∧ (occurrences c).Nodup ∧
    c.substituteInputs [2, 1] = .ok c' ∧ occurrences c' = [2, 1] ∧ accessOf c' 2 = none ∧
    c'.generateInputs = .error .keyError := by
  refine ⟨⟨"cat", [], [.var 1, .var 2], none, none, [(1, .streamInput), (2, .streamInput)]⟩, _, ?_, by decide +kernel,
    (by decide +kernel : CommandInvocationWithIOVars.substituteInputs _ [2, 1] =
      .ok ⟨"cat", [], [.var 2, .var 1], none, none, [(1, .streamInput)]⟩), by decide +kernel, by decide +kernel,
    by decide +kernel⟩
  intro v
  simp only [accessOf, occurrences, hiddenVars, List.lookup_cons]
  by_cases h1 : v = 1
  · subst h1; simp [varOf]
  by_cases h2 : v = 2
  · subst h2; simp [varOf]
  simp [beq_eq_false_iff_ne.2 h1, beq_eq_false_iff_ne.2 h2, h1, h2, varOf]

/-- C42. Substitution succeeds exactly if the number of variables is the number of streams. -/
theorem C42_numbers_partial (c : CommandInvocationWithIOVars) (ns : List IOVar) (hd : Described c)
    (hn : (occurrences c).Nodup) (hf : ∀ n ∈ ns, n ∉ occurrences c) :
    ((∃ c', c.substituteInputs ns = .ok c') ↔ ns.length = (withAccess c .streamInput).length) ∧
    ((∃ c', c.substituteOutputs ns = .ok c') ↔ ns.length = (withAccess c .streamOutput).length) := by
  have key : ∀ a, (∃ c', substituteKind a c ns = .ok c') ↔ ns.length = (withAccess c a).length := by
    intro a
    constructor
    · rintro ⟨c', h⟩
      by_cases hl : ns.length = (withAccess c a).length
      · exact hl
      · rw [substituteKind_error a c ns hd hn hf hl] at h; cases h
    · intro hl
      obtain ⟨c', h, _⟩ := substituteKind_ok a c ns hd hn hf hl
      exact ⟨c', h⟩
  exact ⟨by rw [substituteInputs_eq]; exact key _, by rw [substituteOutputs_eq]; exact key _⟩

/-- C42, both at once, with the exception raised. -/
theorem C42_rejected_partial (c : CommandInvocationWithIOVars) (ins outs : List IOVar) (hd : Described c)
    (hn : (occurrences c).Nodup) (hi : ∀ n ∈ ins, n ∉ occurrences c) (ho : ∀ n ∈ outs, n ∉ occurrences c ∧ n ∉ ins)
    (hin : ins.Nodup) : (ins.length ≠ (withAccess c .streamInput).length ∨
      outs.length ≠ (withAccess c .streamOutput).length) ↔
      (c.substitute ins outs = .error .indexError ∨ c.substitute ins outs = .error .assertionError) := by
  constructor
  · intro h
    unfold CommandInvocationWithIOVars.substitute
    rw [substituteInputs_eq]
    by_cases hli : ins.length = (withAccess c .streamInput).length
    · obtain ⟨c1, e1, s1, k1, w1, o1, a1, m1, n1, _⟩ := substituteKind_spec .streamInput c ins hd hn hi hli
      have hout : withAccess c1 .streamOutput = withAccess c .streamOutput := o1 _ (by simp)
      have := substituteKind_error .streamOutput c1 outs (described_of hd a1 m1) (n1 hin) (fun n hm => by
        rw [m1]; rintro (h | h)
        · exact (ho n hm).2 h
        · exact (ho n hm).1 h.1) (by rw [hout]; exact h.resolve_left (fun h => h hli))
      rw [e1]
      show c1.substituteOutputs outs = _ ∨ c1.substituteOutputs outs = _
      rw [substituteOutputs_eq, this]
      split
      · exact .inl rfl
      · exact .inr rfl
    · rw [substituteKind_error .streamInput c ins hd hn hi hli]
      split
      · exact .inl rfl
      · exact .inr rfl
  · intro h
    by_cases hli : ins.length = (withAccess c .streamInput).length
    · by_cases hlo : outs.length = (withAccess c .streamOutput).length
      · obtain ⟨c', hc', _⟩ := C40_substitute c ins outs hd hn hi ho hin hli hlo
        rw [hc'] at h
        rcases h with h | h <;> cases h
      · exact .inr hlo
    · exact .inl hli

/-- Freshness is needed in C42: two inputs are accepted for a command with one, if one is the command's output. -/
theorem C42_needs_fresh : ∃ c c' : CommandInvocationWithIOVars, withAccess c .streamInput = [1] ∧
    c.substituteInputs [2, 5] = .ok c' :=
  ⟨⟨"cat", [], [.var 1], none, some 2, [(1, .streamInput), (2, .streamOutput)]⟩, _, by decide +kernel,
    (by decide +kernel : CommandInvocationWithIOVars.substituteInputs _ [2, 5] =
      .ok ⟨"cat", [], [.var 2], none, some 5, [(5, .streamInput)]⟩)⟩

/-- C44. Reading is pure and total on described invocations, and reports exactly the occurrences of that kind, in
order. -/
theorem C44_reading (c : CommandInvocationWithIOVars) (hd : Described c) :
    c.generateInputs = .ok (withAccess c .streamInput, c) ∧
    (∃ outs, c.generateOutputs = .ok (outs, c) ∧
      outs = (occurrences c).filter (fun v => accessOf c v = some .streamOutput ∨ accessOf c v = some .otherOutput)) ∧
    (∃ b, c.hasOtherOutputs = .ok (b, c) ∧ (b = true ↔ ∃ v ∈ occurrences c, accessOf c v = some .otherOutput)) := by
  have conv : ∀ (pred : AccessKind → Bool) (q : IOVar → Prop) [DecidablePred q],
      (∀ v, q v ↔ ∃ a, accessOf c v = some a ∧ pred a = true) →
      (occurrences c).filter (fun v => ((accessOf c v).map pred).getD false) = (occurrences c).filter q := by
    intro pred q _ h
    apply List.filter_congr
    intro v _
    have := h v
    cases hv : accessOf c v with
    | none => simp [hv] at this; simp [this]
    | some a => simp only [Option.map_some, Option.getD_some]; rw [hv] at this; simp at this; simp [this]
  refine ⟨?_, ⟨_, ?_, rfl⟩,
    ⟨decide (((occurrences c).filter (fun v => accessOf c v = some .otherOutput)).length > 0), ?_, ?_⟩⟩
  · unfold CommandInvocationWithIOVars.generateInputs
    rw [collect_ok _ c hd, conv _ (fun v => accessOf c v = some .streamInput)]
    · rfl
    · intro v
      constructor
      · intro h; exact ⟨_, h, rfl⟩
      · rintro ⟨a, h1, h2⟩; rw [h1]; cases a <;> simp [AccessKind.isStreamInput] at h2 ⊢
  · unfold CommandInvocationWithIOVars.generateOutputs
    rw [collect_ok _ c hd, conv _ (fun v => accessOf c v = some .streamOutput ∨ accessOf c v = some .otherOutput)]
    · rfl
    · intro v
      constructor
      · rintro (h | h) <;> exact ⟨_, h, rfl⟩
      · rintro ⟨a, h1, h2⟩; rw [h1]
        cases a <;> simp [AccessKind.isAnyOutput, AccessKind.isStreamOutput, AccessKind.isOtherOutput] at h2 ⊢
  · unfold CommandInvocationWithIOVars.hasOtherOutputs
    rw [collect_ok _ c hd, conv _ (fun v => accessOf c v = some .otherOutput)]
    · rfl
    · intro v
      constructor
      · intro h; exact ⟨_, h, rfl⟩
      · rintro ⟨a, h1, h2⟩; rw [h1]; cases a <;> simp [AccessKind.isOtherOutput] at h2 ⊢
  · rw [decide_eq_true_eq, gt_iff_lt, List.length_pos_iff_exists_mem]
    simp

/-- C44. If some occurring variable has no access entry, all three raise `KeyError`. -/
theorem C44_undescribed (c : CommandInvocationWithIOVars) (hd : ¬ Described c) :
    c.generateInputs = .error .keyError ∧ c.generateOutputs = .error .keyError ∧
      c.hasOtherOutputs = .error .keyError := by
  refine ⟨?_, ?_, ?_⟩
  · unfold CommandInvocationWithIOVars.generateInputs; rw [collect_error _ c hd]; rfl
  · unfold CommandInvocationWithIOVars.generateOutputs; rw [collect_error _ c hd]; rfl
  · unfold CommandInvocationWithIOVars.hasOtherOutputs; rw [collect_error _ c hd]; rfl

/-- C44's completeness is false for variables held by `OptionWithIOVar` options: they are never reported. -/
theorem C44_option_variables_false (c : CommandInvocationWithIOVars) (hd : Described c) (v : IOVar)
    (_hv : v ∈ hiddenVars c) (hno : v ∉ occurrences c) : ∃ ins outs, c.generateInputs = .ok (ins, c) ∧
      c.generateOutputs = .ok (outs, c) ∧ v ∉ ins ∧ v ∉ outs := by
  obtain ⟨h1, ⟨outs, h2, rfl⟩, _⟩ := C44_reading c hd
  exact ⟨_, _, h1, h2, fun h => hno (withAccess_mem.1 h).1, fun h => hno (List.mem_filter.1 h).1⟩

/-- C44, completeness when no option of that class holds a variable. -/
theorem C44_complete_partial (c : CommandInvocationWithIOVars) (hc : Consistent c) (hh : hiddenVars c = []) :
    ∃ ins outs, c.generateInputs = .ok (ins, c) ∧ c.generateOutputs = .ok (outs, c) ∧
      ∀ v, (v ∈ ins ↔ accessOf c v = some .streamInput) ∧
        (v ∈ outs ↔ accessOf c v = some .streamOutput ∨ accessOf c v = some .otherOutput) := by
  have hd : Described c := fun v hv => (hc v).2 (.inl hv)
  obtain ⟨h1, ⟨outs, h2, rfl⟩, _⟩ := C44_reading c hd
  have occ : ∀ v a, accessOf c v = some a → v ∈ occurrences c := by
    intro v a h
    rcases (hc v).1 (by rw [h]; simp) with h | h
    · exact h
    · rw [hh] at h; simp at h
  refine ⟨_, _, h1, h2, fun v => ⟨?_, ?_⟩⟩
  · rw [withAccess_mem]
    exact ⟨fun h => h.2, fun h => ⟨occ v _ h, h⟩⟩
  · rw [List.mem_filter]
    simp only [decide_eq_true_eq]
    constructor
    · exact fun h => h.2
    · intro h
      refine ⟨?_, h⟩
      rcases h with h | h
      · exact occ v _ h
      · exact occ v _ h

example : sample.generateInputs = .ok ([1], sample) ∧ hiddenVars sample = [] := by decide +kernel

/-- C43. Reading back what was substituted. -/
theorem C43_read_back (c : CommandInvocationWithIOVars) (ins outs : List IOVar) (hd : Described c)
    (hn : (occurrences c).Nodup) (hi : ∀ n ∈ ins, n ∉ occurrences c) (ho : ∀ n ∈ outs, n ∉ occurrences c ∧ n ∉ ins)
    (hin : ins.Nodup) (c' : CommandInvocationWithIOVars) (h : c.substitute ins outs = .ok c') :
    c'.generateInputs = .ok (ins, c') ∧
    (withAccess c .otherOutput = [] → c'.generateOutputs = .ok (outs, c')) := by
  have hli : ins.length = (withAccess c .streamInput).length ∧ outs.length = (withAccess c .streamOutput).length := by
    by_cases hx : ins.length ≠ (withAccess c .streamInput).length ∨ outs.length ≠ (withAccess c .streamOutput).length
    · rcases (C42_rejected_partial c ins outs hd hn hi ho hin).1 hx with h' | h' <;> rw [h] at h' <;> cases h'
    · rw [not_or] at hx; exact ⟨Classical.not_not.1 hx.1, Classical.not_not.1 hx.2⟩
  obtain ⟨c'', h', hs, hk, hwi, hwo, hw⟩ := C40_substitute c ins outs hd hn hi ho hin hli.1 hli.2
  rw [h] at h'; cases h'
  have hd' : Described c' := by
    intro v hv hnone
    have : accessOf c' v ∈ (occurrences c).map (accessOf c) := by
      rw [← hk]; exact List.mem_map.2 ⟨v, hv, rfl⟩
    obtain ⟨w, hw, he⟩ := List.mem_map.1 this
    exact hd w hw (he.trans hnone)
  obtain ⟨h1, ⟨outs', h2, rfl⟩, _⟩ := C44_reading c' hd'
  refine ⟨by rw [h1, hwi], fun hoo => ?_⟩
  rw [h2]
  have hno : withAccess c' .otherOutput = [] := (hw _ (by simp) (by simp)).trans hoo
  have : (occurrences c').filter (fun v => accessOf c' v = some .streamOutput ∨ accessOf c' v = some .otherOutput) =
      withAccess c' .streamOutput := by
    unfold withAccess
    apply List.filter_congr
    intro v hv
    have : accessOf c' v ≠ some .otherOutput := by
      intro he
      have := withAccess_mem.2 ⟨hv, he⟩
      rw [hno] at this; simp at this
    simp [this]
  rw [this, hwo]

example : sample.substitute [10] [11] = .ok sample' ∧ withAccess sample .otherOutput = [] := by decide +kernel

/-- C45. Renaming an occurring variable renames its occurrence and moves its access entry, and changes nothing
else. -/
theorem C45_rename_partial (c : CommandInvocationWithIOVars) (v w : IOVar) (a : AccessKind)
    (h1 : (occurrences c).count v = 1) (ha : accessOf c v = some a) :
    ∃ c', c.replaceVar (some v) w = .ok c' ∧
      { c' with accessMap := c.accessMap } = rename (fun x => if x = v then w else x) c ∧
      ∀ x, accessOf c' x = if x = w then some a else if x = v then none else accessOf c x := by
  have hr := gReplace_run_one v w c.accessMap (occurrences c) h1
  rw [show AccessMap.get? c.accessMap v = some a from ha] at hr
  obtain ⟨c', e, o, s, m⟩ := traverse_ok hr
  refine ⟨{ c' with accessMap := AccessMap.set (AccessMap.erase c.accessMap v) w a }, ?_, ?_, ?_⟩
  · unfold CommandInvocationWithIOVars.replaceVar
    rw [replaceFun_eq, e]; rfl
  · have := eq_rename s o
    rw [this]; rfl
  · intro x
    show AccessMap.get? (AccessMap.set (AccessMap.erase c.accessMap v) w a) x = _
    rw [get_set, get_erase]; rfl

/-- C45. Renaming a variable that does not occur, or no variable, changes nothing at all. -/
theorem C45_no_op (c : CommandInvocationWithIOVars) (v : Option IOVar) (w : IOVar)
    (h : ∀ x, v = some x → x ∉ occurrences c) : c.replaceVar v w = .ok c := by
  obtain ⟨c', e, o, s, m⟩ := traverse_ok (gReplace_run_none v w c.accessMap (occurrences c) h)
  unfold CommandInvocationWithIOVars.replaceVar
  rw [replaceFun_eq, e]
  have := shape_ext s o.symm
  obtain ⟨n', f', o', i', u', m'⟩ := c'
  obtain ⟨n, f, o, i, u, m''⟩ := c
  simp only [CommandInvocationWithIOVars.mk.injEq, and_true] at this m ⊢
  obtain ⟨rfl, rfl, rfl, rfl, rfl⟩ := this
  rfl

/-- C45. A variable that occurs several times, or has no access entry, cannot be renamed. -/
theorem C45_rejected (c : CommandInvocationWithIOVars) (v w : IOVar) (hne : v ≠ w)
    (h : 2 ≤ (occurrences c).count v ∨ ((occurrences c).count v = 1 ∧ accessOf c v = none)) :
    c.replaceVar (some v) w = .error .assertionError := by
  unfold CommandInvocationWithIOVars.replaceVar
  rw [replaceFun_eq]
  rcases h with h | ⟨h, ha⟩
  · rw [traverse_error (gReplace_run_two v w c.accessMap (occurrences c) hne h)]; rfl
  · have hr := gReplace_run_one v w c.accessMap (occurrences c) h
    rw [show AccessMap.get? c.accessMap v = none from ha] at hr
    rw [traverse_error hr]; rfl

example : (occurrences sample).count 2 = 1 ∧ accessOf sample 2 = some .otherInput := by decide +kernel

/-- C45. Whenever renaming returns, for any two variables (also equal ones) and any invocation: exactly the
occurrences of the variable are renamed, and its access entry with them; a variable that does not occur changes
nothing. -/
theorem C45_returns_partial (c c' : CommandInvocationWithIOVars) (v w : IOVar) (h : c.replaceVar (some v) w = .ok c') :
    { c' with accessMap := c.accessMap } = rename (fun x => if x = v then w else x) c ∧
    (v ∉ occurrences c → c' = c) ∧
    (v ∈ occurrences c → ∃ a, accessOf c v = some a ∧
      ∀ x, accessOf c' x = if x = w then some a else if x = v then none else accessOf c x) := by
  by_cases hv : v ∈ occurrences c
  · by_cases hne : v = w
    · subst hne
      unfold CommandInvocationWithIOVars.replaceVar at h
      rw [replaceFun_eq] at h
      cases hr : run (gReplace (some v) v) c.accessMap (occurrences c) with
      | error e => rw [traverse_error hr] at h; cases h
      | ok r =>
          obtain ⟨h1, h2, h3⟩ := gReplace_run_same v c.accessMap (occurrences c) r hr
          obtain ⟨c1, e, o, s, m⟩ := traverse_ok (new := r.1) (s' := r.2) hr
          rw [e] at h
          cases h
          have hid : (fun x => if x = v then v else x) = (id : IOVar → IOVar) := by
            funext x; by_cases hx : x = v <;> simp [hx]
          obtain ⟨a, ha⟩ := Option.ne_none_iff_exists'.1 (h2 hv)
          refine ⟨?_, fun hno => absurd hv hno, fun _ => ⟨a, ha, fun x => ?_⟩⟩
          · have := eq_rename (f := fun x => if x = v then v else x) s (by rw [o, h1, hid, List.map_id])
            rw [this]; rfl
          · show AccessMap.get? r.2 x = _
            rw [h3]
            by_cases hx : x = v
            · rw [hx, ha]; simp
            · simp [hx]; rfl
    · have hc : 0 < (occurrences c).count v := List.count_pos_iff.2 hv
      by_cases h2 : 2 ≤ (occurrences c).count v
      · rw [C45_rejected c v w hne (.inl h2)] at h; cases h
      · have h1 : (occurrences c).count v = 1 := by omega
        cases ha : accessOf c v with
        | none => rw [C45_rejected c v w hne (.inr ⟨h1, ha⟩)] at h; cases h
        | some a =>
            obtain ⟨c1, e1, e2, e3⟩ := C45_rename_partial c v w a h1 ha
            rw [e1] at h; cases h
            exact ⟨e2, fun hno => absurd hv hno, fun _ => ⟨a, rfl, e3⟩⟩
  · rw [C45_no_op c (some v) w (fun x hx => by cases hx; exact hv)] at h
    cases h
    refine ⟨?_, fun _ => rfl, fun h => absurd h hv⟩
    have := eq_rename (c := c) (c' := c) (f := fun x => if x = v then w else x) (SameShape.refl c) (by
      conv => lhs; rw [← List.map_id (occurrences c)]
      apply List.map_congr_left
      intro x hx
      have : x ≠ v := fun he => hv (he ▸ hx)
      simp [this])
    exact this

/-- C45 is false for variables held by `OptionWithIOVar` options: they are not renamed. -/
theorem C45_option_variables_false (c : CommandInvocationWithIOVars) (v w : IOVar) (hv : v ∈ hiddenVars c)
    (hno : v ∉ occurrences c) : ∃ c', c.replaceVar (some v) w = .ok c' ∧ v ∈ hiddenVars c' ∧
      accessOf c' v = accessOf c v :=
  ⟨c, C45_no_op c (some v) w (fun x hx => by cases hx; exact hno), hv, rfl⟩

example : (2 : IOVar) ∈ hiddenVars ⟨"sort", [.optionVar 0 "-o" (.var 2)], [.var 1], none, none,
    [(1, .streamInput), (2, .streamOutput)]⟩ := by decide +kernel

/-- The occurrences that removal keeps. -/
def kept (c : CommandInvocationWithIOVars) (a : AccessKind) : CommandInvocationWithIOVars :=
  { c with operandList := c.operandList.filter (fun x => ∀ v ∈ varOf x, accessOf c v ≠ some a)
           implicitInput := c.implicitInput.filter (fun v => accessOf c v ≠ some a)
           implicitOutput := c.implicitOutput.filter (fun v => accessOf c v ≠ some a) }

/-- C46. Removing streams: operands and implicit streams with that access go, everything else stays in order, and
the access map loses exactly the removed variables. -/
theorem C46_remove (c : CommandInvocationWithIOVars) (hd : Described c) (hn : (occurrences c).Nodup) :
    ((∀ v ∈ c.flagOptionList.flatMap optionVar, accessOf c v ≠ some .streamInput) →
      ∃ c', c.removeStreamingInputs = .ok c' ∧
        { c' with accessMap := c.accessMap } = kept c .streamInput ∧
        occurrences c' = (occurrences c).filter (fun v => accessOf c v ≠ some .streamInput) ∧
        ∀ v, accessOf c' v = if v ∈ withAccess c .streamInput then none else accessOf c v) ∧
    ((∀ v ∈ c.flagOptionList.flatMap optionVar, accessOf c v ≠ some .streamOutput) →
      ∃ c', c.removeStreamingOutputs = .ok c' ∧
        { c' with accessMap := c.accessMap } = kept c .streamOutput ∧
        occurrences c' = (occurrences c).filter (fun v => accessOf c v ≠ some .streamOutput) ∧
        ∀ v, accessOf c' v = if v ∈ withAccess c .streamOutput then none else accessOf c v) := by
  have occ : ∀ a, (∀ v ∈ c.flagOptionList.flatMap optionVar, accessOf c v ≠ some a) →
      occurrences (kept c a) = (occurrences c).filter (fun v => accessOf c v ≠ some a) := by
    intro a hopt
    unfold occurrences kept
    simp only [List.filter_append]
    congr 1
    · congr 1
      · congr 1
        · exact (List.filter_eq_self.2 (fun v hv => by simpa using hopt v hv)).symm
        · generalize c.operandList = l
          induction l with
          | nil => rfl
          | cons x l ih =>
              rw [List.flatMap_cons, List.filter_append, ← ih, List.filter_cons]
              cases x with
              | var v =>
                  by_cases hv : accessOf c v = some a
                  · simp [varOf_var, hv]
                  · simp [varOf_var, hv]
              | str => simp [varOf]
              | io => simp [varOf]
      · cases c.implicitInput with
        | none => rfl
        | some v => by_cases hv : accessOf c v = some a <;> simp [Option.filter, hv]
    · cases c.implicitOutput with
      | none => rfl
      | some v => by_cases hv : accessOf c v = some a <;> simp [Option.filter, hv]
  constructor
  · intro hopt
    obtain ⟨m', h1, h2⟩ := remove_ok .streamInput AccessKind.isStreamInput (by intro b; cases b <;> rfl) c hd hn hopt
    refine ⟨{ kept c .streamInput with accessMap := m' }, ?_, rfl, occ _ hopt, h2⟩
    unfold CommandInvocationWithIOVars.removeStreamingInputs
    rw [h1]; rfl
  · intro hopt
    obtain ⟨m', h1, h2⟩ := remove_ok .streamOutput AccessKind.isStreamOutput (by intro b; cases b <;> rfl) c hd hn hopt
    refine ⟨{ kept c .streamOutput with accessMap := m' }, ?_, rfl, occ _ hopt, h2⟩
    unfold CommandInvocationWithIOVars.removeStreamingOutputs
    rw [h1]; rfl

example : ∃ c', sample.removeStreamingInputs = .ok c' ∧ c'.operandList = [.str "a", .var 2] ∧
    ∀ v ∈ sample.flagOptionList.flatMap optionVar, accessOf sample v ≠ some .streamInput :=
  ⟨⟨"cmd", [.flag "-x", .optionIO "-p" (.var 7)], [.str "a", .var 2], none, some 3,
    [(7, .configInput), (2, .otherInput), (3, .streamOutput)]⟩, by decide +kernel⟩

/-- C46 for every invocation for which removal returns, without any hypothesis about it: what is left, what the
access map says, and that nothing of that kind is left anywhere. -/
theorem C46_returns (c c' : CommandInvocationWithIOVars) (a : AccessKind)
    (h : (a = .streamInput ∧ c.removeStreamingInputs = .ok c') ∨ (a = .streamOutput ∧ c.removeStreamingOutputs = .ok c')) :
    { c' with accessMap := c.accessMap } = kept c a ∧ withAccess c' a = [] ∧
      ∀ v, accessOf c' v = if v ∈ withAccess c a then none else accessOf c v := by
  have key : ∀ (pred : AccessKind → Bool) (hp : ∀ b, pred b = decide (b = a))
      (r : CommandInvocationWithIOVars × AccessMap)
      (_ : flatMapAnythingNonNames (removeFun pred) c.accessMap c = .ok r) (_ : c' = { r.1 with accessMap := r.2 }),
      { c' with accessMap := c.accessMap } = kept c a ∧ withAccess c' a = [] ∧
      ∀ v, accessOf c' v = if v ∈ withAccess c a then none else accessOf c v := by
    intro pred hp r hr hc'
    obtain ⟨h1, h2, h3, h4⟩ := remove_inv a pred hp c r hr
    subst hc'
    have hacc : ∀ v, accessOf { r.1 with accessMap := r.2 } v = if v ∈ withAccess c a then none else accessOf c v := h4
    refine ⟨by rw [h1]; rfl, ?_, hacc⟩
    apply List.eq_nil_iff_forall_not_mem.2
    intro v hv
    obtain ⟨ho, ha⟩ := withAccess_mem.1 hv
    rw [hacc] at ha
    split at ha
    · cases ha
    · rename_i hw
      apply hw
      refine withAccess_mem.2 ⟨?_, ha⟩
      rw [h1] at ho
      simp only [occurrences, List.mem_append, List.mem_flatMap, List.mem_filter, Option.mem_toList,
        Option.filter_eq_some_iff] at ho ⊢
      rcases ho with ((⟨x, hx, hx'⟩ | ⟨x, hx, hx'⟩) | hx) | hx
      · exact .inl (.inl (.inl ⟨x, hx, hx'⟩))
      · exact .inl (.inl (.inr ⟨x, hx.1, hx'⟩))
      · exact .inl (.inr hx.1)
      · exact .inr hx.1
  rcases h with ⟨rfl, h⟩ | ⟨rfl, h⟩
  · obtain ⟨r, hr, h⟩ := bind_ok h
    cases h
    exact key _ (by intro b; cases b <;> rfl) r hr rfl
  · obtain ⟨r, hr, h⟩ := bind_ok h
    cases h
    exact key _ (by intro b; cases b <;> rfl) r hr rfl

/-- C46: when it does not return. A stream in an `OptionWithIO` option, or a variable without access entry, makes
removal raise an exception. -/
theorem C46_not_returning (c : CommandInvocationWithIOVars) (a : AccessKind)
    (h : ¬ Described c ∨ ∃ v ∈ c.flagOptionList.flatMap optionVar, accessOf c v = some a) :
    (a = .streamInput → ∀ c', c.removeStreamingInputs ≠ .ok c') ∧
    (a = .streamOutput → ∀ c', c.removeStreamingOutputs ≠ .ok c') := by
  have key : ∀ (pred : AccessKind → Bool) (hp : ∀ b, pred b = decide (b = a)) (r : _),
      flatMapAnythingNonNames (removeFun pred) c.accessMap c ≠ .ok r := by
    intro pred hp r hr
    obtain ⟨_, h2, h3, _⟩ := remove_inv a pred hp c r hr
    rcases h with h | ⟨v, hv, ha⟩
    · exact h h2
    · exact h3 v hv ha
  constructor
  · rintro rfl c' h
    obtain ⟨r, hr, _⟩ := bind_ok h
    exact key _ (by intro b; cases b <;> rfl) r hr
  · rintro rfl c' h
    obtain ⟨r, hr, _⟩ := bind_ok h
    exact key _ (by intro b; cases b <;> rfl) r hr

end PashAnn
