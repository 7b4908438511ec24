import Verif.Spec.Runs
import Verif.Props.Lines
import Verif.Props.AuxPlans

/-! C108: when a parallelizer that is offered can be carried out. -/

namespace PashAnn
open Spec

theorem accessIn_fileOf (a : AccessKind) (s : String) : accessIn (fileOf a s) = a := by
  unfold fileOf
  split
  · cases a <;> rfl
  · rfl

/-- The variables of an invocation stand for its operands and implicit streams. -/
theorem stands_occurrences {what : IOVar → FileWithIO} {c : CommandInvocationWithIO} {v : CommandInvocationWithIOVars}
    (h : StandsFor what c v) : v.flagOptionList.flatMap optionVar = [] ∧ (occurrences v).map what = streamsOf c := by
  have hov : v.flagOptionList.flatMap optionVar = [] := by
    refine List.flatMap_eq_nil_iff.2 fun x hx => ?_
    obtain ⟨f, _, hs⟩ := h.options.mem_right hx
    cases hs <;> rfl
  refine ⟨hov, ?_⟩
  have hops : ∀ {l : List ArgWithIO} {m : List VArg}, Pointwise (ArgStands what) l m →
      (m.flatMap varOf).map what = l.filterMap fileIn := by
    intro l m hp
    induction hp with
    | nil => rfl
    | cons ha _ ih => cases ha <;> simp [varOf, ih, fileIn, List.filterMap_cons]
  unfold occurrences streamsOf
  rw [hov, ← h.input, ← h.output]
  simp only [List.nil_append, List.map_append, hops h.operands]
  cases v.implicitInput <;> cases v.implicitOutput <;> rfl

theorem stands_withAccess {what : IOVar → FileWithIO} {c : CommandInvocationWithIO} {v : CommandInvocationWithIOVars}
    (h : StandsFor what c v) (a : AccessKind) : (withAccess v a).map what = streamsWith c a := by
  have hacc : ∀ u ∈ occurrences v, accessOf v u = some (accessIn (what u)) := fun u hu =>
    h.access u (List.mem_append_left _ hu)
  unfold withAccess streamsWith
  rw [← (stands_occurrences h).2, List.filter_map]
  congr 1
  refine List.filter_congr fun u hu => ?_
  simp [hacc u hu]

/-- What is offered either runs the command itself or, for two test commands, another one. -/
theorem offered_mapper {inv : CommandInvocationInitial} {p : Parallelizer} (h : Offered inv p)
    (hb : inv.cmdName ≠ "bigrams_aux") : p.infoMapperAggregator = 0 ∧
      (p.coreMapperSpec = sameCommand ∨ p.coreMapperSpec = ⟨.custom, some "alt_bigrams_aux", .custom [], true⟩) := by
  obtain ⟨i, hi, hp⟩ := offered_iff.1 h
  obtain ⟨plans, comm, ho, hpl, -, -⟩ := (C64_table _ _).1 hi
  have key : ∀ q ∈ plans, q.infoMapperAggregator = 0 ∧
      (q.coreMapperSpec = sameCommand ∨ q.coreMapperSpec = ⟨.custom, some "alt_bigrams_aux", .custom [], true⟩) := by
    intro q hq
    cases ho <;> simp only [bothPlans, List.mem_cons, List.not_mem_nil, or_false] at hq
    all_goals first
      | exact absurd ‹_› hb
      | (rcases hq with rfl | rfl <;> exact ⟨rfl, .inl rfl⟩)
      | (subst hq; exact ⟨rfl, .inl rfl⟩)
      | (subst hq; exact ⟨rfl, .inr rfl⟩)
  rcases hp with hp | ⟨_, q, hq, _, rfl⟩
  · exact key p (hpl ▸ hp)
  · exact key q (hpl ▸ hq)

/-- The mapper before substitution is about the same variables. -/
theorem initial_stands {what : IOVar → FileWithIO} {c : CommandInvocationWithIO} {v : CommandInvocationWithIOVars}
    (h : StandsFor what c v) {ms : MapperSpec}
    (hm : ms = sameCommand ∨ ms = ⟨.custom, some "alt_bigrams_aux", .custom [], true⟩) :
    occurrences (ms.initialMapper v) = occurrences v ∧ accessOf (ms.initialMapper v) = accessOf v := by
  rcases hm with rfl | rfl
  · exact ⟨rfl, rfl⟩
  · refine ⟨?_, rfl⟩
    unfold occurrences
    rw [(stands_occurrences h).1]
    rfl

theorem mapper_substitute {p : Parallelizer} (v : CommandInvocationWithIOVars) (i o : IOVar) (h0 : p.infoMapperAggregator = 0)
    (hi : p.coreMapperSpec.isImplemented = true) : p.getActualMapper v i o [] =
      ((p.coreMapperSpec.initialMapper v).substitute [i] [o]).bind fun m => .ok (some m) := by
  unfold Parallelizer.getActualMapper MapperSpec.getMapper
  simp only [hi, h0, List.length_nil, decide_true, pyAssert, if_true, Bool.not_true, Bool.false_eq_true, if_false]
  rfl

/-- C108 in terms of the typed invocation: with new variables, the mapper is made if and only if the invocation reads one
stream and writes one; otherwise an error is raised. -/
theorem C108_streams {inv : CommandInvocationInitial} {c : CommandInvocationWithIO} {what : IOVar → FileWithIO}
    {v : CommandInvocationWithIOVars} {p : Parallelizer} (hs : StandsFor what c v) (ho : Offered inv p)
    (hb : inv.cmdName ≠ "bigrams_aux") (i o : IOVar) (hi : Unused v i) (hoo : Unused v o) (hne : o ≠ i) :
    (OneInOneOut c ↔ ∃ m, p.getActualMapper v i o [] = .ok (some m)) ∧
    (¬ OneInOneOut c → p.getActualMapper v i o [] = .error .indexError ∨
      p.getActualMapper v i o [] = .error .assertionError) := by
  obtain ⟨h0, hm⟩ := offered_mapper ho hb
  have himpl : p.coreMapperSpec.isImplemented = true := by rcases hm with hm | hm <;> rw [hm] <;> rfl
  obtain ⟨hocc, hacc⟩ := initial_stands hs hm
  rw [mapper_substitute v i o h0 himpl]
  generalize p.coreMapperSpec.initialMapper v = w at hocc hacc
  have hw : ∀ a, (withAccess w a).length = (streamsWith c a).length := by
    intro a
    rw [← stands_withAccess hs a, List.length_map]
    unfold withAccess
    rw [hocc, hacc]
  have hd : Described w := by
    intro u hu
    rw [hocc] at hu
    rw [hacc, hs.access u (List.mem_append_left _ hu)]
    simp
  have hn : (occurrences w).Nodup := hocc ▸ (List.nodup_append.1 hs.distinct).1
  have hi' : ∀ n ∈ [i], n ∉ occurrences w := by simpa [hocc] using hi.1
  have ho' : ∀ n ∈ [o], n ∉ occurrences w ∧ n ∉ [i] := by simpa [hocc] using ⟨hoo.1, hne⟩
  have hrej := C42_rejected_partial w [i] [o] hd hn hi' ho' (by simp)
  simp only [List.length_singleton, hw] at hrej
  have bad : ¬ OneInOneOut c → w.substitute [i] [o] = .error .indexError ∨ w.substitute [i] [o] = .error .assertionError :=
    fun h => hrej.1 (by unfold OneInOneOut at h; omega)
  refine ⟨⟨fun h => ?_, fun ⟨m, hm⟩ => ?_⟩, fun h => ?_⟩
  · obtain ⟨m, he, _⟩ := C40_substitute w [i] [o] hd hn hi' ho' (by simp) (by rw [hw]; exact h.1.symm) (by rw [hw]; exact h.2.symm)
    exact ⟨m, by rw [he]; rfl⟩
  · refine Classical.byContradiction fun hx => ?_
    rcases bad hx with h | h <;> rw [h] at hm <;> cases hm
  · rcases bad h with h | h <;> rw [h]
    · exact .inl rfl
    · exact .inr rfl

theorem filterMap_strings (l : List String) :
    (strings l).filterMap fileIn = ([] : List FileWithIO) := by
  simp [strings, List.filterMap_map, fileIn]

theorem filterMap_files (a : AccessKind) (l : List String) :
    (files a l).filterMap fileIn = l.map (fileOf a) := by
  simp [files, List.filterMap_map, Function.comp_def, fileIn]

theorem filter_fileOf (a b : AccessKind) (l : List String) :
    ((l.map (fileOf a)).filter fun f => decide (accessIn f = b)).length = if a = b then l.length else 0 := by
  rw [List.filter_map]
  by_cases h : a = b
  · subst h; simp [Function.comp_def, accessIn_fileOf]
  · simp [Function.comp_def, accessIn_fileOf, h]

/-- What the offer says about the invocation. -/
theorem offered_facts {inv : CommandInvocationInitial} {p : Parallelizer} (h : Offered inv p) :
    inv.cmdName ∈ parCommands ∧ (inv.cmdName = "grep" → ¬ Has inv "-q") ∧
      (inv.cmdName ∈ ["sort", "custom_sort"] → ¬ Has inv "--files0-from") ∧ (inv.cmdName = "sed" → inv.operandList ≠ []) := by
  obtain ⟨i, hi, hp⟩ := offered_iff.1 h
  obtain ⟨plans, comm, ho, hpl, -, -⟩ := (C64_table _ _).1 hi
  have hne : plans ≠ [] := by
    rintro rfl
    rcases hp with hp | ⟨_, q, hq, _⟩
    · rw [hpl] at hp; cases hp
    · rw [hpl] at hq; cases hq
  cases ho with
  | conc hc =>
      simp only [List.mem_cons, List.not_mem_nil, or_false] at hc
      rcases hc with h | h | h | h <;> simp [h, parCommands]
  | test hc =>
      simp only [List.mem_cons, List.not_mem_nil, or_false] at hc
      rcases hc with h | h <;> simp [h, parCommands]
  | setDiff h | altBigrams h | bigrams h => simp [h, parCommands]
  | sort hc hx =>
      simp only [List.mem_cons, List.not_mem_nil, or_false] at hc
      have : ¬ Has inv "--files0-from" := fun hh => hx ⟨_, by simp [sortStops], hh⟩
      rcases hc with h | h <;> simp [h, parCommands, this]
  | grep h hq => simp [h, parCommands, hq]
  | sed h hops | sedStop h hops => simp [h, parCommands, hops]
  | tr h | trSets h | trDelete h | trSqueeze h | uniq h | uniqCount h => simp [h, parCommands]
  | sortStop | grepStop | uniqStop => exact absurd rfl hne

/-- Counting streams. -/
theorem count_streams {c : CommandInvocationWithIO} {texts : List String} {a : AccessKind} {l outs : List String}
    (h : c.operandList = strings texts ++ files a l ++ files .streamOutput outs) {i o : Prop}
    (hi : i ∧ c.implicitInput = some stdinStream ∨ ¬ i ∧ c.implicitInput = none)
    (ho : o ∧ c.implicitOutput = some stdoutStream ∨ ¬ o ∧ c.implicitOutput = none) (ha : a ≠ .streamOutput) :
    OneInOneOut c ↔ ((a = .streamInput ∧ (l.length = 1 ∧ ¬ i ∨ l.length = 0 ∧ i)) ∨ a ≠ .streamInput ∧ i) ∧
      (outs.length = 1 ∧ ¬ o ∨ outs.length = 0 ∧ o) := by
  unfold OneInOneOut streamsWith streamsOf
  simp only [h, List.filterMap_append, filterMap_strings, filterMap_files, List.filter_append, List.length_append,
    filter_fileOf, List.nil_append]
  rw [if_neg ha, if_neg (by decide : ¬ AccessKind.streamOutput = AccessKind.streamInput), if_pos trivial]
  have e1 : accessIn stdinStream = .streamInput := rfl
  have e2 : accessIn stdoutStream = .streamOutput := rfl
  by_cases hs : a = .streamInput
  all_goals
    rcases hi with ⟨hi, h1⟩ | ⟨hi, h1⟩ <;> rcases ho with ⟨ho, h2⟩ | ⟨ho, h2⟩ <;>
    simp [h1, h2, e1, e2, hs, hi, ho]

/-- One streaming input and one streaming output, command by command. -/
theorem oneInOneOut_iff {inv : CommandInvocationInitial} {c : CommandInvocationWithIO} {p : Parallelizer} (ht : Typed inv c)
    (hf : Offered inv p) (hb : inv.cmdName ≠ "bigrams_aux") : OneInOneOut c ↔ OneWorker inv := by
  obtain ⟨-, -, si, so, hr, hi, ho⟩ := C63_table inv c ht
  obtain ⟨hpar, hgrep, hsort, hsed⟩ := offered_facts hf
  have count := fun {texts a l outs} (h : c.operandList = strings texts ++ files a l ++ files .streamOutput outs) ha =>
    count_streams h hi ho ha
  generalize hol : c.operandList = ol at hr
  have hpar' : ∀ n, n ∉ parCommands → inv.cmdName ≠ n := fun n hn he => hn (he ▸ hpar)
  have dead : ∀ n, n ∉ parCommands → inv.cmdName = n → (OneInOneOut c ↔ OneWorker inv) := fun n hn he => absurd he (hpar' n hn)
  cases hr with
  | filter hc =>
      simp only [List.mem_cons, List.not_mem_nil, or_false] at hc
      rcases hc with h | h | h | h
      · exact dead _ (by decide) h
      · rw [count (texts := []) (a := .streamInput) (l := inv.operandList) (outs := []) (by simpa [files, strings] using hol)
          (by decide)]
        constructor
        · intro hx
          refine .cut h ?_
          rcases hx.1 with ⟨_, hx | hx⟩ | hx
          · omega
          · omega
          · exact absurd rfl hx.1
        · intro hw
          have hl : inv.operandList.length ≤ 1 := by
            cases hw with
            | cut _ hl => exact hl
            | always hc | sort hc | stdin hc | grepOption hc | grepOperand hc | sed hc => simp [h] at hc
          refine ⟨.inl ⟨rfl, ?_⟩, .inr ⟨rfl, trivial⟩⟩
          rw [← List.length_eq_zero_iff]
          omega
      · exact dead _ (by decide) h
      · exact dead _ (by decide) h
  | wc h => exact dead _ (by decide) h
  | sort hc =>
      have h0 := hsort hc
      rw [count (texts := []) (a := .streamInput) (l := inv.operandList) (outs := []) (by simpa [files, strings] using hol)
          (by decide), ← List.length_eq_zero_iff]
      simp only [List.mem_cons, List.not_mem_nil, or_false] at hc
      constructor
      · intro hx
        refine .sort (by simpa [or_comm] using hc) ?_ ?_
        · rcases hx.1 with ⟨_, hx | hx⟩ | hx
          · omega
          · omega
          · exact absurd rfl hx.1
        · rcases hx.2 with hx | hx
          · simp at hx
          · exact hx.2
      · intro hw
        have hl : inv.operandList.length ≤ 1 ∧ ¬ Has inv "-o" := by
          cases hw with
          | sort _ hl hno => exact ⟨hl, hno⟩
          | always hc' | cut hc' | stdin hc' | grepOption hc' | grepOperand hc' | sed hc' =>
              rcases hc with h | h <;> simp [h] at hc'
        refine ⟨.inl ⟨rfl, ?_⟩, .inr ⟨rfl, hl.2⟩⟩
        have := hl.1
        simp only [h0, not_false_eq_true, and_true]
        omega
  | grepOption h hh =>
      rw [count (texts := []) (a := .streamInput) (l := inv.operandList) (outs := []) (by simpa [files, strings] using hol)
          (by decide), ← List.length_eq_zero_iff]
      constructor
      · intro hx
        refine .grepOption h hh ?_
        rcases hx.1 with ⟨_, hx | hx⟩ | hx
        · omega
        · omega
        · exact absurd rfl hx.1
      · intro hw
        have hl : inv.operandList.length ≤ 1 := by
          cases hw with
          | grepOption _ _ hl => exact hl
          | grepOperand _ hno => exact absurd hh hno
          | always hc | sort hc | stdin hc | cut hc | sed hc => simp [h] at hc
        exact ⟨.inl ⟨rfl, by omega⟩, .inr ⟨rfl, hgrep h⟩⟩
  | awkOption h => exact dead _ (by decide) h
  | sedOption h hh =>
      rw [count (texts := []) (a := .streamInput) (l := inv.operandList) (outs := []) (by simpa [files, strings] using hol)
          (by decide)]
      constructor
      · intro hx
        rcases hx.1 with ⟨_, hx | hx⟩ | hx
        · exact absurd trivial hx.2
        · exact absurd (List.length_eq_zero_iff.1 hx.1) (hsed h)
        · exact absurd rfl hx.1
      · intro hw
        cases hw with
        | sed _ hno => exact absurd hh hno
        | always hc | sort hc | stdin hc | cut hc | grepOption hc | grepOperand hc => simp [h] at hc
  | @grepOperand x xs h hh hops =>
      rw [count (texts := [x]) (a := .streamInput) (l := xs) (outs := []) (by simpa [files, strings] using hol)
          (by decide), ← List.length_eq_zero_iff]
      constructor
      · intro hx
        refine .grepOperand h hh ?_
        rw [hops, List.length_cons]
        rcases hx.1 with ⟨_, hx | hx⟩ | hx
        · omega
        · omega
        · exact absurd rfl hx.1
      · intro hw
        have hl : inv.operandList.length ≤ 2 := by
          cases hw with
          | grepOperand _ _ hl => exact hl
          | grepOption _ hno => exact absurd hno hh
          | always hc | sort hc | stdin hc | cut hc | sed hc => simp [h] at hc
        rw [hops, List.length_cons] at hl
        exact ⟨.inl ⟨rfl, by omega⟩, .inr ⟨rfl, hgrep h⟩⟩
  | awkOperand h => exact dead _ (by decide) h
  | @sedOperand x xs h hh hops =>
      rw [count (texts := [x]) (a := .streamInput) (l := xs) (outs := []) (by simpa [files, strings] using hol) (by decide)]
      constructor
      · intro hx
        refine .sed h hh ?_
        rw [hops, List.length_cons]
        rcases hx.1 with ⟨_, hx | hx⟩ | hx
        · exact absurd trivial hx.2
        · omega
        · exact absurd rfl hx.1
      · intro hw
        have hl : inv.operandList.length = 1 := by
          cases hw with
          | sed _ _ hl => exact hl
          | always hc | sort hc | stdin hc | cut hc | grepOption hc | grepOperand hc => simp [h] at hc
        rw [hops, List.length_cons] at hl
        exact ⟨.inl ⟨rfl, .inr ⟨by omega, trivial⟩⟩, .inr ⟨rfl, trivial⟩⟩
  | both hc =>
      rw [count (texts := []) (a := .streamInput) (l := inv.operandList) (outs := []) (by simpa [files, strings] using hol)
          (by decide)]
      simp only [List.mem_cons, List.not_mem_nil, or_false] at hc
      constructor
      · intro hx
        refine .stdin ?_ ?_
        · rcases hc with h | h | h | h | h
          · simp [h]
          · exact absurd h hb
          all_goals simp [h]
        · rcases hx.1 with ⟨_, hx | hx⟩ | hx
          · exact absurd trivial hx.2
          · exact List.length_eq_zero_iff.1 hx.1
          · exact absurd rfl hx.1
      · intro hw
        have hl : inv.operandList = [] := by
          cases hw with
          | stdin _ hl => exact hl
          | always hc' | sort hc' | sed hc' | cut hc' | grepOption hc' | grepOperand hc' =>
              rcases hc with h | h | h | h | h <;> simp [h] at hc'
        exact ⟨.inl ⟨rfl, .inr ⟨by simp [hl], trivial⟩⟩, .inr ⟨rfl, trivial⟩⟩
  | operandsOnly hc =>
      simp only [List.mem_cons, List.not_mem_nil, or_false] at hc
      rcases hc with h | h <;> exact dead _ (by decide) h
  | comm h => exact dead _ (by decide) h
  | stringFilter hc =>
      rw [count (texts := inv.operandList) (a := .streamInput) (l := []) (outs := []) (by simpa [files, strings] using hol)
          (by decide)]
      simp only [List.mem_cons, List.not_mem_nil, or_false] at hc
      exact ⟨fun _ => .always (by rcases hc with h | h | h <;> simp [h]),
        fun _ => ⟨.inl ⟨rfl, .inr ⟨rfl, trivial⟩⟩, .inr ⟨rfl, trivial⟩⟩⟩
  | seq h => exact dead _ (by decide) h
  | @setDiff x h hops =>
      rw [count (texts := []) (a := .configInput) (l := [x]) (outs := []) (by simpa [files, strings] using hol)
          (by decide)]
      exact ⟨fun _ => .always (by simp [h]), fun _ => ⟨.inr ⟨by decide, trivial⟩, .inr ⟨rfl, trivial⟩⟩⟩
  | tee h => exact dead _ (by decide) h
  | remove hc =>
      simp only [List.mem_cons, List.not_mem_nil, or_false] at hc
      rcases hc with h | h <;> exact dead _ (by decide) h
  | mvOperand h => exact dead _ (by decide) h
  | mvOption h => exact dead _ (by decide) h
  | uniq0 h hops =>
      rw [count (texts := []) (a := .streamInput) (l := []) (outs := []) (by simpa [files, strings] using hol) (by decide)]
      exact ⟨fun _ => .always (by simp [h]), fun _ => ⟨.inl ⟨rfl, .inr ⟨rfl, trivial⟩⟩, .inr ⟨rfl, trivial⟩⟩⟩
  | @uniq1 x h hops =>
      rw [count (texts := []) (a := .streamInput) (l := [x]) (outs := []) (by simpa [files, strings] using hol) (by decide)]
      exact ⟨fun _ => .always (by simp [h]), fun _ => ⟨.inl ⟨rfl, .inl ⟨rfl, id⟩⟩, .inr ⟨rfl, trivial⟩⟩⟩
  | @uniq2 x y h hops =>
      rw [count (texts := []) (a := .streamInput) (l := [x]) (outs := [y]) (by simpa [files, strings] using hol) (by decide)]
      exact ⟨fun _ => .always (by simp [h]), fun _ => ⟨.inl ⟨rfl, .inl ⟨rfl, id⟩⟩, .inl ⟨rfl, id⟩⟩⟩

/-- C108, exactly, for every invocation that is typed and has a parallelizer: with new variables, the mapper is made if
and only if the invocation reads one stream and writes one that are not arguments of options, which is the case for the
invocations in `OneWorker`; for the others an error is raised, and no mapper is made that would lose an input. -/
theorem C108_exact {inv : CommandInvocationInitial} {c : CommandInvocationWithIO} {what : IOVar → FileWithIO}
    {v : CommandInvocationWithIOVars} {p : Parallelizer} (ht : Typed inv c) (hs : StandsFor what c v) (ho : Offered inv p)
    (hb : inv.cmdName ≠ "bigrams_aux") (i o : IOVar) (hi : Unused v i) (hoo : Unused v o) (hne : o ≠ i) :
    (OneWorker inv ↔ ∃ m, p.getActualMapper v i o [] = .ok (some m)) ∧
    (¬ OneWorker inv → p.getActualMapper v i o [] = .error .indexError ∨
      p.getActualMapper v i o [] = .error .assertionError) := by
  rw [← oneInOneOut_iff ht ho hb]
  exact C108_streams hs ho hb i o hi hoo hne

/-- The operands of a `bigrams_aux` are different variables with an access kind. -/
theorem bigrams_operands {inv : CommandInvocationInitial} {c : CommandInvocationWithIO} {what : IOVar → FileWithIO}
    {v : CommandInvocationWithIOVars} (ht : Typed inv c) (hs : StandsFor what c v) (hb : inv.cmdName = "bigrams_aux") :
    ∃ vs : List IOVar, v.operandList = vs.map VArg.var ∧ vs.Nodup ∧ ∀ u ∈ vs, accessOf v u ≠ none := by
  obtain ⟨-, -, si, so, hr, -, -⟩ := C63_table inv c ht
  have hops : ∃ l, c.operandList = files .streamInput l := by
    generalize c.operandList = ol at hr
    cases hr
    case both => exact ⟨_, rfl⟩
    all_goals simp_all
  obtain ⟨l, hl⟩ := hops
  obtain ⟨vs, hvs, -⟩ := stands_operands (texts := []) (a := .streamInput) (input := l) (by simpa [strings] using hl ▸ hs.operands)
  have hov := (stands_occurrences hs).1
  have hsub : ∀ u ∈ vs, u ∈ occurrences v := by
    intro u hu
    unfold occurrences
    simp only [List.mem_append, List.mem_flatMap]
    exact .inl (.inl (.inr ⟨.var u, by simp [hvs, hu], by simp [varOf]⟩))
  have hocc : occurrences v = vs ++ v.implicitInput.toList ++ v.implicitOutput.toList := by
    unfold occurrences
    rw [hov, hvs]
    simp [List.flatMap_map, varOf]
  have hnd : vs.Nodup := by
    have := (List.nodup_append.1 hs.distinct).1
    rw [hocc, List.append_assoc] at this
    exact (List.nodup_append.1 this).1
  exact ⟨vs, by simpa using hvs, hnd, fun u hu => by rw [hs.access u (List.mem_append_left _ (hsub u hu))]; simp⟩

/-- C108 for `bigrams_aux`, whose mapper has two more outputs: it is made for every typed invocation, and the operands, the options
and the implicit streams of the invocation are dropped. -/
theorem C108_bigrams {inv : CommandInvocationInitial} {c : CommandInvocationWithIO} {what : IOVar → FileWithIO}
    {v : CommandInvocationWithIOVars} {p : Parallelizer} (ht : Typed inv c) (hs : StandsFor what c v) (ho : Offered inv p)
    (hb : inv.cmdName = "bigrams_aux") (i o a b : IOVar) :
    ∃ m, p.getActualMapper v i o [a, b] = .ok (some m) ∧ m.cmdName = "bigram_aux_map" ∧ m.flagOptionList = [] ∧
      m.operandList = [.var i, .var o, .var a, .var b] ∧ m.implicitInput = none ∧ m.implicitOutput = none ∧
      (∀ u ∈ [o, a, b], accessOf m u = some .streamOutput) ∧ (i ∉ [o, a, b] → accessOf m i = some .streamInput) := by
  have hp := (offered_bigrams hb p).1 ho
  subst hp
  obtain ⟨vs, hvs, hnd, hacc⟩ := bigrams_operands ht hs hb
  obtain ⟨m, hm, hname, hfl, -⟩ := C49_mapper_exists bigramPlan v vs i o [a, b] rfl rfl (by simp) hvs hnd hacc
  obtain ⟨-, h2, h3, h4, h5, h6⟩ := C49_mapper bigramPlan v m i o [a, b] (by simp) hm
  exact ⟨m, hm, hname, hfl, h2, h3, h4, h5, h6⟩

/-- C108 for plainly written command lines: the mapper is made if and only if at most one file is named as operand (for
`sed` and `col`, none), and the output of `sort` is not named by an option. -/
theorem C108_lines {name ws fs ops inv c what v p} (hl : PlainLine name ws fs ops)
    (hp : parse (Shlex.join (name :: ws)) = .ok inv) (ht : Typed inv c) (hs : StandsFor what c v) (ho : Offered inv p)
    (i o : IOVar) (hi : Unused v i) (hoo : Unused v o) (hne : o ≠ i) :
    (∃ m, p.getActualMapper v i o [] = .ok (some m)) ↔
      (readOperands name fs ops).length ≤ (if name = "sed" then 0 else 1) ∧ (name = "col" → ops = []) ∧
      ¬ (name = "sort" ∧ OneOf fs ["-o", "--output"]) := by
  have hpt := plain_typed hl hp ht
  have hnames := manual_names hl
  have hname := hpt.hname
  have hops := hpt.hops
  have hb : inv.cmdName ≠ "bigrams_aux" := by
    rw [hname]; rintro rfl; simp at hnames
  rw [← (C108_exact ht hs ho hb i o hi hoo hne).1]
  have kgrep := hpt.key ("grep", ["-e", "-f"], ["-e", "--regexp", "-f", "--file"]) (by simp [keys])
  have ksed := hpt.key ("sed", ["-e", "-f"], ["-e", "--expression", "-f", "--file"]) (by simp [keys])
  have ksort := hpt.key ("sort", ["-o"], ["-o", "--output"]) (by simp [keys])
  have hfacts := offered_facts ho
  have hne' := hfacts.2.2.2
  have hpar := hfacts.1
  rw [hname] at hpar hne'
  rw [hops] at hne'
  constructor
  · intro hw
    cases hw with
    | always hc =>
        rw [hname] at hc
        simp only [List.mem_cons, List.not_mem_nil, or_false] at hc
        rcases hc with rfl | rfl | rfl | rfl | rfl
        · simp at hnames
        · simp at hnames
        · simp [readOperands]
        · simp [readOperands]; omega
        · simp [readOperands]
    | cut hc hlen =>
        rw [hname] at hc; subst hc
        simpa [readOperands, hops] using hlen
    | sort hc hlen hno =>
        rw [hname] at hc
        simp only [List.mem_cons, List.not_mem_nil, or_false] at hc
        rcases hc with rfl | rfl
        · simp at hnames
        · have : ¬ OneOf fs ["-o", "--output"] := fun h => hno (by simpa using (ksort rfl).2 h)
          simpa [readOperands, this, hops] using hlen
    | stdin hc hz =>
        rw [hname] at hc
        rw [hops] at hz
        simp only [List.mem_cons, List.not_mem_nil, or_false] at hc
        rcases hc with rfl | rfl | rfl | rfl
        · simp at hnames
        · simp [readOperands, hz]
        · simp at hnames
        · simp at hnames
    | grepOption hc hh hlen =>
        rw [hname] at hc; subst hc
        have : OneOf fs ["-e", "--regexp", "-f", "--file"] := (kgrep rfl).1 (by simpa using hh)
        simpa [readOperands, after_grep, this, hops] using hlen
    | grepOperand hc hh hlen =>
        rw [hname] at hc; subst hc
        have : ¬ OneOf fs ["-e", "--regexp", "-f", "--file"] := fun h => hh (by simpa using (kgrep rfl).2 h)
        rw [hops] at hlen
        simp [readOperands, after_grep, this]
        omega
    | sed hc hh hlen =>
        rw [hname] at hc; subst hc
        have : ¬ OneOf fs ["-e", "--expression", "-f", "--file"] := fun h => hh (by simpa using (ksed rfl).2 h)
        rw [hops] at hlen
        simp [readOperands, after_sed, this, hlen]
  · rintro ⟨h1, h2, h3⟩
    simp only [parCommands, List.mem_cons, List.not_mem_nil, or_false] at hpar
    rcases hpar with rfl | rfl | rfl | rfl | rfl | rfl | rfl | rfl | rfl | rfl | rfl | rfl | rfl | rfl | rfl
    any_goals simp at hnames
    · exact .stdin (by simp [hname]) (hops ▸ h2 rfl)
    · exact .cut hname (by simpa [readOperands, hops] using h1)
    · by_cases hh : OneOf fs ["-e", "--regexp", "-f", "--file"]
      · exact .grepOption hname (by simpa using (kgrep rfl).2 hh) (by simpa [readOperands, after_grep, hh, hops] using h1)
      · refine .grepOperand hname (fun h => hh ((kgrep rfl).1 (by simpa using h))) ?_
        simp [readOperands, after_grep, hh] at h1
        rw [hops]; omega
    · by_cases hh : OneOf fs ["-e", "--expression", "-f", "--file"]
      · simp [readOperands, after_sed, hh] at h1
        exact absurd h1 (hne' rfl)
      · refine .sed hname (fun h => hh ((ksed rfl).1 (by simpa using h))) ?_
        simp [readOperands, after_sed, hh] at h1
        have := List.length_pos_iff.2 (hne' rfl)
        rw [hops]; omega
    · exact .sort (by simp [hname]) (by simpa [readOperands, hops] using h1)
        (fun h => h3 ⟨rfl, (ksort rfl).1 (by simpa using h)⟩)
    · exact .always (by simp [hname])
    · exact .always (by simp [hname])
    · exact .always (by simp [hname])

/-- An invocation that reads one stream and writes standard output is as in the theorems about executions. -/
theorem stands_oneStream {what : IOVar → FileWithIO} {c : CommandInvocationWithIO} {v : CommandInvocationWithIOVars}
    (hs : StandsFor what c v) (hone : OneInOneOut c) (hco : c.implicitOutput = some stdoutStream)
    (hin : c.implicitInput = some stdinStream ∨ c.implicitInput = none) : OneStream v := by
  obtain ⟨u, hu, hwu⟩ : ∃ u, v.implicitOutput = some u ∧ what u = stdoutStream := by
    have := hs.output
    rw [hco] at this
    exact Option.map_eq_some_iff.1 this
  have hacc : ∀ u ∈ occurrences v, accessOf v u = some (accessIn (what u)) := fun u hu =>
    hs.access u (List.mem_append_left _ hu)
  have single : ∀ a, (streamsWith c a).length = 1 → ∃ i, withAccess v a = [i] := by
    intro a h
    rw [← stands_withAccess hs, List.length_map] at h
    exact List.length_eq_one_iff.1 h
  have huo : u ∈ occurrences v := by unfold occurrences; simp [hu]
  refine ⟨fun w hw => by rw [hacc w hw]; simp, (List.nodup_append.1 hs.distinct).1, single _ hone.1, ?_, ?_, ?_⟩
  · obtain ⟨z, hz⟩ := single _ hone.2
    have : u ∈ withAccess v .streamOutput := withAccess_mem.2 ⟨huo, by rw [hacc u huo, hwu]; rfl⟩
    rw [hz, List.mem_singleton] at this
    exact ⟨z, hz, this ▸ hu⟩
  · intro n w hm
    obtain ⟨f, _, hh⟩ := hs.options.mem_right hm
    cases hh
  · intro j hj
    have hjo : j ∈ occurrences v := by unfold occurrences; simp [hj]
    have hwj : some (what j) = c.implicitInput := by rw [← hs.input, hj]; rfl
    rcases hin with h | h
    · rw [h] at hwj
      rw [hacc j hjo, Option.some.inj hwj]; rfl
    · rw [h] at hwj; cases hwj

/-- C108 for aggregators: if the mapper can be made and the parts are all declared to be implemented, two outputs can be
recombined with new variables; and any number of outputs, if they are to be concatenated. -/
theorem C108_aggregator {inv : CommandInvocationInitial} {c : CommandInvocationWithIO} {what : IOVar → FileWithIO}
    {v : CommandInvocationWithIOVars} {p : Parallelizer} (ht : Typed inv c) (hs : StandsFor what c v) (ho : Offered inv p)
    (hb : inv.cmdName ≠ "bigrams_aux") (hw : OneWorker inv) (hi : p.areAllPartsImplemented = true) :
    (∀ x y o, Unused v x → Unused v y → x ≠ y ∧ o ≠ x ∧ o ≠ y → ∃ agg, p.getActualAggregator v [x, y] o = .ok (some agg)) ∧
    (p.coreAggregatorSpec.kind = .concatenate → ∀ ins o, ∃ agg, p.getActualAggregator v ins o = .ok (some agg)) := by
  have hconc : p.coreAggregatorSpec = AggregatorSpec.makeConcatenate →
      ∀ ins o, ∃ agg, p.getActualAggregator v ins o = .ok (some agg) := fun hp ins o =>
    let ⟨agg, h, _⟩ := C47_concatenate p hp v ins o
    ⟨agg, h⟩
  by_cases hso : inv.cmdName = "sort" ∨ inv.cmdName = "custom_sort"
  · have hp : p.coreAggregatorSpec = sortMerge := by rcases (sort_offered hso ho).2 with rfl | rfl <;> rfl
    refine ⟨fun x y o hx hy hxy => ?_, fun hk => ?_⟩
    · obtain ⟨-, -, si, so, hr, hin, hout⟩ := C63_table inv c ht
      have hone := (oneInOneOut_iff ht ho hb).2 hw
      have hno : ¬ Has inv "-o" := by
        cases hw with
        | sort _ _ h => exact h
        | always hc | cut hc | stdin hc | grepOption hc | grepOperand hc | sed hc => rcases hso with h | h <;> simp [h] at hc
      have hops : c.operandList = files .streamInput inv.operandList ∧ so := by
        generalize c.operandList = ol at hr
        cases hr
        case sort => exact ⟨rfl, hno⟩
        all_goals exfalso; rcases hso with h | h <;> simp_all
      have hco : c.implicitOutput = some stdoutStream := by
        rcases hout with h | h
        · exact h.2
        · exact absurd hops.2 h.1
      have hc : OneStream v := stands_oneStream hs hone hco (by
        rcases hin with h | h
        · exact .inl h.2
        · exact .inr h.2)
      obtain ⟨agg, h, -⟩ := sort_aggregator (fun _ _ _ _ => []) hp hc hx hy hxy
      exact ⟨agg, h⟩
    · rw [hp] at hk; cases hk
  · have hcases : p.coreAggregatorSpec = AggregatorSpec.makeConcatenate ∨
        p.coreAggregatorSpec = .funcString .custom2Ary "alt_bigram_aux_reduce" true := by
      obtain ⟨i, hi', hp⟩ := offered_iff.1 ho
      obtain ⟨plans, comm, hof, hpl, -, -⟩ := (C64_table _ _).1 hi'
      have key : ∀ q ∈ plans, q.areAllPartsImplemented = true → q.coreAggregatorSpec = AggregatorSpec.makeConcatenate ∨
          q.coreAggregatorSpec = .funcString .custom2Ary "alt_bigram_aux_reduce" true := by
        intro q hq hqi
        cases hof <;> simp only [bothPlans, List.mem_cons, List.not_mem_nil, or_false] at hq
        all_goals first
          | exact absurd ‹_› hb
          | (rcases hq with rfl | rfl <;> first | exact .inl rfl | (exact absurd hqi (by decide)))
          | (subst hq; first | exact .inl rfl | exact .inr rfl | exact absurd hqi (by decide) | simp_all)
      rcases hp with hp | ⟨_, q, hq, _, rfl⟩
      · exact key p (hpl ▸ hp) hi
      · exact key q (hpl ▸ hq) hi
    rcases hcases with hp | hp
    · exact ⟨fun x y o _ _ _ => hconc hp _ _, fun _ => hconc hp⟩
    · refine ⟨fun x y o _ _ _ => ?_, fun hk => ?_⟩
      · unfold Parallelizer.getActualAggregator
        rw [hp]
        have : parse "alt_bigram_aux_reduce" = .ok ⟨"alt_bigram_aux_reduce", [], []⟩ := by decide +kernel
        simp only [AggregatorSpec.getAggregator, this]
        exact ⟨_, rfl⟩
      · rw [hp] at hk; cases hk

/-- The refuting lines below. -/
theorem refused_of {name ws fs ops inv c p} (page : List ManualEntry) (hm : manuals.lookup name = some page)
    (hr : ReadByManual page ws fs ops)
    (hk : ∀ f ∈ fs, ¬ Exceptional name f.getName ∧ ¬ (name = "grep" ∧ f.getName = "--regexp")) (hu : name ≠ "uniq")
    (hp : parse (Shlex.join (name :: ws)) = .ok inv) (ht : Typed inv c) (ho : Offered inv p)
    (hi : p.areAllPartsImplemented = true)
    (hx : ¬ ((readOperands name fs ops).length ≤ (if name = "sed" then 0 else 1) ∧ (name = "col" → ops = []) ∧
      ¬ (name = "sort" ∧ OneOf fs ["-o", "--output"]))) :
    ∃ what v, PlainLine name ws fs ops ∧ parse (Shlex.join (name :: ws)) = .ok inv ∧ Typed inv c ∧ StandsFor what c v ∧
      Offered inv p ∧ p.areAllPartsImplemented = true ∧ ∀ i o, Unused v i → Unused v o → o ≠ i →
        ¬ ∃ m, p.getActualMapper v i o [] = .ok (some m) := by
  obtain ⟨what, v, hs⟩ := C90_variables c
  have hl : PlainLine name ws fs ops := ⟨⟨page, lookup_mem hm, hr⟩, hk, fun h => absurd h hu⟩
  exact ⟨what, v, hl, hp, ht, hs, ho, hi, fun i o h1 h2 h3 hm => hx ((C108_lines hl hp ht hs ho i o h1 h2 h3).1 hm)⟩

/-- C108 is false of the code: for `grep a f g`, `sed s/a/b/ f` and `sort -o g f` parallelizers are offered whose parts are
all declared to be implemented, but no mapper can be made. -/
theorem C108_false : ∀ line ∈ [("grep", ["a", "f", "g"]), ("sed", ["s/a/b/", "f"]), ("sort", ["-o", "g", "f"])],
    ∃ fs ops inv c p what v, PlainLine line.1 line.2 fs ops ∧ parse (Shlex.join (line.1 :: line.2)) = .ok inv ∧ Typed inv c ∧
      StandsFor what c v ∧ Offered inv p ∧ p.areAllPartsImplemented = true ∧ ∀ i o, Unused v i → Unused v o → o ≠ i →
        ¬ ∃ m, p.getActualMapper v i o [] = .ok (some m) := by
  intro line hline
  simp only [List.mem_cons, List.not_mem_nil, or_false] at hline
  rcases hline with rfl | rfl | rfl
  · exact ⟨[], ["a", "f", "g"], _, _, _, refused_of (name := "grep") (ws := ["a", "f", "g"]) (fs := []) (ops := ["a", "f", "g"])
      (inv := ⟨"grep", [], ["a", "f", "g"]⟩)
      (c := ⟨"grep", [], [.argString "a", .io (.file "f" .streamInput), .io (.file "g" .streamInput)], none, some stdoutStream⟩)
      (p := plan .consecChunks concatenation) ((manuals.lookup "grep").getD []) (by decide +kernel)
      (.operands (by unfold OperandWord; decide +kernel)) (by simp) (by decide) (by decide +kernel)
      ⟨⟨[], [.argString, inT, inT], none, some stdoutStream⟩, by decide +kernel, by decide +kernel⟩
      (offered_of (.grep rfl (by decide +kernel) (.inr (by unfold HasAny; decide +kernel))) List.mem_cons_self) rfl
      (by decide +kernel)⟩
  · exact ⟨[], ["s/a/b/", "f"], _, _, _, refused_of (name := "sed") (ws := ["s/a/b/", "f"]) (fs := []) (ops := ["s/a/b/", "f"])
      (inv := ⟨"sed", [], ["s/a/b/", "f"]⟩)
      (c := ⟨"sed", [], [.argString "s/a/b/", .io (.file "f" .streamInput)], some stdinStream, some stdoutStream⟩)
      (p := plan .consecChunks concatenation) ((manuals.lookup "sed").getD []) (by decide +kernel)
      (.operands (by unfold OperandWord; decide +kernel)) (by simp) (by decide) (by decide +kernel)
      ⟨⟨[], [.argString, inT], some stdinStream, some stdoutStream⟩, by decide +kernel, by decide +kernel⟩
      (offered_of (.sed rfl rfl (.inr (.inl ⟨"/a/b/".toList, by decide +kernel⟩))) List.mem_cons_self) rfl
      (by decide +kernel)⟩
  · exact ⟨[.option "-o" "g"], ["f"], _, _, _, refused_of (name := "sort") (ws := ["-o", "g", "f"]) (fs := [.option "-o" "g"])
      (ops := ["f"]) (inv := ⟨"sort", [.option "-o" "g"], ["f"]⟩)
      (c := ⟨"sort", [.option "-o" (.io (.file "g" .streamOutput))], [.io (.file "f" .streamInput)], none, none⟩)
      (p := plan .consecChunks mergeSorted) ((manuals.lookup "sort").getD []) (by decide +kernel)
      (.option (by unfold Lists; decide +kernel) (.operands (by unfold OperandWord; decide +kernel))) (by decide +kernel)
      (by decide) (by decide +kernel)
      ⟨⟨[.fileStd .streamOutput], [inT], none, none⟩, by decide +kernel, by decide +kernel⟩
      (offered_of (.sort (by simp) (by unfold HasAny; decide +kernel)) List.mem_cons_self) rfl
      (by decide +kernel)⟩

/-- `sort --reverse f` is a line for which the mapper is made. -/
example : ∃ inv c what v p, ParallelLine "sort" ["--reverse", "f"] [.flag "--reverse"] ["f"] inv c what v p ∧
    ∃ i o m, Unused v i ∧ Unused v o ∧ o ≠ i ∧ p.getActualMapper v i o [] = .ok (some m) := by
  obtain ⟨inv, c, what, v, p, h⟩ := sample_sort
  obtain ⟨i, hi, -⟩ := exists_unused v []
  obtain ⟨o, ho, hne⟩ := exists_unused v [i]
  have hne : o ≠ i := by simpa using hne
  obtain ⟨m, hm⟩ := (C108_lines h.line h.parsed h.typed h.stands h.offered i o hi ho hne).2 (by decide +kernel)
  exact ⟨inv, c, what, v, p, h, i, o, m, hi, ho, hne, hm⟩

end PashAnn
