import Verif.Spec.Nested
import Verif.Props.Plans
import Verif.Props.ParTable

/-! Property C93: mappers can be run in parallel again. Specification: `Spec/Nested.lean`. -/

namespace PashAnn
open Spec

/-- C93. The mapper that runs the same command is a proper invocation again: one streaming input and one output, the same
command, flags, options and operands. -/
theorem C93_mapper {p : Parallelizer} (hp : p.coreMapperSpec = sameCommand) (hp0 : p.infoMapperAggregator = 0)
    {c m : CommandInvocationWithIOVars} (hc : OneStream c) (hm : MapperOf p c m) : OneStream m ∧ SameCommand c m := by
  obtain ⟨i, o, hi, ho, hne, hm⟩ := hm
  obtain ⟨ci, hci⟩ := hc.input
  obtain ⟨co, hco, hio⟩ := hc.out
  obtain ⟨m1, h1, hr, hai, hao, hni, hno, hother⟩ :=
    C40_mapper p hp hp0 c ci co i o hc.described hc.distinct hci hco hi.1 ho.1 hne
  rw [hm] at h1; cases h1
  obtain ⟨f, hf⟩ : ∃ f : IOVar → IOVar, f = fun v => if v = ci then i else if v = co then o else v := ⟨_, rfl⟩
  rw [← hf] at hr
  have hfl : m.flagOptionList = c.flagOptionList :=
    (congrArg CommandInvocationWithIOVars.flagOptionList hr).trans (renameOption_id _ _ hc.options)
  have hst : strOperands m = strOperands c := by
    have := congrArg strOperands hr
    rw [strOperands_rename] at this; exact this
  have hocc : occurrences m = (occurrences c).map f := by
    have := congrArg occurrences hr
    rw [occurrences_rename] at this; exact this
  have hcio : ci ∈ occurrences c ∧ accessOf c ci = some .streamInput := withAccess_mem.1 (by rw [hci]; simp)
  have hcoo : co ∈ occurrences c ∧ accessOf c co = some .streamOutput := withAccess_mem.1 (by rw [hco]; simp)
  have hne' : ci ≠ co := by rintro rfl; rw [hcio.2] at hcoo; exact absurd hcoo.2 (by simp)
  have hfi : f ci = i := by rw [hf]; simp
  have hfo : f co = o := by rw [hf]; simp [Ne.symm hne']
  have hacc : ∀ v ∈ occurrences c, accessOf m (f v) = accessOf c v := by
    intro v hv
    by_cases h1 : v = ci
    · subst h1; rw [hfi, hai, hcio.2]
    · by_cases h2 : v = co
      · subst h2; rw [hfo, hao, hcoo.2]
      · have : f v = v := by rw [hf]; simp [h1, h2]
        rw [this]
        exact hother v (fun e => hi.1 (e ▸ hv)) (fun e => ho.1 (e ▸ hv)) h1 h2
  have hwith : ∀ a, withAccess m a = (withAccess c a).map f := by
    intro a
    unfold withAccess
    rw [hocc, List.filter_map]
    congr 1
    apply List.filter_congr
    intro v hv
    simp only [Function.comp]
    rw [hacc v hv]
  refine ⟨⟨?_, ?_, ⟨i, by rw [hwith, hci, List.map_singleton, hfi]⟩, ⟨o, by rw [hwith, hco, List.map_singleton, hfo], ?_⟩,
    by rw [hfl]; exact hc.options, ?_⟩, ?_, hfl, hst⟩
  · intro v hv
    rw [hocc] at hv
    obtain ⟨u, hu, rfl⟩ := List.mem_map.1 hv
    rw [hacc u hu]; exact hc.described u hu
  · rw [hocc, List.nodup_iff_pairwise_ne, List.pairwise_map]
    refine (List.nodup_iff_pairwise_ne.1 hc.distinct).imp_of_mem ?_
    intro u v hu hv huv e
    have hiu : u ≠ i := fun e => hi.1 (e ▸ hu)
    have hiv : v ≠ i := fun e => hi.1 (e ▸ hv)
    have hou : u ≠ o := fun e => ho.1 (e ▸ hu)
    have hov : v ≠ o := fun e => ho.1 (e ▸ hv)
    rw [hf] at e
    simp only at e
    grind
  · have := congrArg CommandInvocationWithIOVars.implicitOutput hr
    have this : m.implicitOutput = c.implicitOutput.map f := this
    rw [this, hio, Option.map_some, hfo]
  · intro v hv
    have := congrArg CommandInvocationWithIOVars.implicitInput hr
    have this : m.implicitInput = c.implicitInput.map f := this
    rw [this] at hv
    cases hi0 : c.implicitInput with
    | none => rw [hi0] at hv; cases hv
    | some u =>
        rw [hi0] at hv
        cases hv
        have hu : u ∈ occurrences c := by unfold occurrences; rw [hi0]; simp
        rw [hacc u hu]; exact hc.implicit u hi0
  · have := congrArg CommandInvocationWithIOVars.cmdName hr
    exact this

theorem offered_same {inv : CommandInvocationInitial} (hn : inv.cmdName ∉ ["alt_bigrams_aux", "bigrams_aux"]) {p : Parallelizer}
    (hp : Offered inv p) : p.coreMapperSpec = sameCommand ∧ p.infoMapperAggregator = 0 := by
  obtain ⟨i, hi, hp⟩ := offered_iff.1 hp
  obtain ⟨plans, comm, ho, hpl, hcm, -⟩ := (C64_table _ _).1 hi
  have key : (∀ q ∈ plans, q.coreMapperSpec = sameCommand ∧ q.infoMapperAggregator = 0) := by
    have both : ∀ a, ∀ q ∈ bothPlans a, q.coreMapperSpec = sameCommand ∧ q.infoMapperAggregator = 0 := by
      intro a q hq
      simp only [bothPlans, List.mem_cons, List.not_mem_nil, or_false] at hq
      rcases hq with rfl | rfl <;> exact ⟨rfl, rfl⟩
    cases ho with
    | altBigrams hc => exact absurd (by simp [hc]) hn
    | bigrams hc => exact absurd (by simp [hc]) hn
    | setDiff hc => intro q hq; rw [List.mem_singleton.1 hq]; exact ⟨rfl, rfl⟩
    | test hc => intro q hq; rw [List.mem_singleton.1 hq]; exact ⟨rfl, rfl⟩
    | sort hc => intro q hq; rw [List.mem_singleton.1 hq]; exact ⟨rfl, rfl⟩
    | _ => first | exact both _ | simp
  rcases hp with hp | ⟨_, q, hq, _, rfl⟩
  · exact key p (hpl ▸ hp)
  · exact key q (hpl ▸ hq)

/-- C93. If one level of parallel execution is right for every invocation of the same command, then so is every depth. -/
theorem C93_nested {α : Type} {prog : ProgramsOn α} {inv : CommandInvocationInitial} (hn : inv.cmdName ∉ ["alt_bigrams_aux", "bigrams_aux"])
    {c : CommandInvocationWithIOVars} (hc : OneStream c)
    (h1 : ∀ c', OneStream c' → SameCommand c c' → ∀ p x parts y, Offered inv p → Split p.splitter x parts →
      Executes prog p c' parts y → y = sequential prog c' x)
    {x y : List α} (h : Runs prog inv c x y) : y = sequential prog c x := by
  induction h with
  | direct c x => rfl
  | @parallel c x y p runs hp hs hm hr h ih =>
      obtain ⟨hs1, hs0⟩ := offered_same hn hp
      refine h1 c hc ⟨rfl, rfl, rfl⟩ p x (runs.map (·.2.1)) y hp hs ⟨runs.map (·.2), by rw [List.map_map]; rfl, ?_, ?_⟩
      · intro r hr'
        obtain ⟨q, hq, rfl⟩ := List.mem_map.1 hr'
        obtain ⟨hone, hsame⟩ := C93_mapper hs1 hs0 hc (hm q hq)
        have e := ih q hq hone (fun c' h' hs' => h1 c' h' ⟨hs'.1.trans hsame.1, hs'.2.1.trans hsame.2.1, hs'.2.2.trans hsame.2.2⟩)
        have := mapperRun_exists prog hc hs1 hs0 q.2.1
        have e' : sequential prog c q.2.1 = q.2.2 := by
          rw [e]; unfold sequential; rw [hsame.1, hsame.2.1, hsame.2.2]
        rw [e'] at this
        exact this
      · rw [List.map_map]; exact h

theorem belongs_same {inv : CommandInvocationInitial} {c c' : CommandInvocationWithIOVars} (hb : Belongs inv c)
    (h : SameCommand c c') : Belongs inv c' := ⟨h.1.trans hb.1, by rw [h.2.1]; exact hb.2⟩

/-- C93. Nested parallel runs of sort give the output of sort. -/
theorem C93_sort (inv : CommandInvocationInitial) (hn : inv.cmdName = "sort") (prog : Programs)
    (le : List FlagOptionWithIOVar → String → String → Prop) (hprog : SortProgram prog le)
    (c : CommandInvocationWithIOVars) (hb : Belongs inv c) (hcov : Covered "sort" c.flagOptionList) (hc : OneStream c)
    (hstr : strOperands c = []) (hle : LineOrder (le c.flagOptionList)) (x y : Stream) (h : Runs prog inv c x y) :
    y = sequential prog c x :=
  C93_nested (by simp [hn]) hc (fun c' hc' hs p x parts y hp hsp hy => C55_sort inv hn p hp prog le hprog c'
    (belongs_same hb hs) (hs.2.1 ▸ hcov) hc' (hs.2.2.trans hstr) (hs.2.1 ▸ hle) x parts hsp y hy) h

/-- C93. The same for grep, without context, limit and null-terminated lines (with these one level is wrong already:
C54). -/
theorem C93_grep (inv : CommandInvocationInitial) (hn : inv.cmdName = "grep")
    (hx : ¬ ∃ n ∈ ["-A", "--after-context", "-B", "--before-context", "-C", "--context", "-m", "--max-count", "-z"],
      Has inv n) (prog : Programs) (hcat : CatProgram prog) (g : GrepParameters) (hg : GrepProgram prog g)
    (c : CommandInvocationWithIOVars) (hb : Belongs inv c) (hcov : Covered "grep" c.flagOptionList) (hc : OneStream c)
    (x y : Stream) (h : Runs prog inv c x y) : y = sequential prog c x :=
  C93_nested (by simp [hn]) hc (fun c' hc' hs p x parts y hp hsp hy => C54_grep_partial inv hn p hp hx prog hcat g hg c'
    (belongs_same hb hs) (hs.2.1 ▸ hcov) hc' x parts hsp y hy) h

/-- C93. The same for uniq, without the options with which one level is wrong already (C56). -/
theorem C93_uniq (inv : CommandInvocationInitial) (hn : inv.cmdName = "uniq")
    (hx : ¬ ∃ n ∈ ["-u", "-z", "-c"], Has inv n) (prog : Programs)
    (same : List FlagOptionWithIOVar → String → String → Bool) (hprog : UniqProgram prog same)
    (c : CommandInvocationWithIOVars) (hb : Belongs inv c)
    (hgr : ∀ a, argOf c.flagOptionList "--group" = some a → a = "separate")
    (hcov : Covered "uniq" c.flagOptionList) (hc : OneStream c) (hstr : strOperands c = []) (x y : Stream)
    (h : Runs prog inv c x y) : y = sequential prog c x :=
  C93_nested (by simp [hn]) hc (fun c' hc' hs p x parts y hp hsp hy => C56_uniq_partial inv hn p hp hx prog same hprog c'
    (belongs_same hb hs) (by rw [hs.2.1]; exact hgr) (hs.2.1 ▸ hcov) hc' (hs.2.2.trans hstr) x parts hsp y hy) h

/-- C93. The same for cut, without null-terminated lines and the newline as delimiter (C65). -/
theorem C93_cut (inv : CommandInvocationInitial) (hn : inv.cmdName = "cut") (prog : Programs)
    (hcat : CatProgram prog) (select : List FlagOptionWithIOVar → String → List String)
    (listed : List FlagOptionWithIOVar → Nat → Bool) (hcut : CutProgram prog select listed)
    (c : CommandInvocationWithIOVars) (hb : Belongs inv c) (hcov : Covered "cut" c.flagOptionList) (hc : OneStream c)
    (hs : strOperands c = []) (hz : ¬ Has inv "-z")
    (hf : ¬ (Has inv "-f" ∧ argOf c.flagOptionList "-d" = some "\n")) (x y : Stream) (h : Runs prog inv c x y) :
    y = sequential prog c x :=
  C93_nested (by simp [hn]) hc (fun c' hc' hs' p x parts y hp hsp hy => C65_cut_partial inv hn p hp prog hcat select
    listed hcut c' (belongs_same hb hs') (hs'.2.1 ▸ hcov) hc' (hs'.2.2.trans hs) hz (by rw [hs'.2.1]; exact hf) x parts
    hsp y hy) h

/-- C93. The same for sed with a script that treats lines alone (C67). -/
theorem C93_sed (inv : CommandInvocationInitial) (hn : inv.cmdName = "sed") (prog : Programs)
    (hcat : CatProgram prog) (plain : String → Prop)
    (act : List FlagOptionWithIOVar → String → Nat → Bool → String → List String) (hsed : SedProgram prog plain act)
    (c : CommandInvocationWithIOVars) (hb : Belongs inv c) (hcov : Covered "sed" c.flagOptionList) (hc : OneStream c)
    (script : String) (hs : strOperands c = [script]) (hpl : plain script) (hz : ¬ Has inv "-z")
    (hact : ∀ k last k' last' l, act c.flagOptionList script k last l = act c.flagOptionList script k' last' l)
    (x y : Stream) (h : Runs prog inv c x y) : y = sequential prog c x :=
  C93_nested (by simp [hn]) hc (fun c' hc' hs' p x parts y hp hsp hy => C67_sed_partial inv hn p hp prog hcat plain act
    hsed c' (belongs_same hb hs') (hs'.2.1 ▸ hcov) hc' script (hs'.2.2.trans hs) hpl hz (by rw [hs'.2.1]; exact hact) x
    parts hsp y hy) h

/-- C93. There is a mapper for every part and it can be split again: a parallel run whose parts are runs of mappers, each
run in any way. -/
theorem C93_exists {p : Parallelizer} (hp : p.coreMapperSpec = sameCommand) (hp0 : p.infoMapperAggregator = 0)
    {c : CommandInvocationWithIOVars} (hc : OneStream c) : ∃ m, MapperOf p c m ∧ OneStream m := by
  obtain ⟨i, o, m, env, hi, ho, hne, hm, -⟩ := mapperRun_exists (fun _ _ _ _ => ([] : List Nat)) hc hp hp0 []
  have h : MapperOf p c m := ⟨i, o, hi, ho, hne, hm⟩
  exact ⟨m, h, (C93_mapper hp hp0 hc h).1⟩

theorem recombined_exists {α : Type} (prog : ProgramsOn α) {p : Parallelizer} (hpa : p.coreAggregatorSpec = concatenation)
    (c : CommandInvocationWithIOVars) (outs : List (List α)) : ∃ y, Recombined prog p c outs y := by
  let vars : List IOVar := (List.range outs.length).map Int.ofNat
  let env : IOVar → List α := fun v => outs[v.toNat]?.getD []
  have henv : vars.map env = outs := by
    apply List.ext_getElem
    · simp [vars]
    · intro n h1 h2
      simp only [vars, env, List.getElem_map, List.getElem_range, Int.ofNat_eq_natCast, Int.toNat_natCast]
      rw [List.getElem?_eq_getElem h2]
      simp
  obtain ⟨agg, ha, _⟩ := C47_concatenate p hpa c vars (-1)
  refine ⟨output prog env agg.cmd, ?_⟩
  conv => arg 4; rw [← henv]
  refine .concatenate (by rw [hpa]; rfl) ?_ ha
  simp only [vars, List.mem_map, not_exists, not_and]
  intro n _ h
  have h' : Int.ofNat n = -1 := h
  cases h'

/-- C93. Every command for which concatenation is offered has a parallel run over mappers that are themselves run in
any way. -/
theorem C93_concatenation_runs {α : Type} (prog : ProgramsOn α) {inv : CommandInvocationInitial} {p : Parallelizer}
    (hp : Offered inv p) (hpl : p ∈ bothPlans concatenation) {c : CommandInvocationWithIOVars} (hc : OneStream c)
    (way : CommandInvocationWithIOVars → List α → List α)
    (hway : ∀ m, OneStream m → SameCommand c m → ∀ part, Runs prog inv m part (way m part)) (parts : List (List α)) :
    ∃ (m : CommandInvocationWithIOVars) (y : List α), MapperOf p c m ∧ Recombined prog p c (parts.map (way m)) y ∧
      Runs prog inv c parts.flatten y := by
  have hpm : p.coreMapperSpec = sameCommand ∧ p.infoMapperAggregator = 0 ∧ p.coreAggregatorSpec = concatenation := by
    simp only [bothPlans, List.mem_cons, List.not_mem_nil, or_false] at hpl
    rcases hpl with rfl | rfl <;> exact ⟨rfl, rfl, rfl⟩
  obtain ⟨m, hm, ho⟩ := C93_exists hpm.1 hpm.2.1 hc
  obtain ⟨y, hy⟩ : ∃ y, Recombined prog p c (parts.map (way m)) y := by
    exact recombined_exists prog hpm.2.2 c _
  refine ⟨m, y, hm, hy, .parallel (runs := parts.map (fun part => (m, part, way m part))) hp ?_ ?_ ?_ ?_⟩
  · rw [split_concatenation hpl, List.map_map]; simp [Function.comp_def]
  · intro r hr; obtain ⟨a, -, rfl⟩ := List.mem_map.1 hr; exact hm
  · intro r hr; obtain ⟨a, -, rfl⟩ := List.mem_map.1 hr
    exact hway m ho (C93_mapper hpm.1 hpm.2.1 hc hm).2 a
  · rw [List.map_map]; exact hy

/-- A run of grep whose parts are split again, once in chunks and once in the blocks of round robin. -/
example : ∃ (inv : CommandInvocationInitial) (p q : Parallelizer) (m y : _) (z : Stream), parse "grep -i a f" = .ok inv ∧
    Offered inv p ∧ Offered inv q ∧ p.splitter = .consecChunks ∧ q.splitter = .roundRobinPlain ∧
    MapperOf p (grepSample [.flag "-i"]) m ∧
    (∃ m', MapperOf q m m' ∧ Recombined grepProgs q m [sequential grepProgs m' ["a"], sequential grepProgs m' ["b", "a"]] z) ∧
    Recombined grepProgs p (grepSample [.flag "-i"]) [z, sequential grepProgs m ["a", "c"]] y ∧
    Runs grepProgs inv (grepSample [.flag "-i"]) ["a", "b", "a", "a", "c"] y ∧ y = ["a", "a", "a"] := by
  let c := grepSample [.flag "-i"]
  let inv : CommandInvocationInitial := ⟨"grep", [.flag "-i"], ["a", "f"]⟩
  have hoff : ∀ p ∈ bothPlans concatenation, Offered inv p := fun p hp =>
    offered_iff.2 ⟨_, grep_offered rfl (by simp [inv, Has, grepSpecial]), .inl hp⟩
  have hc : OneStream c := grepSample_ok _ (by simp [optionVar])
  let p := plan .consecChunks concatenation
  let q := plan .roundRobinPlain concatenation
  obtain ⟨m, hm, ho⟩ := C93_exists (p := p) rfl rfl hc
  obtain ⟨m', hm', ho'⟩ := C93_exists (p := q) rfl rfl ho
  obtain ⟨z, hz⟩ := recombined_exists grepProgs (p := q) rfl m
    [sequential grepProgs m' ["a"], sequential grepProgs m' ["b", "a"]]
  have hq : Offered inv q := hoff _ (by simp [q, bothPlans])
  have hp : Offered inv p := hoff _ (by simp [p, bothPlans])
  have rz : Runs grepProgs inv m ["a", "b", "a"] z :=
    .parallel (runs := [(m', ["a"], _), (m', ["b", "a"], _)]) hq rfl (by simpa using hm')
      (by simp only [List.mem_cons, List.not_mem_nil, or_false]; rintro r (rfl | rfl) <;> exact .direct _ _) hz
  obtain ⟨y, hy⟩ := recombined_exists grepProgs (p := p) rfl c [z, sequential grepProgs m ["a", "c"]]
  have ry : Runs grepProgs inv c ["a", "b", "a", "a", "c"] y :=
    .parallel (runs := [(m, ["a", "b", "a"], z), (m, ["a", "c"], _)]) hp rfl (by simpa using hm)
      (by
        simp only [List.mem_cons, List.not_mem_nil, or_false]
        rintro r (rfl | rfl)
        · exact rz
        · exact .direct _ _) hy
  refine ⟨inv, p, q, m, y, z, by decide +kernel, hp, hq, rfl, rfl, hm, ⟨m', hm', hz⟩, hy, ry, ?_⟩
  rw [C93_grep inv rfl (by simp [inv, Has]) grepProgs grepProgs_ok.1 sampleGrep grepProgs_ok.2 c ⟨rfl, rfl⟩
    (by decide +kernel) hc _ _ ry]
  decide +kernel

/-- C93. The two commands that are left out have mappers that are other programs: parts cannot be given to parallel runs of
the command itself. -/
theorem C93_bigrams : ∀ n ∈ ["alt_bigrams_aux", "bigrams_aux"], ∀ inv : CommandInvocationInitial, inv.cmdName = n →
    ∃ p, Offered inv p ∧ p.coreMapperSpec ≠ sameCommand := by
  intro n hn inv h
  simp only [List.mem_cons, List.not_mem_nil, or_false] at hn
  rcases hn with rfl | rfl
  · exact ⟨_, offered_iff.2 ⟨_, (C64_table inv (offers _ _)).2 ⟨_, _, .altBigrams h, rfl, rfl, rfl⟩, .inl (List.mem_singleton.2 rfl)⟩,
      fun h => by injection h; contradiction⟩
  · exact ⟨_, offered_iff.2 ⟨_, (C64_table inv (offers _ _)).2 ⟨_, _, .bigrams h, rfl, rfl, rfl⟩, .inl (List.mem_singleton.2 rfl)⟩,
      fun h => by injection h; contradiction⟩

end PashAnn
