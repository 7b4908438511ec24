import Verif.Spec.Status
import Verif.Props.Names
import Verif.Props.Lines

/-! C112: exit statuses. -/

namespace PashAnn
open Spec

/-- Every execution of a plan that concatenates gives the outputs on the parts and succeeds. -/
theorem status_concatenation {prog : StatusPrograms} (hcat : StatusCat prog) {c : CommandInvocationWithIOVars} (hc : OneStream c)
    {p : Parallelizer} (hp : p ∈ bothPlans concatenation) {parts : List Stream} {y : Stream × Nat} (h : StatusExecutes prog p c parts y) :
    y = ((parts.map fun part => (prog c.cmdName c.flagOptionList (strOperands c) [part]).1).flatten, 0) := by
  have hp' : p.coreMapperSpec = sameCommand ∧ p.infoMapperAggregator = 0 ∧ p.coreAggregatorSpec = concatenation := by
    simp only [bothPlans, List.mem_cons, List.not_mem_nil, or_false] at hp
    rcases hp with rfl | rfl <;> exact ⟨rfl, rfl, rfl⟩
  obtain ⟨runs, vars, o, agg, env, rfl, hruns, ho, hagg, henv, rfl⟩ := h
  obtain ⟨agg', ha', _, hn, hf, hop, _⟩ := C47_concatenate p hp'.2.2 c vars o
  rw [hagg] at ha'; cases ha'
  have h' : AggregatorSpec.makeConcatenate.getAggregator c vars o = .ok (some agg) := by
    unfold Parallelizer.getActualAggregator at hagg; rw [hp'.2.2] at hagg; exact hagg
  have hs : strOperands agg.cmd = [] := by
    unfold strOperands; rw [hop, List.filterMap_map]
    exact List.filterMap_eq_nil_iff.2 (fun _ _ => rfl)
  unfold statusOutput
  rw [hn, hf, hs, makeCat_inputs vars o ho c agg h', hcat, ← henv, List.map_map]
  congr 2
  exact List.map_congr_left fun r hr => mapperRun_eq hc hp'.1 hp'.2.1 (hruns r hr)

theorem status_exists (prog : StatusPrograms) {c : CommandInvocationWithIOVars} (hc : OneStream c) {p : Parallelizer}
    (hp : p ∈ bothPlans concatenation) (parts : List Stream) : ∃ y, StatusExecutes prog p c parts y := by
  obtain ⟨y, runs, rfl, hruns, hrec⟩ := executable_concatenation (withoutStatus prog) hc hp parts
  have hk : p.coreAggregatorSpec.kind = .concatenate := by
    simp only [bothPlans, List.mem_cons, List.not_mem_nil, or_false] at hp
    rcases hp with rfl | rfl <;> rfl
  generalize ho : runs.map Prod.snd = outs at hrec
  cases hrec with
  | @concatenate vars o agg env _ hov h => exact ⟨_, runs, vars, o, agg, env, rfl, hruns, hov, h, ho, rfl⟩
  | tree hk' => rw [hk] at hk'; cases hk'
  | adjacent hk' => rw [hk] at hk'; cases hk'

/-- C112, exactly: a parallel run that concatenates always succeeds, so its status is that of the command on the whole input if and
only if the command succeeds on it. -/
theorem C112_exact {inv : CommandInvocationInitial} {p : Parallelizer} (ho : Offered inv p)
    (hk : p.coreAggregatorSpec.kind = .concatenate) (prog : StatusPrograms) (hcat : StatusCat prog)
    (v : CommandInvocationWithIOVars) (hv : OneStream v) (parts : List Stream) (y : Stream × Nat) (h : StatusExecutes prog p v parts y)
    (x : Stream) : y.2 = 0 ∧ (y.2 = (prog v.cmdName v.flagOptionList (strOperands v) [x]).2 ↔
      (prog v.cmdName v.flagOptionList (strOperands v) [x]).2 = 0) := by
  rw [status_concatenation hcat hv (offered_concatenate ho hk) h]
  exact ⟨rfl, eq_comm⟩

/-- C112 for grep with one file: output and status are both right if and only if a line matches. The output alone is right in any
case. -/
theorem C112_grep_exact {inv : CommandInvocationInitial} {c : CommandInvocationWithIO} {what : IOVar → FileWithIO}
    {v : CommandInvocationWithIOVars} {p : Parallelizer} (hn : inv.cmdName = "grep") (ht : Typed inv c) (hs : StandsFor what c v)
    (ho : Offered inv p) (pat file : String) (hops : inv.operandList = [pat, file]) (hx : ¬ (Has inv "-e" ∨ Has inv "-f"))
    (hcov : ∀ f ∈ v.flagOptionList, f.getName ∈ lineGrepNames) (prog : StatusPrograms) (hcat : StatusCat prog)
    (matching : List FlagOptionWithIOVar → List String → String → Bool)
    (shown : List FlagOptionWithIOVar → List String → String → List String) (hg : StatusGrep prog matching shown)
    (x : Stream) (parts : List Stream) (hsp : Split p.splitter x parts) (y : Stream × Nat) (h : StatusExecutes prog p v parts y) :
    y.1 = (prog "grep" v.flagOptionList [pat] [x]).1 ∧
      (y = prog "grep" v.flagOptionList [pat] [x] ↔ ∃ l ∈ x, matching v.flagOptionList [pat] l = true) := by
  obtain ⟨hc, hstr, hcn, hp⟩ := grep_file hn ht hs ho pat file hops hx
  rw [split_concatenation hp] at hsp
  have e : (parts.map fun part => (prog v.cmdName v.flagOptionList (strOperands v) [part]).1).flatten =
      (x.filter (matching v.flagOptionList [pat])).flatMap (shown v.flagOptionList [pat]) := by
    rw [← hsp, hcn, hstr]
    clear hsp h
    induction parts with
    | nil => rfl
    | cons a l ih =>
        rw [List.map_cons, List.flatten_cons, ih, hg _ _ _ hcov, List.flatten_cons, List.filter_append, List.flatMap_append]
  rw [status_concatenation hcat hc hp h, hg _ _ _ hcov, e]
  refine ⟨rfl, ?_⟩
  by_cases ha : x.any (matching v.flagOptionList [pat]) = true
  · rw [if_pos ha]; exact iff_of_true rfl (by simpa using ha)
  · rw [if_neg ha]
    refine iff_of_false (by intro h; cases h) ?_
    simpa using ha

theorem statusRun_eq {prog : StatusPrograms} {p : Parallelizer} {c : CommandInvocationWithIOVars} (hc : OneStream c)
    (hp : p.coreMapperSpec = sameCommand) (hp0 : p.infoMapperAggregator = 0) {part : Stream} {out : Stream × Nat}
    (h : StatusRun prog p c part out) : out = prog c.cmdName c.flagOptionList (strOperands c) [part] := by
  obtain ⟨i, o, m, env, hi, ho, hne, hm, rfl, rfl⟩ := h
  have := mapperRun_eq (α := Stream × Nat) (prog := fun n fl strs ins => [prog n fl strs (ins.map fun z => (z.map Prod.fst).flatten)])
    hc hp hp0 (part := [(env i, 0)]) (out := [statusOutput prog env m])
    ⟨i, o, m, fun u => [(env u, 0)], hi, ho, hne, hm, rfl, by simp [output, statusOutput, Function.comp_def]⟩
  simpa [sequential] using this

/-- What the aggregator of sort is: sort with -m and the options that determine the order. -/
theorem sort_aggregator_is {p : Parallelizer} (hp : p.coreAggregatorSpec = sortMerge) {c : CommandInvocationWithIOVars} (hc : OneStream c)
    {x y o : IOVar} (hx : Unused c x) (hy : Unused c y) (hxy : x ≠ y ∧ o ≠ x ∧ o ≠ y) {agg : Aggregator}
    (h : p.getActualAggregator c [x, y] o = .ok (some agg)) :
    agg.cmd.cmdName = c.cmdName ∧ agg.cmd.flagOptionList = mergeOf c.flagOptionList := by
  obtain ⟨agg', h', he⟩ := sort_aggregator
    (fun n fl _ _ => if n = c.cmdName ∧ fl = mergeOf c.flagOptionList then ["yes"] else []) hp hc hx hy hxy
  rw [h] at h'; cases h'
  have := he (fun _ => [])
  unfold output at this
  rw [if_pos ⟨rfl, rfl⟩] at this
  simp only [] at this
  split at this
  · assumption
  · cases this

/-- C112 for sort: output and status of every execution of an offered plan are those of the command on the whole input. -/
theorem C112_sort (inv : CommandInvocationInitial) (hn : inv.cmdName = "sort") (p : Parallelizer) (hp : Offered inv p)
    (prog : StatusPrograms) (le : List FlagOptionWithIOVar → String → String → Prop) (hprog : SortProgram (withoutStatus prog) le)
    (hst : StatusSort prog) (c : CommandInvocationWithIOVars) (hb : Belongs inv c) (hcov : Covered "sort" c.flagOptionList)
    (hc : OneStream c) (hstr : strOperands c = []) (hle : LineOrder (le c.flagOptionList)) (x : Stream) (parts : List Stream)
    (hs : Split p.splitter x parts) (y : Stream × Nat) (h : StatusMerges prog p c parts y) :
    y = prog "sort" c.flagOptionList [] [x] ∧ y.2 = 0 := by
  obtain ⟨hno, hpp⟩ := sort_offered (.inl hn) hp
  have hp' : p.coreMapperSpec = sameCommand ∧ p.infoMapperAggregator = 0 ∧ p.coreAggregatorSpec = sortMerge := by
    rcases hpp with rfl | rfl <;> exact ⟨rfl, rfl, rfl⟩
  have hcn : c.cmdName = "sort" := hb.1.trans hn
  have hclean : ∀ f ∈ c.flagOptionList, f.getName ∉ ["-c", "-C"] := by
    intro f hf hm
    have : f.getName ∈ inv.flagOptionList.map (·.getName) := hb.2 ▸ List.mem_map_of_mem hf
    obtain ⟨g, hg, he⟩ := List.mem_map.1 this
    have hhas : Has inv f.getName := by
      cases g with
      | flag n => exact .inl (he ▸ hg)
      | option n a => exact .inr ⟨a, he ▸ hg⟩
    refine hno ⟨f.getName, ?_, hhas⟩
    simp only [List.mem_cons, List.not_mem_nil, or_false] at hm
    rcases hm with e | e <;> rw [e] <;> decide
  obtain ⟨runs, rfl, hruns, hj⟩ := h
  have hleaf : ∀ r ∈ runs, r.2.2 = 0 := by
    intro r hr
    rw [statusRun_eq hc hp'.1 hp'.2.1 (hruns r hr), hcn]
    exact hst _ _ _ hclean
  have key : ∀ outs z, StatusJoined prog p c outs z → (∀ q ∈ outs, q.2 = 0) →
      z.2 = 0 ∧ Joined (withoutStatus prog) p c (outs.map Prod.fst) z.1 := by
    intro outs z hz
    induction hz with
    | leaf s => exact fun hq => ⟨hq s (by simp), .leaf _⟩
    | @node l r a b x y o agg env hl hr hx hy ho hxy h ha hb ihl ihr =>
        intro hq
        obtain ⟨-, jl⟩ := ihl fun q hm => hq q (List.mem_append_left _ hm)
        obtain ⟨-, jr⟩ := ihr fun q hm => hq q (List.mem_append_right _ hm)
        constructor
        · obtain ⟨h1, h2⟩ := sort_aggregator_is hp'.2.2 hc hx hy hxy h
          unfold statusOutput
          rw [h1, h2, hcn]
          refine hst _ _ _ fun f hf => ?_
          rcases List.mem_append.1 hf with hf | hf
          · exact hclean f (List.mem_filter.1 hf).1
          · rw [List.mem_singleton.1 hf]; decide
        · rw [List.map_append]
          exact .node jl jr hx hy ho hxy h ha hb
  obtain ⟨h0, hj'⟩ := key _ _ hj (by intro q hq; obtain ⟨r, hr, rfl⟩ := List.mem_map.1 hq; exact hleaf r hr)
  refine ⟨Prod.ext ?_ ?_, h0⟩
  · have := C55_sort inv hn p hp (withoutStatus prog) le hprog c hb hcov hc hstr hle x _ hs y.1
      ⟨runs.map fun r => (r.1, r.2.1), by simp, ?_, .tree (by rw [hp'.2.2]; rfl) (by simpa [Function.comp_def] using hj')⟩
    · rw [this]; unfold sequential withoutStatus; rw [hcn, hstr]
    · intro r hr
      obtain ⟨q, hq, rfl⟩ := List.mem_map.1 hr
      obtain ⟨i, o, m, env, h1, h2, h3, h4, h5, h6⟩ := hruns q hq
      exact ⟨i, o, m, env, h1, h2, h3, h4, h5, by rw [h6]; rfl⟩
  · rw [h0, hst _ _ _ hclean]

/-- C112_sort is not about nothing: every split into at least one part can be executed. -/
theorem C112_sort_executable (inv : CommandInvocationInitial) (hn : inv.cmdName = "sort") (p : Parallelizer) (hp : Offered inv p)
    (prog : StatusPrograms) (c : CommandInvocationWithIOVars) (hc : OneStream c) (parts : List Stream) (hne : parts ≠ []) :
    ∃ y, StatusMerges prog p c parts y := by
  have hk : p.coreAggregatorSpec.kind = .custom2Ary := by
    rcases (sort_offered (.inl hn) hp).2 with rfl | rfl <;> rfl
  obtain ⟨y, runs, rfl, hruns, hrec⟩ := C55_executable inv hn p hp (withoutStatus prog) c hc parts hne
  have hsr : ∀ l : List (Stream × Stream), (∀ r ∈ l, MapperRun (withoutStatus prog) p c r.1 r.2) →
      ∃ sr : List (Stream × (Stream × Nat)), (sr.map fun r => (r.1, r.2.1)) = l ∧ ∀ r ∈ sr, StatusRun prog p c r.1 r.2 := by
    intro l
    induction l with
    | nil => exact fun _ => ⟨[], rfl, by simp⟩
    | cons r l ih =>
        intro h
        obtain ⟨sr, e, hs⟩ := ih fun q hq => h q (List.mem_cons_of_mem _ hq)
        obtain ⟨i, o, m, env, h1, h2, h3, h4, h5, h6⟩ := h r List.mem_cons_self
        refine ⟨(r.1, statusOutput prog env m) :: sr, ?_, ?_⟩
        · rw [List.map_cons, e]; congr 1; exact Prod.ext rfl h6.symm
        · intro q hq
          rcases List.mem_cons.1 hq with rfl | hq
          · exact ⟨i, o, m, env, h1, h2, h3, h4, h5, rfl⟩
          · exact hs q hq
  have hjoin : ∀ outs y, Joined (withoutStatus prog) p c outs y → ∀ souts : List (Stream × Nat), souts.map Prod.fst = outs →
      ∃ z, z.1 = y ∧ StatusJoined prog p c souts z := by
    intro outs y h
    induction h with
    | leaf s =>
        intro souts e
        obtain ⟨q, l, rfl, e1, e2⟩ := List.map_eq_cons_iff.1 e
        rw [List.map_eq_nil_iff.1 e2]
        exact ⟨q, e1, .leaf _⟩
    | @node l r a b x y o agg env hl hr hx hy ho hxy h ha hb ihl ihr =>
        intro souts e
        obtain ⟨s1, s2, rfl, e1, e2⟩ := List.map_eq_append_iff.1 e
        obtain ⟨z1, g1, j1⟩ := ihl s1 e1
        obtain ⟨z2, g2, j2⟩ := ihr s2 e2
        exact ⟨_, rfl, .node j1 j2 hx hy ho hxy h (ha.trans g1.symm) (hb.trans g2.symm)⟩
  generalize he : runs.map Prod.snd = outs at hrec
  cases hrec with
  | tree _ h =>
      obtain ⟨sr, rfl, hs⟩ := hsr runs hruns
      obtain ⟨z, -, hz⟩ := hjoin _ _ h (sr.map Prod.snd) (by rw [← he]; simp [Function.comp_def])
      exact ⟨z, sr, by simp [Function.comp_def], hs, hz⟩
  | concatenate hk' => rw [hk] at hk'; cases hk'
  | adjacent hk' => rw [hk] at hk'; cases hk'

/-- C112 is false of the code: for `grep a f` both plans that concatenate are offered, and when no line matches every parallel run
succeeds although the command fails. -/
theorem C112_false : ∃ inv c what v, PlainLine "grep" ["a", "f"] [] ["a", "f"] ∧
    parse (Shlex.join ("grep" :: ["a", "f"])) = .ok inv ∧ Typed inv c ∧ StandsFor what c v ∧
    ∀ p ∈ bothPlans concatenation, Offered inv p ∧ ∀ (prog : StatusPrograms) matching shown, StatusCat prog →
      StatusGrep prog matching shown → ∀ x parts, Split p.splitter x parts → (∀ l ∈ x, matching v.flagOptionList ["a"] l = false) →
        (∃ y, StatusExecutes prog p v parts y) ∧
        ∀ y, StatusExecutes prog p v parts y → y.2 = 0 ∧ (prog "grep" v.flagOptionList ["a"] [x]).2 = 1 := by
  have ht : Typed ⟨"grep", [], ["a", "f"]⟩
      ⟨"grep", [], [.argString "a", .io (.file "f" .streamInput)], none, some stdoutStream⟩ :=
    ⟨⟨[], [.argString, inT], none, some stdoutStream⟩, by decide +kernel, by decide +kernel⟩
  obtain ⟨what, v, hs⟩ := C90_variables _
  refine ⟨_, _, what, v, ⟨⟨(manuals.lookup "grep").getD [], by decide +kernel, .operands (by unfold OperandWord; decide +kernel)⟩,
    by simp, by decide⟩, by decide +kernel, ht, hs, ?_⟩
  have hfl : v.flagOptionList = [] := by
    have := hs.options
    generalize v.flagOptionList = fl at this
    cases this
    rfl
  intro p hp
  have ho : Offered ⟨"grep", [], ["a", "f"]⟩ p := (C109_offered _ rfl (by simp) p).2 hp
  have hx : ¬ (Has ⟨"grep", [], ["a", "f"]⟩ "-e" ∨ Has ⟨"grep", [], ["a", "f"]⟩ "-f") := by decide +kernel
  obtain ⟨hv, -, -, -⟩ := grep_file rfl ht hs ho "a" "f" rfl hx
  refine ⟨ho, fun prog matching shown hcat hg x parts hsp hno => ⟨status_exists prog hv hp parts, fun y hy => ?_⟩⟩
  rw [status_concatenation hcat hv hp hy, hg _ _ _ (by rw [hfl]; simp), if_neg]
  · exact ⟨rfl, rfl⟩
  · simpa using hno

/-- Programs as in the theorems: `grep` matches lines that begin with the pattern. -/
def statusSample : StatusPrograms := fun n _ strs ins =>
  if n = "grep" then (ins.flatten.filter fun l => (strs.headD "").isPrefixOf l,
    if ins.flatten.any (fun l => (strs.headD "").isPrefixOf l) then 0 else 1)
  else (ins.flatten, 0)

example : StatusCat statusSample ∧ StatusGrep statusSample (fun _ strs l => (strs.headD "").isPrefixOf l) (fun _ _ l => [l]) ∧
    statusSample "grep" [] ["a"] [["b", "c"]] = ([], 1) ∧ statusSample "grep" [] ["a"] [["b", "a"]] = (["a"], 0) :=
  ⟨fun _ => rfl, fun fl strs x _ => by simp [statusSample], by decide +kernel, by decide +kernel⟩

example : ∃ prog : StatusPrograms, StatusSort prog ∧
    SortProgram (withoutStatus prog) (fun fl a b => if Given fl "-r" then b ≤ a else a ≤ b) :=
  ⟨fun n fl strs ins => (sortOnly n fl strs ins, 0), fun _ _ _ _ => rfl, sortOnly_ok⟩

end PashAnn
