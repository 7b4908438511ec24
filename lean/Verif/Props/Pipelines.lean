import Verif.Spec.Pipelines
import Verif.Props.Nested
import Verif.Props.TextPlans
import Verif.Props.Lines

/-! Property C94: pipelines run in parts. Specification: `Spec/Pipelines.lean`. -/

namespace PashAnn
open Spec

theorem dealt_map {α : Type} {f : List α → List α} (h : LineWise f) {x : List α} {parts : List (List α)}
    (hd : Dealt x parts) : Dealt (f x) (parts.map f) := by
  induction hd with
  | start n => rw [List.map_replicate, lineWise_nil h]; exact .start n
  | @block x w b before after hd ih =>
      rw [h, List.map_append, List.map_cons, h]
      rw [List.map_append, List.map_cons] at ih
      exact .block ih

theorem split_map {α : Type} {f : List α → List α} (h : LineWise f) {s : Splitter} {x : List α} {parts : List (List α)}
    (hs : Split s x parts) : Split s (f x) (parts.map f) := by
  have flat : parts.flatten = x → (parts.map f).flatten = f x := by
    rintro rfl
    exact lineWise_flatten h parts
  cases s
  case roundRobinUnwrapFlag => exact dealt_map h hs
  all_goals exact flat hs

theorem through_eq {α : Type} {prog : ProgramsOn α} {l : List Stage} (hl : ∀ s ∈ l, ProperStage s ∧ Concatenates s)
    {x y : List α} (h : Through prog l x y) : y = piped prog l x := by
  induction h with
  | done => rfl
  | @stage s l x y z h _ ih =>
      obtain ⟨⟨ho, _, hc⟩, hk⟩ := hl s (List.mem_cons_self ..)
      have hpl := offered_concatenate ho hk
      have hpm : s.plan.coreMapperSpec = sameCommand ∧ s.plan.infoMapperAggregator = 0 := by
        simp only [bothPlans, List.mem_cons, List.not_mem_nil, or_false] at hpl
        rcases hpl with h | h <;> rw [h] <;> exact ⟨rfl, rfl⟩
      rw [ih (fun s hs => hl s (List.mem_cons_of_mem _ hs)), mapperRun_eq hc hpm.1 hpm.2 h]
      rfl

theorem piped_lineWise {α : Type} {prog : ProgramsOn α} {l : List Stage} (hl : ∀ s ∈ l, LineWise (sequential prog s.cmd)) :
    LineWise (piped prog l) := by
  induction l with
  | nil => intro x y; rfl
  | cons s l ih =>
      intro x y
      show piped prog l _ = piped prog l _ ++ piped prog l _
      rw [hl s (List.mem_cons_self ..), ih (fun s hs => hl s (List.mem_cons_of_mem _ hs))]

theorem piped_append {α : Type} (prog : ProgramsOn α) (l l' : List Stage) (x : List α) :
    piped prog (l ++ l') x = piped prog l' (piped prog l x) := by
  induction l generalizing x with
  | nil => rfl
  | cons s l ih => exact ih _

theorem stage_lineWise {α : Type} {prog : ProgramsOn α} (hcat : CatProgram prog) {s : Stage} (hs : ProperStage s)
    (hk : Concatenates s) (hr : StageRight prog s) : LineWise (sequential prog s.cmd) := by
  have hpl := offered_concatenate hs.1 hk
  simp only [bothPlans, List.mem_cons, List.not_mem_nil, or_false] at hpl
  unfold StageRight at hr
  rcases hpl with h | h <;> rw [h] at hr <;>
    exact C53_necessary prog hcat s.cmd hs.2.2 _ (by decide) hr

/-- C94. A pipeline of stages, each of which is right when it is run in parallel alone, and all of which but the last
concatenate, gives the output of the sequential pipeline when the parts are not recombined between the stages. -/
theorem C94_pipeline {α : Type} (prog : ProgramsOn α) (hcat : CatProgram prog) (l : List Stage) (last : Stage)
    (hp : ∀ s ∈ l, ProperStage s ∧ Concatenates s) (hr : ∀ s ∈ l ++ [last], StageRight prog s) (x y : List α)
    (h : PipelineRun prog l last x y) : y = piped prog (l ++ [last]) x := by
  obtain ⟨runs, hs, ht, he⟩ := h
  have hlw : LineWise (piped prog l) := piped_lineWise (fun s hs => stage_lineWise hcat (hp s hs).1 (hp s hs).2
    (hr s (List.mem_append_left _ hs)))
  have hout : runs.map Prod.snd = (runs.map Prod.fst).map (piped prog l) := by
    rw [List.map_map]
    exact List.map_congr_left (fun r hr => through_eq hp (ht r hr))
  rw [piped_append]
  refine hr last (by simp) _ _ _ ?_ he
  rw [hout]
  exact split_map hlw hs

/-- C94. Such runs exist for every split for which the last stage can be executed. -/
theorem C94_runs {α : Type} (prog : ProgramsOn α) (l : List Stage) (last : Stage)
    (hp : ∀ s ∈ l, ProperStage s ∧ Concatenates s) (x : List α) (parts : List (List α))
    (hs : Split last.plan.splitter x parts)
    (he : ∀ outs : List (List α), outs.length = parts.length → ∃ y, Executes prog last.plan last.cmd outs y) :
    ∃ y, PipelineRun prog l last x y := by
  have ht : ∀ part : List α, Through prog l part (piped prog l part) := by
    clear hs he
    induction l with
    | nil => exact fun part => .done part
    | cons s l ih =>
        intro part
        obtain ⟨⟨ho, _, hc⟩, hk⟩ := hp s (List.mem_cons_self ..)
        have hpl := offered_concatenate ho hk
        have hpm : s.plan.coreMapperSpec = sameCommand ∧ s.plan.infoMapperAggregator = 0 := by
          simp only [bothPlans, List.mem_cons, List.not_mem_nil, or_false] at hpl
          rcases hpl with h | h <;> rw [h] <;> exact ⟨rfl, rfl⟩
        exact .stage (mapperRun_exists prog hc hpm.1 hpm.2 part) (ih (fun s hs => hp s (List.mem_cons_of_mem _ hs)) _)
  obtain ⟨y, hy⟩ := he (parts.map (piped prog l)) (by simp)
  refine ⟨y, parts.map (fun part => (part, piped prog l part)), ?_, ?_, ?_⟩
  · simpa [Function.comp_def] using hs
  · intro r hr; obtain ⟨a, -, rfl⟩ := List.mem_map.1 hr; exact ht a
  · rw [List.map_map]; exact hy

theorem lineStage_right {prog : Programs} (hcat : CatProgram prog) {man : Manuals prog} {s : Stage} (hp : ProperStage s)
    (h : LineStage man s) : StageRight prog s := by
  intro x parts y hs he
  cases h with
  | grep hn hcov hx =>
      exact C54_grep_partial s.inv hn s.plan hp.1 hx prog hcat man.grep man.grepProgram s.cmd hp.2.1 hcov hp.2.2 x parts hs y he
  | cut hn hcov hst hz hf =>
      exact C65_cut_partial s.inv hn s.plan hp.1 prog hcat man.select man.listed man.cutProgram s.cmd hp.2.1 hcov hp.2.2 hst hz
        hf x parts hs y he
  | sed hn hcov hst hpl hz ha =>
      exact C67_sed_partial s.inv hn s.plan hp.1 prog hcat man.plainScript man.act man.sedProgram s.cmd hp.2.1 hcov hp.2.2 _ hst
        hpl hz ha x parts hs y he

theorem lineStage_concatenates {prog : Programs} {man : Manuals prog} {s : Stage} (hp : ProperStage s)
    (h : LineStage man s) : Concatenates s := by
  obtain ⟨i, hi, hp⟩ := offered_iff.1 hp.1
  obtain ⟨plans, comm, ho, hpl, hcm, -⟩ := (C64_table _ _).1 hi
  have hn : s.inv.cmdName ∈ ["grep", "cut", "sed"] := by
    cases h with
    | grep hn => simp [hn]
    | cut hn => simp [hn]
    | sed hn => simp [hn]
  have key : comm = false ∧ ∀ q ∈ plans, q.coreAggregatorSpec.kind = .concatenate := by
    have both : ∀ q ∈ bothPlans concatenation, q.coreAggregatorSpec.kind = .concatenate := by
      intro q hq
      simp only [bothPlans, List.mem_cons, List.not_mem_nil, or_false] at hq
      rcases hq with rfl | rfl <;> rfl
    simp only [List.mem_cons, List.not_mem_nil, or_false] at hn
    cases ho with
    | conc => exact ⟨rfl, both⟩
    | grep => exact ⟨rfl, both⟩
    | grepStop => exact ⟨rfl, by simp⟩
    | sed => exact ⟨rfl, both⟩
    | sedStop => exact ⟨rfl, by simp⟩
    | test hc => simp only [List.mem_cons, List.not_mem_nil, or_false] at hc; grind
    | sort hc => simp only [List.mem_cons, List.not_mem_nil, or_false] at hc; grind
    | sortStop hc => simp only [List.mem_cons, List.not_mem_nil, or_false] at hc; grind
    | _ => simp_all
  rcases hp with hp | ⟨hc, _⟩
  · exact key.2 _ (hpl ▸ hp)
  · rw [hcm, key.1] at hc; cases hc

/-- C94, for programs as in the manuals: filters, then a filter, a sort or a `uniq`. -/
theorem C94_manual (prog : Programs) (hcat : CatProgram prog) (man : Manuals prog) (l : List Stage) (last : Stage)
    (hp : ∀ s ∈ l ++ [last], ProperStage s) (hl : ∀ s ∈ l, LineStage man s) (hlast : LastStage man last) (x y : Stream)
    (h : PipelineRun prog l last x y) : y = piped prog (l ++ [last]) x := by
  have hpl : ∀ s ∈ l, ProperStage s := fun s hs => hp s (List.mem_append_left _ hs)
  have hpz : ProperStage last := hp last (by simp)
  refine C94_pipeline prog hcat l last (fun s hs => ⟨hpl s hs, lineStage_concatenates (hpl s hs) (hl s hs)⟩) ?_ x y h
  intro s hs
  rcases List.mem_append.1 hs with hs | hs
  · exact lineStage_right hcat (hpl s hs) (hl s hs)
  rw [List.mem_singleton.1 hs]
  cases hlast with
  | line h => exact lineStage_right hcat hpz h
  | sort hn hcov hst hle =>
      exact fun x parts y hs he => C55_sort last.inv hn last.plan hpz.1 prog man.le man.sortProgram last.cmd hpz.2.1 hcov
        hpz.2.2 hst hle x parts hs y he
  | uniq hn hcov hst hx hg =>
      exact fun x parts y hs he => C56_uniq_partial last.inv hn last.plan hpz.1 hx prog man.same man.uniqProgram last.cmd
        hpz.2.1 hg hcov hpz.2.2 hst x parts hs y he

/-- C94 for command lines: a pipeline of plainly written command lines run in parts gives what the command lines give,
one after the other. -/
theorem C94_lines {α : Type} (line : LineProgramsOn α) (prog : ProgramsOn α) (hcat : CatProgram prog)
    (l : List WrittenStage) (last : WrittenStage)
    (hw : ∀ w ∈ l ++ [last], w.Proper ∧ SamePrograms w.what line prog ∧ StageRight prog w.stage)
    (hk : ∀ w ∈ l, Concatenates w.stage) (x y : List α)
    (h : PipelineRun prog (l.map (·.stage)) last.stage x y) : y = pipedLines line (l ++ [last]) x := by
  have proper : ∀ w ∈ l ++ [last], ProperStage w.stage := by
    intro w hm
    obtain ⟨⟨hn, hp⟩, -⟩ := hw w hm
    have hr := line_ready hp hn
    exact ⟨hp.offered, hr.belongs, hr.stream⟩
  have e : ∀ k : List WrittenStage, (∀ w ∈ k, w ∈ l ++ [last]) → ∀ z,
      piped prog (k.map (·.stage)) z = pipedLines line k z := by
    intro k
    induction k with
    | nil => exact fun _ _ => rfl
    | cons w k ih =>
        intro hk z
        obtain ⟨⟨hn, hp⟩, hs, -⟩ := hw w (hk w (List.mem_cons_self ..))
        show piped prog (k.map (·.stage)) (sequential prog w.stage.cmd z) = pipedLines line k _
        rw [ih (fun w hw => hk w (List.mem_cons_of_mem _ hw)), C90_written hp hn line prog hs]
  rw [← e _ (fun _ h => h), List.map_append]
  refine C94_pipeline prog hcat _ last.stage ?_ ?_ x y h
  · intro s hs
    obtain ⟨w, hm, rfl⟩ := List.mem_map.1 hs
    exact ⟨proper w (List.mem_append_left _ hm), hk w hm⟩
  · intro s hs
    rw [← List.map_singleton (f := fun w : WrittenStage => w.stage), ← List.map_append] at hs
    obtain ⟨w, hm, rfl⟩ := List.mem_map.1 hs
    exact (hw w hm).2.2

/-- C94, the earlier stages have to concatenate: if `sort` is followed by a stage for which order matters, and its parts
are not merged in between, then two lines in the wrong order in two parts come out in the wrong order, for all programs
as in the manual. -/
theorem C94_sort_inside (prog : Programs) (hcat : CatProgram prog)
    (le : List FlagOptionWithIOVar → String → String → Prop) (hprog : SortProgram prog le) (s last : Stage)
    (hs : ProperStage s) (hn : s.inv.cmdName = "sort") (hcov : Covered "sort" s.cmd.flagOptionList)
    (hst : strOperands s.cmd = []) (hle : LineOrder (le s.cmd.flagOptionList)) (hl : ProperStage last)
    (hk : Concatenates last) (hr : StageRight prog last) (a b : String) (hab : le s.cmd.flagOptionList a b)
    (hne : sequential prog last.cmd [a] ++ sequential prog last.cmd [b] ≠
      sequential prog last.cmd [b] ++ sequential prog last.cmd [a]) :
    ∃ y, PipelineRun prog [s] last [b, a] y ∧ y ≠ piped prog [s, last] [b, a] := by
  obtain ⟨hblock, hplan⟩ := sort_offered (.inl hn) hs.1
  have hpm : s.plan.coreMapperSpec = sameCommand ∧ s.plan.infoMapperAggregator = 0 := by
    rcases hplan with h | h <;> rw [h] <;> exact ⟨rfl, rfl⟩
  have hseq : ∀ z, (sequential prog s.cmd z).Pairwise (le s.cmd.flagOptionList) ∧ (sequential prog s.cmd z).Perm z := by
    have hng : ∀ n, n ∈ ParGen.sortBlockers → ¬ Given s.cmd.flagOptionList n :=
      fun n hn hg => hblock ⟨n, hn, (has_iff_given hs.2.1 n).2 hg⟩
    intro z
    unfold sequential
    rw [hs.2.1.1.trans hn, hst]
    have := hprog.sorts s.cmd.flagOptionList [z] hcov hle (hng _ (by simp [ParGen.sortBlockers]))
      (hng _ (by simp [ParGen.sortBlockers])) (hng _ (by simp [ParGen.sortBlockers]))
      (hng _ (by simp [ParGen.sortBlockers])) (fun hm => absurd hm (hng _ (by simp [ParGen.sortBlockers])))
    simpa using this
  have hone : ∀ z, sequential prog s.cmd [z] = [z] := fun z => List.perm_singleton.1 (hseq [z]).2
  have htwo : sequential prog s.cmd [b, a] = [a, b] :=
    List.Perm.eq_of_pairwise (fun u v _ _ => hle.antisymm u v) (hseq _).1 (by simpa using hab)
      ((hseq [b, a]).2.trans (List.Perm.swap a b []))
  have hpl := offered_concatenate hl.1 hk
  obtain ⟨y, hy⟩ := executable_concatenation prog hl.2.2 hpl [[b], [a]]
  have ht : ∀ z, Through prog [s] [z] [z] := by
    intro z
    refine .stage (y := [z]) ?_ (.done _)
    have := mapperRun_exists prog hs.2.2 hpm.1 hpm.2 [z]
    rwa [hone] at this
  have hlw := stage_lineWise hcat hl hk hr
  refine ⟨y, ⟨[([b], [b]), ([a], [a])], (split_concatenation hpl).2 rfl, ?_, hy⟩, ?_⟩
  · intro r hr
    simp only [List.mem_cons, List.not_mem_nil, or_false] at hr
    rcases hr with rfl | rfl <;> exact ht _
  · rw [executes_concatenation hcat hl.2.2 hpl hy]
    show _ ≠ sequential prog last.cmd (sequential prog s.cmd [b, a])
    rw [htwo, show ([a, b] : Stream) = [a] ++ [b] from rfl, hlw]
    simpa using hne.symm

/-- All sample programs together. -/
def allProgs : Programs := fun n fl strs ins =>
  if n = "cat" then ins.flatten else if n = "grep" then grepProgs n fl strs ins else if n = "cut" then cutProgs n fl strs ins
  else if n = "sed" then sedProgs n fl strs ins else if n = "sort" then sortProgs n fl strs ins
  else uniqProgs n fl strs ins

theorem allProgs_cat : CatProgram allProgs := fun _ => rfl

def allManuals : Manuals allProgs where
  grep := sampleGrep
  grepProgram := fun _ _ _ _ _ => rfl
  select := fun _ l => [String.ofList (l.toList.take 1)]
  listed := fun _ k => decide (k = 1)
  cutProgram := ⟨cutProgs_ok.2.1, cutProgs_ok.2.2⟩
  plainScript := fun s => s.toList.dropWhile Char.isDigit = "s/a/b/".toList
  act := fun _ s k _ l => sedAct s k l
  sedProgram := ⟨sedProgs_ok.2.1, sedProgs_ok.2.2⟩
  le := fun fl a b => if Given fl "-r" then b ≤ a else a ≤ b
  sortProgram := ⟨sortProgs_ok.1.1, sortProgs_ok.1.2⟩
  same := fun _ => (· == ·)
  uniqProgram := ⟨uniqProgs_ok.1, uniqProgs_ok.2, uniqProgs_ok.3⟩

def grepStage : Stage := ⟨⟨"grep", [.flag "-i"], ["a", "f"]⟩, plan .consecChunks concatenation, grepSample [.flag "-i"]⟩
def cutStage : Stage := ⟨⟨"cut", [.option "-f" "1"], ["f"]⟩, plan .consecChunks concatenation, cutSample⟩
def sortStage : Stage := ⟨⟨"sort", [.flag "-r"], ["f"]⟩, plan .roundRobinUnwrapFlag sortMerge, sortSample⟩

theorem sortSample_ok : OneStream sortSample :=
  ⟨by unfold Described; decide +kernel, by decide +kernel, ⟨1, by decide +kernel⟩, ⟨2, by decide +kernel, rfl⟩,
    by intro n v; simp [sortSample], by intro i h; cases h⟩

theorem grepStage_ok : ProperStage grepStage ∧ LineStage allManuals grepStage :=
  ⟨⟨offered_iff.2 ⟨_, grep_offered rfl (by simp [grepStage, Has, grepSpecial]), .inl (by simp [grepStage, bothPlans])⟩,
    ⟨rfl, rfl⟩, grepSample_ok _ (by simp [optionVar])⟩, .grep rfl (by decide +kernel) (by simp [grepStage, Has])⟩

theorem cutStage_ok : ProperStage cutStage ∧ LineStage allManuals cutStage :=
  ⟨⟨offered_iff.2 ⟨_, (getPar_gen rfl (show ("cut", ParGen.cut) ∈ parTable by simp [parTable]) _).2
      (par_conc _ _ (.inr (.inr (.inl rfl)))), .inl (by simp [cutStage, bothPlans])⟩, ⟨rfl, rfl⟩, cutSample_ok⟩,
    .cut rfl (by decide +kernel) rfl (by simp [cutStage, Has]) (by
      rintro ⟨-, h⟩
      exact absurd h (by decide +kernel))⟩

theorem sortStage_ok : ProperStage sortStage ∧ LastStage allManuals sortStage :=
  ⟨⟨offered_iff.2 ⟨offers [plan .consecChunks sortMerge] true, (getPar_gen rfl (show ("sort", ParGen.sort) ∈ parTable by simp [parTable]) _).2
      (par_sort _ (by simp [sortStage, ParGen.sortBlockers, Has])), .inr ⟨rfl, _, List.mem_singleton.2 rfl, rfl, rfl⟩⟩,
    ⟨rfl, rfl⟩, sortSample_ok⟩, .sort rfl (by decide +kernel) rfl (sortProgs_ok.2 [.flag "-r"])⟩

/-- `grep -i a f | cut -f 1 | sort -r` on lines dealt to two workers: such a run exists and gives what the pipeline gives. -/
example : parse "grep -i a f" = .ok grepStage.inv ∧ parse "cut -f 1 f" = .ok cutStage.inv ∧ parse "sort -r f" = .ok sortStage.inv ∧
    (∃ y, PipelineRun allProgs [grepStage, cutStage] sortStage ["a", "b", "a"] y) ∧
    ∀ y, PipelineRun allProgs [grepStage, cutStage] sortStage ["a", "b", "a"] y →
      y = sequential allProgs sortSample (sequential allProgs cutSample (sequential allProgs (grepSample [.flag "-i"]) ["a", "b", "a"])) := by
  have hp : ∀ s ∈ [grepStage, cutStage] ++ [sortStage], ProperStage s := by
    simp only [List.cons_append, List.nil_append, List.mem_cons, List.not_mem_nil, or_false]
    rintro s (rfl | rfl | rfl)
    · exact grepStage_ok.1
    · exact cutStage_ok.1
    · exact sortStage_ok.1
  have hl : ∀ s ∈ [grepStage, cutStage], LineStage allManuals s := by
    simp only [List.mem_cons, List.not_mem_nil, or_false]
    rintro s (rfl | rfl)
    · exact grepStage_ok.2
    · exact cutStage_ok.2
  refine ⟨by decide +kernel, by decide +kernel, by decide +kernel, ?_, fun y hy => C94_manual allProgs allProgs_cat allManuals
    [grepStage, cutStage] sortStage hp hl sortStage_ok.2 _ y hy⟩
  refine C94_runs allProgs _ sortStage (fun s hs => ⟨hp s (List.mem_append_left _ hs),
    lineStage_concatenates (hp s (List.mem_append_left _ hs)) (hl s hs)⟩) _ [["a", "a"], ["b"]] ?_ ?_
  · have h0 : Dealt ([] : Stream) ([] ++ [] :: [[]]) := Dealt.start 2
    have h1 : Dealt ["a"] ([["a"]] ++ [] :: []) := Dealt.block (block := ["a"]) h0
    have h2 : Dealt ["a", "b"] ([] ++ ["a"] :: [["b"]]) := Dealt.block (block := ["b"]) h1
    exact Dealt.block (block := ["a"]) h2
  · intro outs ho
    exact C55_executable sortStage.inv rfl _ sortStage_ok.1.1 allProgs _ sortSample_ok outs (by rintro rfl; cases ho)

/-- `sort -r f | cut -f 1`, without merging, is a case of `C94_sort_inside`. -/
example : ∃ y, PipelineRun allProgs [sortStage] cutStage ["a", "b"] y ∧ y ≠ piped allProgs [sortStage, cutStage] ["a", "b"] :=
  C94_sort_inside allProgs allProgs_cat allManuals.le allManuals.sortProgram sortStage cutStage sortStage_ok.1 rfl
    (by decide +kernel) rfl (sortProgs_ok.2 [.flag "-r"]) cutStage_ok.1 (lineStage_concatenates cutStage_ok.1 cutStage_ok.2)
    (lineStage_right allProgs_cat cutStage_ok.1 cutStage_ok.2) "b" "a" (by
      show if Given [.flag "-r"] "-r" then ("a" : String) ≤ "b" else "b" ≤ "a"
      decide +kernel) (by decide +kernel)

/-- `sed -E s/a/b/ | sed -E s/a/b/`: the command lines meet the hypotheses of `C94_lines`, and there is a run on two
parts. -/
example : ∃ (w : WrittenStage) (line : LineProgramsOn String), w.name = "sed" ∧ w.words = ["-E", "s/a/b/"] ∧ w.Proper ∧
    SamePrograms w.what line sedProgs ∧ StageRight sedProgs w.stage ∧ Concatenates w.stage ∧
    ∃ y, PipelineRun sedProgs [w.stage] w.stage ["a", "c"] y ∧ y = pipedLines line [w, w] ["a", "c"] := by
  obtain ⟨what, v, h⟩ := parallelLine_of (name := "sed") (ws := ["-E", "s/a/b/"]) (fs := [.flag "-E"]) (ops := ["s/a/b/"])
    (inv := ⟨"sed", [.flag "-E"], ["s/a/b/"]⟩)
    (c := ⟨"sed", [.flag "-E"], [.argString "s/a/b/"], some stdinStream, some stdoutStream⟩)
    (p := plan .consecChunks concatenation) ((manuals.lookup "sed").getD []) (by decide +kernel)
    (.flag (a := .none) (by unfold Lists; decide +kernel) (by simp) (.operands (by unfold OperandWord; decide +kernel)))
    (by decide +kernel) (by decide +kernel) (by decide +kernel) (by decide +kernel) (by decide +kernel) (by decide +kernel)
    ⟨⟨[.plainString], [.argString], some stdinStream, some stdoutStream⟩, by decide +kernel, by decide +kernel⟩
    (offered_of (.sed rfl rfl (.inr (.inl ⟨"/a/b/".toList, by decide +kernel⟩))) List.mem_cons_self)
  obtain ⟨line, hl⟩ := C90_programs what sedProgs (fun _ _ _ _ _ _ _ _ _ _ _ _ => rfl)
  have hr := line_ready h (by simp [lineNames])
  let w : WrittenStage := ⟨"sed", ["-E", "s/a/b/"], [.flag "-E"], ["s/a/b/"],
    ⟨"sed", [.flag "-E"], [.argString "s/a/b/"], some stdinStream, some stdoutStream⟩, what,
    ⟨⟨"sed", [.flag "-E"], ["s/a/b/"]⟩, plan .consecChunks concatenation, v⟩⟩
  have hright : StageRight sedProgs w.stage := by
    intro x parts y hs hy
    rw [C90_sed_partial h (by decide +kernel) "s/a/b/" rfl line sedProgs hl sedProgs_ok.1 _ _ sedProgs_ok.2
      (by decide +kernel) (fun k last k' last' l => by simp [sedAct]) _ _ hs _ hy]
    exact (C90_written h (by simp) line sedProgs hl x).symm
  have hw : w.Proper := ⟨by simp [w], h⟩
  have hps : ProperStage w.stage := ⟨h.offered, hr.belongs, hr.stream⟩
  obtain ⟨y, hy⟩ := C94_runs sedProgs [w.stage] w.stage (fun s hs => by rw [List.mem_singleton.1 hs]; exact ⟨hps, rfl⟩)
    ["a", "c"] [["a"], ["c"]] rfl (fun outs _ => C53_executable sedProgs v hr.stream _ outs)
  refine ⟨w, line, rfl, rfl, hw, hl, hright, rfl, y, hy, ?_⟩
  exact C94_lines line sedProgs sedProgs_ok.1 [w] w (by
    intro u hu
    have : u = w := by simpa using hu
    rw [this]; exact ⟨hw, hl, hright⟩) (by intro u hu; rw [List.mem_singleton.1 hu]; rfl) _ y hy

end PashAnn
