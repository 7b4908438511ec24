import Verif.Props.Pipelines
import Verif.Lemmas.Schedules

/-! C116: the commands that carry out a pipeline in parts can be run in any order and at the same time. -/

namespace PashAnn
open Spec

variable {α : Type}

/-- Stages whose mappers and aggregators are made: the outputs are concatenated, or the command sorts. -/
theorem carried_plan {s : Stage} (hs : ProperStage s) (hk : Concatenates s ∨ s.inv.cmdName ∈ ["sort", "custom_sort"]) :
    s.plan.coreMapperSpec = sameCommand ∧ s.plan.infoMapperAggregator = 0 ∧
      (s.plan.coreAggregatorSpec = concatenation ∨ s.plan.coreAggregatorSpec = sortMerge) := by
  rcases hk with hk | hk
  · have hpl := offered_concatenate hs.1 hk
    simp only [bothPlans, List.mem_cons, List.not_mem_nil, or_false] at hpl
    rcases hpl with h | h <;> rw [h] <;> exact ⟨rfl, rfl, .inl rfl⟩
  · simp only [List.mem_cons, List.not_mem_nil, or_false] at hk
    rcases (sort_offered hk hs.1).2 with h | h <;> rw [h] <;> exact ⟨rfl, rfl, .inr rfl⟩

/-- The mapper reads one new variable and writes the other. -/
theorem mapper_streams {p : Parallelizer} {c m : CommandInvocationWithIOVars} (hc : OneStream c) (hp : p.coreMapperSpec = sameCommand)
    (hp0 : p.infoMapperAggregator = 0) {i o : IOVar} (hi : Unused c i) (ho : Unused c o) (hne : o ≠ i)
    (hm : p.getActualMapper c i o [] = .ok (some m)) :
    withAccess m .streamInput = [i] ∧ withAccess m .streamOutput = [o] := by
  obtain ⟨ci, hci⟩ := hc.input
  obtain ⟨co, hco, _⟩ := hc.out
  obtain ⟨m2, h2, _, _, hs, hs', _⟩ := C40_substitute c [i] [o] hc.described hc.distinct (by simpa using hi.1)
    (by simpa using ⟨ho.1, hne⟩) (by simp) (by rw [hci]; rfl) (by rw [hco]; rfl)
  have hmm : m = m2 := by
    unfold Parallelizer.getActualMapper at hm
    rw [hp, hp0] at hm
    simp only [MapperSpec.getMapper, sameCommand, MapperSpec.initialMapper, pyAssert, List.length_nil, decide_true,
      if_true, bind, Except.bind, h2, Bool.not_true, Bool.false_eq_true, if_false] at hm
    cases hm; rfl
  exact hmm ▸ ⟨hs, hs'⟩

theorem cat_streams {p : Parallelizer} (hp : p.coreAggregatorSpec = concatenation) {c : CommandInvocationWithIOVars}
    {outs : List IOVar} {o : IOVar} (ho : o ∉ outs) {agg : Aggregator} (h : p.getActualAggregator c outs o = .ok (some agg)) :
    withAccess agg.cmd .streamInput = outs ∧ withAccess agg.cmd .streamOutput = [o] := by
  have h' : AggregatorSpec.makeConcatenate.getAggregator c outs o = .ok (some agg) := by
    unfold Parallelizer.getActualAggregator at h; rw [hp] at h; exact h
  refine ⟨makeCat_inputs outs o ho c agg h', ?_⟩
  obtain ⟨agg', ha', _, _, hf, hop, hi, hou, hacc, _⟩ := C47_concatenate p hp c outs o
  rw [h] at ha'; cases ha'
  have hocc : occurrences agg.cmd = outs ++ [o] := by
    unfold occurrences
    rw [hf, hop, hi, hou]
    simp [List.flatMap_map, varOf_var]
  unfold withAccess
  rw [hocc, List.filter_append]
  have h1 : outs.filter (fun v => accessOf agg.cmd v = some .streamOutput) = [] := by
    rw [List.filter_eq_nil_iff]
    intro v hv
    have : v ≠ o := fun e => ho (e ▸ hv)
    rw [hacc, if_neg this, if_pos hv]
    decide
  rw [h1, List.nil_append, List.filter_cons_of_pos (by rw [hacc, if_pos rfl]; decide), List.filter_nil]

theorem merge_streams {p : Parallelizer} (hp : p.coreAggregatorSpec = sortMerge) {c : CommandInvocationWithIOVars} (hc : OneStream c)
    {x y o : IOVar} (hx : Unused c x) (hy : Unused c y) (hxy : x ≠ y ∧ o ≠ x ∧ o ≠ y) {agg : Aggregator}
    (h : p.getActualAggregator c [x, y] o = .ok (some agg)) :
    withAccess agg.cmd .streamInput = [x, y] ∧ withAccess agg.cmd .streamOutput = [o] := by
  obtain ⟨co, hco, hio⟩ := hc.out
  have hcoa : accessOf c co = some .streamOutput := (withAccess_mem.1 (by rw [hco]; simp)).2
  have hv : ∀ n v, FlagOptionWithIOVar.optionIO n (.var v) ∉ ParGen.sortTransformer.apply c.flagOptionList := by
    rw [sortTransformer_apply]; intro n v hm
    rcases List.mem_append.1 hm with hm | hm
    · exact hc.options n v (List.mem_filter.1 hm).1
    · simp at hm
  have hocc : occurrences { c with flagOptionList := ParGen.sortTransformer.apply c.flagOptionList } = occurrences c := by
    unfold occurrences
    rw [noVisited_optionVar hc.options, noVisited_optionVar hv]
  obtain ⟨agg', ha, _, hn, hf, hop, hi, ho, hacc⟩ := C48_transformed_partial ParGen.sortTransformer c x y co o
    (by intro v hv'; rw [hocc] at hv'; exact hc.described v hv') (by rw [hocc]; exact hc.distinct)
    (by rw [noVisited_optionVar hv]; simp) hc.implicit hio hcoa hx.2 hy.2 hxy.1
  have e : p.getActualAggregator c [x, y] o = .ok (some agg') := by unfold Parallelizer.getActualAggregator; rw [hp]; exact ha
  rw [h] at e; cases e
  have hoc : occurrences agg.cmd = [x, y, o] := by
    unfold occurrences
    rw [hf, noVisited_optionVar hv, hop, hi, ho]
    simp only [List.flatMap_cons, varOf_var, List.flatMap_nil]; rfl
  have hne : ∀ v, Unused c v → v ≠ co := fun v hv he => by
    have := hv.2; rw [he, hcoa] at this; cases this
  have ax : accessOf agg.cmd x = some .streamInput := by
    rw [hacc, if_neg hxy.2.1.symm, if_neg (hne x hx), if_pos (.inl rfl)]
  have ay : accessOf agg.cmd y = some .streamInput := by
    rw [hacc, if_neg hxy.2.2.symm, if_neg (hne y hy), if_pos (.inr rfl)]
  have ao : accessOf agg.cmd o = some .streamOutput := by rw [hacc, if_pos rfl]
  unfold withAccess
  rw [hoc]
  simp [ax, ay, ao]

/-- What is known about a part of the network: the order of the commands, what they write, and what they read. -/
structure Wired (known : List IOVar) (cmds : List CommandInvocationWithIOVars) (made ends : List IOVar) : Prop where
  ordered : Ordered known cmds made
  reads : ((cmds.flatMap fun c => withAccess c .streamInput) ++ ends).Perm (known ++ made)

theorem nodup_of_perm {l l' : List IOVar} (h : l.Perm l') (hn : l'.Nodup) : l.Nodup := (h.nodup_iff).2 hn

theorem chain_wired {l : List Stage} (hl : ∀ s ∈ l, OneStream s.cmd ∧ s.plan.coreMapperSpec = sameCommand ∧
      s.plan.infoMapperAggregator = 0) {i o : IOVar} {cmds : List CommandInvocationWithIOVars} {made : List IOVar}
    (h : ChainCommands l i cmds made o) (hn : (i :: made).Nodup) (hu : ∀ s ∈ l, ∀ v ∈ i :: made, Unused s.cmd v) :
    Wired [i] cmds made [o] := by
  induction h with
  | done i => exact ⟨.nil _, List.Perm.refl _⟩
  | @stage s l i x o m cmds made h _ ih =>
      have hx : x ≠ i := fun e => (List.nodup_cons.1 hn).1 (by simp [e])
      obtain ⟨hs1, hs2, hs3⟩ := hl s List.mem_cons_self
      obtain ⟨hin, hout⟩ := mapper_streams hs1 hs2 hs3 (hu s List.mem_cons_self i (by simp))
        (hu s List.mem_cons_self x (by simp)) hx h
      have ih' := ih (fun t ht => hl t (List.mem_cons_of_mem _ ht)) (List.nodup_cons.1 hn).2
        (fun t ht v hv => hu t (List.mem_cons_of_mem _ ht) v (List.mem_cons_of_mem _ hv))
      refine ⟨.cons (by rw [hin]; simp) hout (by simpa using hx) (ordered_mono ih'.ordered (by simp) ?_), ?_⟩
      · exact nodup_of_perm (List.perm_append_comm (l₁ := made) (l₂ := [x, i])) (nodup_of_perm (List.Perm.swap i x made) hn)
      · simp only [List.flatMap_cons, hin, List.cons_append, List.nil_append]
        exact List.Perm.cons i ih'.reads

/-- Two parts of the network that do not depend on each other. -/
theorem wired_beside {k k' : List IOVar} {c c' : List CommandInvocationWithIOVars} {m m' e e' : List IOVar} (h : Wired k c m e)
    (h' : Wired k' c' m' e') (hd : ((m ++ m') ++ (k ++ k')).Nodup) : Wired (k ++ k') (c ++ c') (m ++ m') (e ++ e') := by
  refine ⟨ordered_append (ordered_mono h.ordered (fun v hv => List.mem_append_left _ hv) ?_)
    (ordered_mono h'.ordered (fun v hv => List.mem_append_right _ (List.mem_append_right _ hv)) ?_) hd, ?_⟩
  · exact List.Nodup.sublist ((List.sublist_append_left m m').append_right _) hd
  · refine nodup_of_perm ?_ hd
    rw [← List.append_assoc]
    exact List.perm_append_comm.append_right _
  · rw [List.flatMap_append]
    have swap : ∀ a b c d : List IOVar, ((a ++ b) ++ (c ++ d)).Perm ((a ++ c) ++ (b ++ d)) := by
      intro a b c d
      simp only [List.append_assoc]
      refine List.Perm.append_left _ ?_
      rw [← List.append_assoc, ← List.append_assoc]
      exact List.perm_append_comm.append_right _
    exact (swap _ _ _ _).trans ((h.reads.append h'.reads).trans (swap _ _ _ _))

/-- A part of the network that goes on where another one ends. -/
theorem wired_after {k : List IOVar} {c c' : List CommandInvocationWithIOVars} {m m' e e' : List IOVar} (h : Wired k c m e)
    (h' : Wired e c' m' e') (hd : ((m ++ m') ++ k).Nodup) : Wired k (c ++ c') (m ++ m') e' := by
  have he : ∀ v ∈ e, v ∈ m ++ k := by
    intro v hv
    have := h.reads.mem_iff.1 (List.mem_append_right _ hv)
    simp only [List.mem_append] at this ⊢
    exact this.symm
  refine ⟨ordered_append h.ordered (ordered_mono h'.ordered he ?_) hd, ?_⟩
  · refine nodup_of_perm ?_ hd
    rw [← List.append_assoc]
    exact List.perm_append_comm.append_right _
  · rw [List.flatMap_append, List.append_assoc]
    refine (List.Perm.append_left _ h'.reads).trans ?_
    rw [← List.append_assoc, ← List.append_assoc]
    exact h.reads.append_right _

theorem workers_wired {l : List Stage} (hl : ∀ s ∈ l, OneStream s.cmd ∧ s.plan.coreMapperSpec = sameCommand ∧
      s.plan.infoMapperAggregator = 0) {ins made outs : List IOVar} {cmds : List CommandInvocationWithIOVars}
    (h : WorkerCommands l ins cmds made outs) (hn : (made ++ ins).Nodup) (hu : ∀ s ∈ l, ∀ v ∈ made ++ ins, Unused s.cmd v) :
    Wired ins cmds made outs := by
  induction h with
  | none => exact ⟨.nil _, List.Perm.refl _⟩
  | @part i x ins made' made outs cmds' cmds h _ ih =>
      have hi : (i :: made').Nodup := by
        refine nodup_of_perm ?_ (List.Nodup.sublist (l₁ := made' ++ [i]) ?_ hn)
        · exact (List.perm_append_comm (l₁ := made') (l₂ := [i])).symm
        · rw [List.append_assoc]
          refine (List.Sublist.refl _).append ?_
          exact (List.sublist_append_of_sublist_right (List.cons_sublist_cons.2 (List.nil_sublist _)))
      have hsub : (made ++ ins).Sublist ((made' ++ made) ++ i :: ins) :=
        (List.sublist_append_right _ _).append (List.sublist_cons_self _ _)
      exact wired_beside (k := [i]) (e := [x])
        (chain_wired hl h hi fun s hs v hv => hu s hs v (by
          rcases List.mem_cons.1 hv with rfl | hv
          · simp
          · simp [hv]))
        (ih (hn.sublist hsub) fun s hs v hv => hu s hs v (hsub.subset hv)) hn

/-- Where two parts of the network end, and where the next command writes. -/
theorem node_new {l r made made' reads : List IOVar} {x y o : IOVar} (hn : (((made ++ made') ++ [o]) ++ (l ++ r)).Nodup)
    (hr : (reads ++ [x, y]).Perm ((l ++ r) ++ (made ++ made'))) :
    x ∈ ((made ++ made') ++ [o]) ++ (l ++ r) ∧ y ∈ ((made ++ made') ++ [o]) ++ (l ++ r) ∧ x ≠ y ∧ o ≠ x ∧ o ≠ y := by
  have s3 : ((made ++ made') ++ (l ++ r)).Sublist (((made ++ made') ++ [o]) ++ (l ++ r)) :=
    (List.sublist_append_left _ _).append (List.Sublist.refl _)
  have hxy : [x, y].Nodup :=
    (List.nodup_append.1 (nodup_of_perm hr (nodup_of_perm List.perm_append_comm (hn.sublist s3)))).2.1
  have hmem : ∀ v ∈ [x, y], v ∈ (made ++ made') ++ (l ++ r) := by
    intro v hv
    have := hr.mem_iff.1 (List.mem_append_right _ hv)
    simp only [List.mem_append] at this ⊢
    exact this.symm
  have ho : o ∉ (made ++ made') ++ (l ++ r) := by
    have hn' : (o :: ((made ++ made') ++ (l ++ r))).Nodup := by
      refine nodup_of_perm ?_ hn
      rw [List.append_assoc (made ++ made') [o]]
      exact List.perm_middle.symm
    exact (List.nodup_cons.1 hn').1
  refine ⟨s3.subset (hmem x (by simp)), s3.subset (hmem y (by simp)), ?_, fun e => ho (hmem o (by simp [e])),
    fun e => ho (hmem o (by simp [e]))⟩
  have := (List.nodup_cons.1 hxy).1
  simpa using this

theorem joins_wired {p : Parallelizer} (hp : p.coreAggregatorSpec = sortMerge) {c : CommandInvocationWithIOVars} (hc : OneStream c)
    {outs made : List IOVar} {cmds : List CommandInvocationWithIOVars} {o : IOVar} (h : JoinCommands p c outs cmds made o)
    (hn : (made ++ outs).Nodup) (hu : ∀ v ∈ made ++ outs, Unused c v) : Wired outs cmds made [o] := by
  induction h with
  | leaf x => exact ⟨.nil _, List.Perm.refl _⟩
  | @node l r made made' cmds cmds' x y o agg hl hr h ihl ihr =>
      have s1 : (made ++ l).Sublist (((made ++ made') ++ [o]) ++ (l ++ r)) :=
        ((List.sublist_append_left _ _).trans (List.sublist_append_left _ _)).append (List.sublist_append_left _ _)
      have s2 : (made' ++ r).Sublist (((made ++ made') ++ [o]) ++ (l ++ r)) :=
        ((List.sublist_append_right _ _).trans (List.sublist_append_left _ _)).append (List.sublist_append_right _ _)
      have s3 : ((made ++ made') ++ (l ++ r)).Sublist (((made ++ made') ++ [o]) ++ (l ++ r)) :=
        (List.sublist_append_left _ _).append (List.Sublist.refl _)
      have w1 := ihl (hn.sublist s1) fun v hv => hu v (s1.subset hv)
      have w2 := ihr (hn.sublist s2) fun v hv => hu v (s2.subset hv)
      have wb := wired_beside w1 w2 (hn.sublist s3)
      obtain ⟨hx, hy, hne⟩ := node_new hn wb.reads
      obtain ⟨hin, hout⟩ := merge_streams hp hc (hu x hx) (hu y hy) hne h
      have w3 : Wired [x, y] [agg.cmd] [o] [o] := by
        refine ⟨.cons (by rw [hin]; exact fun _ h => h) hout ?_ (.nil _), ?_⟩
        · simpa using hne.2
        · simp [hin]
      exact wired_after wb w3 hn

/-- The variables at a node of a tree of aggregators. -/
theorem node_streams {p : Parallelizer} (hp : p.coreAggregatorSpec = sortMerge) {c : CommandInvocationWithIOVars} (hc : OneStream c)
    {l r made made' : List IOVar} {cmds cmds' : List CommandInvocationWithIOVars} {x y o : IOVar} {agg : Aggregator}
    (hl : JoinCommands p c l cmds made x) (hr : JoinCommands p c r cmds' made' y)
    (h : p.getActualAggregator c [x, y] o = .ok (some agg)) (hn : (((made ++ made') ++ [o]) ++ (l ++ r)).Nodup)
    (hu : ∀ v ∈ ((made ++ made') ++ [o]) ++ (l ++ r), Unused c v) :
    Unused c x ∧ Unused c y ∧ Unused c o ∧ (x ≠ y ∧ o ≠ x ∧ o ≠ y) ∧ withAccess agg.cmd .streamOutput = [o] := by
  have s1 : (made ++ l).Sublist (((made ++ made') ++ [o]) ++ (l ++ r)) :=
    ((List.sublist_append_left _ _).trans (List.sublist_append_left _ _)).append (List.sublist_append_left _ _)
  have s2 : (made' ++ r).Sublist (((made ++ made') ++ [o]) ++ (l ++ r)) :=
    ((List.sublist_append_right _ _).trans (List.sublist_append_left _ _)).append (List.sublist_append_right _ _)
  have s3 : ((made ++ made') ++ (l ++ r)).Sublist (((made ++ made') ++ [o]) ++ (l ++ r)) :=
    (List.sublist_append_left _ _).append (List.Sublist.refl _)
  have wb := wired_beside (joins_wired hp hc hl (hn.sublist s1) fun v hv => hu v (s1.subset hv))
    (joins_wired hp hc hr (hn.sublist s2) fun v hv => hu v (s2.subset hv)) (hn.sublist s3)
  obtain ⟨hx, hy, hne⟩ := node_new hn wb.reads
  exact ⟨hu x hx, hu y hy, hu o (by simp), hne, (merge_streams hp hc (hu x hx) (hu y hy) hne h).2⟩

theorem merge_wired {p : Parallelizer} (hp : p.coreAggregatorSpec = concatenation ∨ p.coreAggregatorSpec = sortMerge)
    {c : CommandInvocationWithIOVars} (hc : OneStream c)
    {outs made : List IOVar} {cmds : List CommandInvocationWithIOVars} {o : IOVar} (h : MergeCommands p c outs cmds made o)
    (hn : (made ++ outs).Nodup) (hu : ∀ v ∈ made ++ outs, Unused c v) : Wired outs cmds made [o] := by
  cases h with
  | concatenate hk h =>
      have hp' : p.coreAggregatorSpec = concatenation := by
        rcases hp with hp | hp
        · exact hp
        · rw [hp] at hk; cases hk
      have ho : o ∉ outs := (List.nodup_cons.1 hn).1
      obtain ⟨hin, hout⟩ := cat_streams hp' ho h
      exact ⟨.cons (by rw [hin]; exact fun _ h => h) hout ho (.nil _), by simp [hin]⟩
  | tree hk h =>
      have hp' : p.coreAggregatorSpec = sortMerge := by
        rcases hp with hp | hp
        · rw [hp] at hk; cases hk
        · exact hp
      exact joins_wired hp' hc h hn hu

/-- The outputs of the mappers and what the aggregators write are new. -/
theorem network_merge {l : List Stage} (hl : ∀ s ∈ l, OneStream s.cmd ∧ s.plan.coreMapperSpec = sameCommand ∧
      s.plan.infoMapperAggregator = 0) {ins mw mm outs : List IOVar} {cw : List CommandInvocationWithIOVars}
    (hw : WorkerCommands l ins cw mw outs) (hn : ((mw ++ mm) ++ ins).Nodup) {c : CommandInvocationWithIOVars}
    (hu : ∀ s ∈ l, ∀ v ∈ (mw ++ mm) ++ ins, Unused s.cmd v) (huc : ∀ v ∈ (mw ++ mm) ++ ins, Unused c v) :
    Wired ins cw mw outs ∧ (mm ++ outs).Nodup ∧ ∀ v ∈ mm ++ outs, Unused c v := by
  have s1 : (mw ++ ins).Sublist ((mw ++ mm) ++ ins) := (List.sublist_append_left _ _).append (List.Sublist.refl _)
  have ww : Wired ins cw mw outs := workers_wired hl hw (hn.sublist s1) (fun s hs v hv => hu s hs v (s1.subset hv))
  refine ⟨ww, ?_, fun v hv => huc v ?_⟩
  · have h1 : ((cw.flatMap fun c => withAccess c .streamInput) ++ outs).Perm (mw ++ ins) := ww.reads.trans List.perm_append_comm
    have h2 : (mm ++ ((cw.flatMap fun c => withAccess c .streamInput) ++ outs)).Perm ((mw ++ mm) ++ ins) := by
      refine (List.Perm.append_left _ h1).trans ?_
      rw [← List.append_assoc]
      exact List.perm_append_comm.append_right _
    exact (nodup_of_perm h2 hn).sublist ((List.Sublist.refl _).append (List.sublist_append_right _ _))
  · rcases List.mem_append.1 hv with hv | hv
    · simp [hv]
    · refine s1.subset ?_
      have := ww.reads.mem_iff.1 (List.mem_append_right _ hv)
      simp only [List.mem_append] at this ⊢
      exact this.symm

/-- The commands that carry out a pipeline in parts, for stages that concatenate or sort. -/
theorem network_wired {l : List Stage} {last : Stage}
    (hs : ∀ s ∈ l ++ [last], ProperStage s ∧ (Concatenates s ∨ s.inv.cmdName ∈ ["sort", "custom_sort"]))
    {ins made : List IOVar} {cmds : List CommandInvocationWithIOVars} {o : IOVar} (h : NetworkOf l last ins cmds made o) :
    Wired ins cmds made [o] := by
  obtain ⟨cw, mw, outs, cm, mm, hw, hm, rfl, rfl⟩ := h.commands
  have hn : ((mw ++ mm) ++ ins).Nodup := nodup_of_perm List.perm_append_comm h.distinct
  have hu : ∀ s ∈ l ++ [last], ∀ v ∈ (mw ++ mm) ++ ins, Unused s.cmd v := fun s hs v hv =>
    h.new s hs v (List.perm_append_comm.mem_iff.1 hv)
  have hlast : last ∈ l ++ [last] := by simp
  obtain ⟨ww, hnd, huo⟩ := network_merge
    (fun s hsm => ⟨(hs s hsm).1.2.2, (carried_plan (hs s hsm).1 (hs s hsm).2).1, (carried_plan (hs s hsm).1 (hs s hsm).2).2.1⟩) hw
    hn hu (hu last hlast)
  exact wired_after ww (merge_wired (carried_plan (hs last hlast).1 (hs last hlast).2).2.2 (hs last hlast).1.2.2 hm hnd huo) hn

theorem ordered_writes {known : List IOVar} {cmds : List CommandInvocationWithIOVars} {made : List IOVar}
    (h : Ordered known cmds made) : cmds.map (fun c => withAccess c .streamOutput) = made.map fun v => [v] := by
  induction h with
  | nil => rfl
  | cons hi ho hn h ih => rw [List.map_cons, List.map_cons, ho, ih]

/-- C116, the pipes: every variable that is made is written by one command, and every variable other than the result is read by
exactly one command; nothing else is read or written as a stream. -/
theorem C116_wired {l : List Stage} {last : Stage}
    (hs : ∀ s ∈ l ++ [last], ProperStage s ∧ (Concatenates s ∨ s.inv.cmdName ∈ ["sort", "custom_sort"]))
    {ins made : List IOVar} {cmds : List CommandInvocationWithIOVars} {o : IOVar} (h : NetworkOf l last ins cmds made o) :
    cmds.map (fun c => withAccess c .streamOutput) = made.map (fun v => [v]) ∧
    ((cmds.flatMap fun c => withAccess c .streamInput) ++ [o]).Perm (ins ++ made) :=
  ⟨ordered_writes (network_wired hs h).ordered, (network_wired hs h).reads⟩

/-- The contents of the variables in the end are those of a run of the mappers of the stages. -/
theorem chain_through {prog : ProgramsOn α} {l : List Stage} (hl : ∀ s ∈ l, OneStream s.cmd ∧ s.plan.coreMapperSpec = sameCommand ∧
      s.plan.infoMapperAggregator = 0) {i o : IOVar} {cmds : List CommandInvocationWithIOVars} {made : List IOVar}
    (h : ChainCommands l i cmds made o) (hn : (i :: made).Nodup) (hu : ∀ s ∈ l, ∀ v ∈ i :: made, Unused s.cmd v)
    {env : IOVar → List α} (he : ∀ c ∈ cmds, ∀ o, withAccess c .streamOutput = [o] → env o = output prog env c) :
    Through prog l (env i) (env o) := by
  induction h with
  | done i => exact .done _
  | @stage s l i x o m cmds made h _ ih =>
      have hx : x ≠ i := fun e => (List.nodup_cons.1 hn).1 (by simp [e])
      obtain ⟨hs1, hs2, hs3⟩ := hl s List.mem_cons_self
      have hui := hu s List.mem_cons_self i (by simp)
      have hux := hu s List.mem_cons_self x (by simp)
      obtain ⟨-, hout⟩ := mapper_streams hs1 hs2 hs3 hui hux hx h
      refine .stage (y := env x) ⟨i, x, m, env, hui, hux, hx, h, rfl, he m List.mem_cons_self x hout⟩ ?_
      exact ih (fun t ht => hl t (List.mem_cons_of_mem _ ht)) (List.nodup_cons.1 hn).2
        (fun t ht v hv => hu t (List.mem_cons_of_mem _ ht) v (List.mem_cons_of_mem _ hv))
        (fun c hc => he c (List.mem_cons_of_mem _ hc))

theorem through_snoc {prog : ProgramsOn α} {last : Stage} : ∀ {l : List Stage} {x z : List α}, Through prog (l ++ [last]) x z →
    ∃ y, Through prog l x y ∧ MapperRun prog last.plan last.cmd y z
  | [], x, z, h => by
      cases h with
      | stage h hl => cases hl; exact ⟨x, .done x, h⟩
  | s :: l, x, z, h => by
      cases h with
      | stage h hl =>
          obtain ⟨y, h1, h2⟩ := through_snoc hl
          exact ⟨y, .stage h h1, h2⟩

/-- The elements of two lists are related, place by place. -/
inductive Beside {β γ : Type} (R : β → γ → Prop) : List β → List γ → Prop
  | nil : Beside R [] []
  | cons {a : β} {b : γ} {l : List β} {k : List γ} (h : R a b) (hl : Beside R l k) : Beside R (a :: l) (b :: k)

theorem beside_zip {β γ β' γ' : Type} (f : β → β') (g : γ → γ') {R : β' → γ' → Prop} {l : List β} {k : List γ}
    (h : Beside (fun a b => R (f a) (g b)) l k) : ∀ r ∈ (l.map f).zip (k.map g), R r.1 r.2 := by
  induction h with
  | nil => simp
  | cons h1 _ ih =>
      intro r hr
      simp only [List.map_cons, List.zip_cons_cons, List.mem_cons] at hr
      rcases hr with rfl | hr
      · exact h1
      · exact ih r hr

theorem workers_through {prog : ProgramsOn α} {l : List Stage} (hl : ∀ s ∈ l, OneStream s.cmd ∧ s.plan.coreMapperSpec = sameCommand ∧
      s.plan.infoMapperAggregator = 0) {ins made outs : List IOVar} {cmds : List CommandInvocationWithIOVars}
    (h : WorkerCommands l ins cmds made outs) (hn : (made ++ ins).Nodup) (hu : ∀ s ∈ l, ∀ v ∈ made ++ ins, Unused s.cmd v)
    {env : IOVar → List α} (he : ∀ c ∈ cmds, ∀ o, withAccess c .streamOutput = [o] → env o = output prog env c) :
    Beside (fun i x => Through prog l (env i) (env x)) ins outs := by
  induction h with
  | none => exact .nil
  | @part i x ins made' made outs cmds' cmds h _ ih =>
      have hi : (i :: made').Nodup := by
        refine nodup_of_perm ?_ (List.Nodup.sublist (l₁ := made' ++ [i]) ?_ hn)
        · exact (List.perm_append_comm (l₁ := made') (l₂ := [i])).symm
        · rw [List.append_assoc]
          refine (List.Sublist.refl _).append ?_
          exact (List.sublist_append_of_sublist_right (List.cons_sublist_cons.2 (List.nil_sublist _)))
      have hsub : (made ++ ins).Sublist ((made' ++ made) ++ i :: ins) :=
        (List.sublist_append_right _ _).append (List.sublist_cons_self _ _)
      exact .cons (chain_through hl h hi (fun s hs v hv => hu s hs v (by
          rcases List.mem_cons.1 hv with rfl | hv
          · simp
          · simp [hv])) (fun c hc => he c (List.mem_append_left _ hc)))
        (ih (hn.sublist hsub) (fun s hs v hv => hu s hs v (hsub.subset hv)) (fun c hc => he c (List.mem_append_right _ hc)))

theorem joins_joined {prog : ProgramsOn α} {p : Parallelizer} (hp : p.coreAggregatorSpec = sortMerge) {c : CommandInvocationWithIOVars}
    (hc : OneStream c) {outs made : List IOVar} {cmds : List CommandInvocationWithIOVars} {o : IOVar}
    (h : JoinCommands p c outs cmds made o) (hn : (made ++ outs).Nodup) (hu : ∀ v ∈ made ++ outs, Unused c v)
    {env : IOVar → List α} (he : ∀ c ∈ cmds, ∀ o, withAccess c .streamOutput = [o] → env o = output prog env c) :
    Joined prog p c (outs.map env) (env o) := by
  induction h with
  | leaf x => exact .leaf _
  | @node l r made made' cmds cmds' x y o agg hl hr h ihl ihr =>
      have s1 : (made ++ l).Sublist (((made ++ made') ++ [o]) ++ (l ++ r)) :=
        ((List.sublist_append_left _ _).trans (List.sublist_append_left _ _)).append (List.sublist_append_left _ _)
      have s2 : (made' ++ r).Sublist (((made ++ made') ++ [o]) ++ (l ++ r)) :=
        ((List.sublist_append_right _ _).trans (List.sublist_append_left _ _)).append (List.sublist_append_right _ _)
      obtain ⟨hx, hy, ho, hne, hout⟩ := node_streams hp hc hl hr h hn hu
      rw [List.map_append, he agg.cmd (by simp) o hout]
      exact .node (ihl (hn.sublist s1) (fun v hv => hu v (s1.subset hv)) (fun d hd => he d (by simp [hd])))
        (ihr (hn.sublist s2) (fun v hv => hu v (s2.subset hv)) (fun d hd => he d (by simp [hd]))) hx hy ho hne h rfl rfl

/-- What the network computes is what a run of the pipeline computes. -/
theorem network_run {prog : ProgramsOn α} {l : List Stage} {last : Stage}
    (hs : ∀ s ∈ l ++ [last], ProperStage s ∧ (Concatenates s ∨ s.inv.cmdName ∈ ["sort", "custom_sort"]))
    {ins made : List IOVar} {cmds : List CommandInvocationWithIOVars} {o : IOVar} (h : NetworkOf l last ins cmds made o)
    {env : IOVar → List α} (he : ∀ c ∈ cmds, ∀ o, withAccess c .streamOutput = [o] → env o = output prog env c) {x : List α}
    (hx : Split last.plan.splitter x (ins.map env)) : PipelineRun prog l last x (env o) := by
  obtain ⟨cw, mw, outs, cm, mm, hw, hm, rfl, rfl⟩ := h.commands
  have hn : ((mw ++ mm) ++ ins).Nodup := nodup_of_perm List.perm_append_comm h.distinct
  have hu : ∀ s ∈ l ++ [last], ∀ v ∈ (mw ++ mm) ++ ins, Unused s.cmd v := fun s hs v hv =>
    h.new s hs v (List.perm_append_comm.mem_iff.1 hv)
  have s1 : (mw ++ ins).Sublist ((mw ++ mm) ++ ins) := (List.sublist_append_left _ _).append (List.Sublist.refl _)
  have hst : ∀ s ∈ l ++ [last], OneStream s.cmd ∧ s.plan.coreMapperSpec = sameCommand ∧ s.plan.infoMapperAggregator = 0 :=
    fun s hsm => ⟨(hs s hsm).1.2.2, (carried_plan (hs s hsm).1 (hs s hsm).2).1, (carried_plan (hs s hsm).1 (hs s hsm).2).2.1⟩
  have hthr := workers_through hst hw (hn.sublist s1) (fun s hs v hv => hu s hs v (s1.subset hv))
    (fun c hc => he c (List.mem_append_left _ hc))
  have hlast : last ∈ l ++ [last] := by simp
  obtain ⟨-, hnd, huo⟩ := network_merge hst hw hn hu (hu last hlast)
  have hruns : ∃ mid : List (List α), mid.length = ins.length ∧ outs.length = ins.length ∧
      Beside (fun i y => Through prog l (env i) y) ins mid ∧
      Beside (fun y x => MapperRun prog last.plan last.cmd y (env x)) mid outs := by
    clear hw hm hx h hu hn hnd huo s1 he
    induction hthr with
    | nil => exact ⟨[], rfl, rfl, .nil, .nil⟩
    | cons h1 _ ih =>
        obtain ⟨mid, hl1, hl2, ha, hb⟩ := ih
        obtain ⟨y, h2, h3⟩ := through_snoc h1
        exact ⟨y :: mid, by simp [hl1], by simp [hl2], .cons h2 ha, .cons h3 hb⟩
  obtain ⟨mid, hl1, hl2, ha, hb⟩ := hruns
  refine ⟨(ins.map env).zip mid, ?_, ?_, (mid.zip (outs.map env)), ?_, ?_, ?_⟩
  · rw [List.map_fst_zip (by simp [hl1])]; exact hx
  · exact beside_zip env id (R := Through prog l) ha |> fun h => by simpa using h
  · rw [List.map_snd_zip (by simp [hl1]), List.map_fst_zip (by simp [hl1, hl2])]
  · exact beside_zip id env (R := MapperRun prog last.plan last.cmd) hb |> fun h => by simpa using h
  · rw [List.map_snd_zip (by simp [hl1, hl2])]
    have hpa := (carried_plan (hs last hlast).1 (hs last hlast).2).2.2
    cases hm with
    | concatenate hk hagg =>
        have hp' : last.plan.coreAggregatorSpec = concatenation := by
          rcases hpa with hp | hp
          · exact hp
          · rw [hp] at hk; cases hk
        have ho : o ∉ outs := (List.nodup_cons.1 hnd).1
        rw [he _ (List.mem_append_right _ (List.mem_singleton_self _)) o (cat_streams hp' ho hagg).2]
        exact .concatenate hk ho hagg
    | tree hk hj =>
        have hp' : last.plan.coreAggregatorSpec = sortMerge := by
          rcases hpa with hp | hp
          · rw [hp] at hk; cases hk
          · exact hp
        exact .tree hk (joins_joined hp' (hs last hlast).1.2.2 hj hnd huo (fun c hc => he c (List.mem_append_right _ hc)))

/-- The contents that the variables of the network get in the end. -/
theorem network_ends {prog : ProgramsOn α} {l : List Stage} {last : Stage}
    (hs : ∀ s ∈ l ++ [last], ProperStage s ∧ (Concatenates s ∨ s.inv.cmdName ∈ ["sort", "custom_sort"]))
    {ins made : List IOVar} {cmds : List CommandInvocationWithIOVars} {o : IOVar} (h : NetworkOf l last ins cmds made o)
    (parts : List (List α)) (hlen : parts.length = ins.length) :
    ∃ env, Ends prog cmds (ins.zip parts) env ∧ ins.map env = parts := by
  obtain ⟨env0, h0⟩ : ∃ env0 : IOVar → List α, ins.map env0 = parts := by
    have hd := (List.nodup_append.1 h.distinct).1
    clear h
    induction ins generalizing parts with
    | nil => exact ⟨fun _ => [], (List.length_eq_zero_iff.1 hlen).symm⟩
    | cons i ins ih =>
        cases parts with
        | nil => simp at hlen
        | cons q parts =>
            obtain ⟨e, he⟩ := ih parts (by simpa using hlen) (List.nodup_cons.1 hd).2
            refine ⟨fun v => if v = i then q else e v, ?_⟩
            rw [List.map_cons, if_pos rfl, ← he]
            congr 1
            refine List.map_congr_left fun v hv => if_neg fun e => ?_
            exact (List.nodup_cons.1 hd).1 (e ▸ hv)
  obtain ⟨env, h1, h2⟩ := ordered_ends (prog := prog) (network_wired hs h).ordered env0
  have hm : ins.map env = parts := by rw [List.map_congr_left h1, h0]
  refine ⟨env, ⟨?_, h2⟩, hm⟩
  rw [← hm, List.zip_map_right]
  intro q hq
  obtain ⟨r, hr, rfl⟩ := List.mem_map.1 hq
  have : r.1 = r.2 := by
    have : ∀ (k : List IOVar) (r : IOVar × IOVar), r ∈ k.zip k → r.1 = r.2 := by
      intro k
      induction k with
      | nil => simp
      | cons a k ih =>
          intro r hr
          simp only [List.zip_cons_cons, List.mem_cons] at hr
          rcases hr with rfl | hr
          · rfl
          · exact ih r hr
    exact this ins r hr
  show env r.1 = env r.2
  rw [this]

/-- C116. Whatever the order in which the commands work and the inputs arrive, there is one run of the pipeline such that what has
been written to the result is always a beginning of its output, and all of it once the writer has stopped. As long as some
writer has not stopped, something can be done. -/
theorem C116_schedules (prog : ProgramsOn α) {l : List Stage} {last : Stage}
    (hs : ∀ s ∈ l ++ [last], ProperStage s ∧ (Concatenates s ∨ s.inv.cmdName ∈ ["sort", "custom_sort"]))
    {ins made : List IOVar} {cmds : List CommandInvocationWithIOVars} {o : IOVar} (h : NetworkOf l last ins cmds made o)
    (x : List α) (parts : List (List α)) (hlen : parts.length = ins.length) (hx : Split last.plan.splitter x parts) :
    ∃ y, PipelineRun prog l last x y ∧ ∀ n s, PipeRun prog cmds (ins.zip parts) n s →
      s.written o <+: y ∧ (s.closed o = true → s.written o = y) ∧
      (NothingLeft prog cmds (ins.zip parts) s → ∀ v ∈ ins ++ made, s.closed v = true) := by
  obtain ⟨env, he, hm⟩ := network_ends (prog := prog) hs h parts hlen
  refine ⟨env o, network_run hs h he.made (by rw [hm]; exact hx), fun n s hr => ?_⟩
  have ht := run_towards he hr
  refine ⟨(ht o).1, (ht o).2, fun hend => ?_⟩
  have hin : ∀ v ∈ ins, s.closed v = true := by
    intro v hv
    have hg := given_closed he ht hend
    obtain ⟨q, hq, rfl⟩ : ∃ q ∈ ins.zip parts, q.1 = v := by
      have : v ∈ (ins.zip parts).map Prod.fst := by rw [List.map_fst_zip (by omega)]; exact hv
      exact List.mem_map.1 this
    exact hg q hq
  intro v hv
  rcases List.mem_append.1 hv with hv | hv
  · exact hin v hv
  · exact ordered_progress (network_wired hs h).ordered (fun c hc => hc) he ht hin hend v hv

/-- C116. Every run ends: there is a bound on the number of steps. -/
theorem C116_ends (prog : ProgramsOn α) {l : List Stage} {last : Stage}
    (hs : ∀ s ∈ l ++ [last], ProperStage s ∧ (Concatenates s ∨ s.inv.cmdName ∈ ["sort", "custom_sort"]))
    {ins made : List IOVar} {cmds : List CommandInvocationWithIOVars} {o : IOVar} (h : NetworkOf l last ins cmds made o)
    (parts : List (List α)) (hlen : parts.length = ins.length) :
    ∃ bound, ∀ n s, PipeRun prog cmds (ins.zip parts) n s → n ≤ bound := by
  obtain ⟨env, he, -⟩ := network_ends (prog := prog) hs h parts hlen
  refine ⟨((ins ++ made).map fun v => (env v).length + 1).sum, fun n s hr => ?_⟩
  have := run_bounded (vars := ins ++ made) he (fun q hq => List.mem_append_left _ (List.of_mem_zip hq).1) (fun c hc v hv => by
    have hw := (C116_wired hs h).1
    have : [v] ∈ made.map (fun v => [v]) := by rw [← hw, ← hv]; exact List.mem_map_of_mem hc
    obtain ⟨u, hu, e⟩ := List.mem_map.1 this
    cases e
    exact List.mem_append_right _ hu) hr
  omega

/-- C116, with C94: if the stages are right when they are run in parallel alone and all but the last concatenate, then at the end
of every run the result has been written and is the output of the pipeline run in sequence. -/
theorem C116_result (prog : ProgramsOn α) (hcat : CatProgram prog) {l : List Stage} {last : Stage}
    (hl : ∀ s ∈ l, ProperStage s ∧ Concatenates s)
    (hlast : ProperStage last ∧ (Concatenates last ∨ last.inv.cmdName ∈ ["sort", "custom_sort"]))
    (hr : ∀ s ∈ l ++ [last], StageRight prog s)
    {ins made : List IOVar} {cmds : List CommandInvocationWithIOVars} {o : IOVar} (h : NetworkOf l last ins cmds made o)
    (x : List α) (parts : List (List α)) (hlen : parts.length = ins.length) (hx : Split last.plan.splitter x parts)
    {n : Nat} {s : PipeState α} (hrun : PipeRun prog cmds (ins.zip parts) n s) :
    s.written o <+: piped prog (l ++ [last]) x ∧
    (NothingLeft prog cmds (ins.zip parts) s → s.closed o = true ∧ s.written o = piped prog (l ++ [last]) x) := by
  have hs : ∀ s ∈ l ++ [last], ProperStage s ∧ (Concatenates s ∨ s.inv.cmdName ∈ ["sort", "custom_sort"]) := by
    intro s hs
    rcases List.mem_append.1 hs with hs | hs
    · exact ⟨(hl s hs).1, .inl (hl s hs).2⟩
    · rw [List.mem_singleton.1 hs]; exact hlast
  obtain ⟨y, hy, hall⟩ := C116_schedules prog hs h x parts hlen hx
  obtain ⟨h1, h2, h3⟩ := hall n s hrun
  rw [C94_pipeline prog hcat l last hl hr x y hy] at h1 h2
  refine ⟨h1, fun hend => ?_⟩
  have ho : o ∈ ins ++ made := (C116_wired hs h).2.mem_iff.1 (by simp)
  exact ⟨h3 hend o ho, h2 (h3 hend o ho)⟩

/-- C116 for programs as in the manuals: filters, then a filter or a sort. -/
theorem C116_manual (prog : Programs) (hcat : CatProgram prog) (man : Manuals prog) {l : List Stage} {last : Stage}
    (hp : ∀ s ∈ l ++ [last], ProperStage s) (hl : ∀ s ∈ l, LineStage man s) (hlast : LastStage man last)
    (hu : last.inv.cmdName ≠ "uniq")
    {ins made : List IOVar} {cmds : List CommandInvocationWithIOVars} {o : IOVar} (h : NetworkOf l last ins cmds made o)
    (x : Stream) (parts : List Stream) (hlen : parts.length = ins.length) (hx : Split last.plan.splitter x parts)
    {n : Nat} {s : PipeState String} (hrun : PipeRun prog cmds (ins.zip parts) n s) (hend : NothingLeft prog cmds (ins.zip parts) s) :
    s.closed o = true ∧ s.written o = piped prog (l ++ [last]) x := by
  have hs : ∀ s ∈ l ++ [last], ProperStage s ∧ (Concatenates s ∨ s.inv.cmdName ∈ ["sort", "custom_sort"]) := by
    intro s hs
    refine ⟨hp s hs, ?_⟩
    rcases List.mem_append.1 hs with hs' | hs'
    · exact .inl (lineStage_concatenates (hp s hs) (hl s hs'))
    · rw [List.mem_singleton.1 hs'] at hs ⊢
      cases hlast with
      | line hline => exact .inl (lineStage_concatenates (hp last hs) hline)
      | sort hn => exact .inr (by simp [hn])
      | uniq hn => exact absurd hn hu
  obtain ⟨y, hy, hall⟩ := C116_schedules prog hs h x parts hlen hx
  obtain ⟨h1, h2, h3⟩ := hall n s hrun
  rw [C94_manual prog hcat man l last hp hl hlast x y hy] at h2
  have ho : o ∈ ins ++ made := (C116_wired hs h).2.mem_iff.1 (by simp)
  exact ⟨h3 hend o ho, h2 (h3 hend o ho)⟩

/-- There are variables that none of some commands uses. -/
theorem exists_new (cs : List CommandInvocationWithIOVars) (used : List IOVar) :
    ∃ v, (∀ c ∈ cs, Unused c v) ∧ v ∉ used := by
  have bound : ∀ l : List Int, ∃ b : Int, ∀ v ∈ l, v < b := by
    intro l
    induction l with
    | nil => exact ⟨0, by simp⟩
    | cons x l ih =>
        obtain ⟨b, hb⟩ := ih
        refine ⟨max b (x + 1), fun v hv => ?_⟩
        rcases List.mem_cons.1 hv with rfl | hv
        · omega
        · have := hb v hv; omega
  obtain ⟨b, hb⟩ := bound ((cs.flatMap fun c => occurrences c ++ c.accessMap.map Prod.fst) ++ used)
  refine ⟨b, fun c hc => ⟨fun h => ?_, ?_⟩, fun h => ?_⟩
  · have := hb b (List.mem_append_left _ (List.mem_flatMap.2 ⟨c, hc, List.mem_append_left _ h⟩)); omega
  · unfold accessOf
    rw [List.lookup_eq_none_iff]
    intro q hq
    have := hb q.1 (List.mem_append_left _ (List.mem_flatMap.2 ⟨c, hc, List.mem_append_right _ (List.mem_map_of_mem hq)⟩))
    exact bne_iff_ne.2 (Int.ne_of_gt this)
  · have := hb b (List.mem_append_right _ h); omega

theorem chain_exists (cs : List CommandInvocationWithIOVars) {l : List Stage} (hl : ∀ s ∈ l, OneStream s.cmd ∧
      s.plan.coreMapperSpec = sameCommand ∧ s.plan.infoMapperAggregator = 0) (hcs : ∀ s ∈ l, s.cmd ∈ cs) (i : IOVar)
    (hi : ∀ c ∈ cs, Unused c i) (used : List IOVar) (hiu : i ∈ used) (hd : used.Nodup) :
    ∃ cmds made o, ChainCommands l i cmds made o ∧ (made ++ used).Nodup ∧ ∀ v ∈ made, ∀ c ∈ cs, Unused c v := by
  induction l generalizing i used with
  | nil => exact ⟨[], [], i, .done i, hd, by simp⟩
  | cons s l ih =>
      obtain ⟨x, hx, hxu⟩ := exists_new cs used
      obtain ⟨hs1, hs2, hs3⟩ := hl s List.mem_cons_self
      have hsc := hcs s List.mem_cons_self
      obtain ⟨ci, hci⟩ := hs1.input
      obtain ⟨co, hco, _⟩ := hs1.out
      obtain ⟨m, hm, _⟩ := C40_mapper s.plan hs2 hs3 s.cmd ci co i x hs1.described hs1.distinct hci hco (hi _ hsc).1 (hx _ hsc).1
        (fun e => hxu (e ▸ hiu))
      obtain ⟨cmds, made, o, hch, hn, hnew⟩ := ih (fun t ht => hl t (List.mem_cons_of_mem _ ht))
        (fun t ht => hcs t (List.mem_cons_of_mem _ ht)) x hx (x :: used) List.mem_cons_self (List.nodup_cons.2 ⟨hxu, hd⟩)
      refine ⟨m :: cmds, x :: made, o, .stage hm hch, nodup_of_perm List.perm_middle.symm hn, ?_⟩
      intro v hv
      rcases List.mem_cons.1 hv with rfl | hv
      · exact hx
      · exact hnew v hv

theorem workers_exist (cs : List CommandInvocationWithIOVars) {l : List Stage} (hl : ∀ s ∈ l, OneStream s.cmd ∧
      s.plan.coreMapperSpec = sameCommand ∧ s.plan.infoMapperAggregator = 0) (hcs : ∀ s ∈ l, s.cmd ∈ cs) (ins : List IOVar)
    (hi : ∀ i ∈ ins, ∀ c ∈ cs, Unused c i) (used : List IOVar) (hiu : ∀ i ∈ ins, i ∈ used) (hd : used.Nodup) :
    ∃ cmds made outs, WorkerCommands l ins cmds made outs ∧ (made ++ used).Nodup ∧ (∀ v ∈ made, ∀ c ∈ cs, Unused c v) ∧
      outs.length = ins.length := by
  induction ins generalizing used with
  | nil => exact ⟨[], [], [], .none, hd, by simp, rfl⟩
  | cons i ins ih =>
      obtain ⟨cmds', made', x, hch, hn', hnew'⟩ := chain_exists cs hl hcs i (hi i List.mem_cons_self) used
        (hiu i List.mem_cons_self) hd
      obtain ⟨cmds, made, outs, hw, hn, hnew, hlen⟩ := ih (fun j hj => hi j (List.mem_cons_of_mem _ hj)) (made' ++ used)
        (fun j hj => List.mem_append_right _ (hiu j (List.mem_cons_of_mem _ hj))) hn'
      refine ⟨cmds' ++ cmds, made' ++ made, x :: outs, .part hch hw, nodup_of_perm ?_ hn, ?_, by simp [hlen]⟩
      · rw [← List.append_assoc]
        exact List.perm_append_comm.append_right _
      · intro v hv
        rcases List.mem_append.1 hv with hv | hv
        · exact hnew' v hv
        · exact hnew v hv

theorem joins_exist (cs : List CommandInvocationWithIOVars) {p : Parallelizer} (hp : p.coreAggregatorSpec = sortMerge)
    {c : CommandInvocationWithIOVars} (hc : OneStream c) (hcc : c ∈ cs) (outs : List IOVar) (hne : outs ≠ [])
    (hi : ∀ i ∈ outs, ∀ c ∈ cs, Unused c i) (used : List IOVar) (hiu : ∀ i ∈ outs, i ∈ used) (hno : outs.Nodup) (hd : used.Nodup) :
    ∃ cmds made o, JoinCommands p c outs cmds made o ∧ (made ++ used).Nodup ∧ (∀ v ∈ made, ∀ c ∈ cs, Unused c v) ∧
      o ∈ made ++ outs := by
  induction outs with
  | nil => exact absurd rfl hne
  | cons x outs ih =>
      by_cases h0 : outs = []
      · subst h0
        exact ⟨[], [], x, .leaf x, hd, by simp, by simp⟩
      · obtain ⟨cmds, made, y, hj, hn, hnew, hy⟩ := ih h0 (fun j hj => hi j (List.mem_cons_of_mem _ hj))
          (fun j hj => hiu j (List.mem_cons_of_mem _ hj)) (List.nodup_cons.1 hno).2
        obtain ⟨o, ho, hou⟩ := exists_new cs (made ++ used)
        have hxu : x ∈ used := hiu x List.mem_cons_self
        have hyu : Unused c y ∧ y ∈ made ++ used := by
          rcases List.mem_append.1 hy with hy | hy
          · exact ⟨hnew y hy c hcc, List.mem_append_left _ hy⟩
          · exact ⟨hi y (List.mem_cons_of_mem _ hy) c hcc, List.mem_append_right _ (hiu y (List.mem_cons_of_mem _ hy))⟩
        have hxy : x ≠ y := by
          rintro rfl
          rcases List.mem_append.1 hy with hy | hy
          · exact (List.nodup_append.1 hn).2.2 x hy x hxu rfl
          · exact (List.nodup_cons.1 hno).1 hy
        obtain ⟨agg, hagg, -⟩ := sort_aggregator (fun _ _ _ _ => []) hp hc (o := o) (hi x List.mem_cons_self c hcc) hyu.1
          ⟨hxy, fun e => hou (e ▸ List.mem_append_right _ hxu), fun e => hou (e ▸ hyu.2)⟩
        refine ⟨[] ++ cmds ++ [agg.cmd], [] ++ made ++ [o], o, .node (l := [x]) (.leaf x) hj hagg, ?_, ?_, by simp⟩
        · rw [List.nil_append, List.append_assoc]
          exact nodup_of_perm List.perm_middle (List.nodup_cons.2 ⟨hou, hn⟩)
        · intro v hv
          simp only [List.nil_append, List.mem_append, List.mem_singleton] at hv
          rcases hv with hv | rfl
          · exact hnew v hv
          · exact ho

/-- C116, the theorems are not about nothing: for every number of parts, but at least one for a sort, and for all new variables
that hold them, there are commands that carry out the pipeline. -/
theorem C116_commands {l : List Stage} {last : Stage}
    (hs : ∀ s ∈ l ++ [last], ProperStage s ∧ (Concatenates s ∨ s.inv.cmdName ∈ ["sort", "custom_sort"]))
    (ins : List IOVar) (hn : ins.Nodup) (hnew : ∀ s ∈ l ++ [last], ∀ v ∈ ins, Unused s.cmd v) (hne : Concatenates last ∨ ins ≠ []) :
    ∃ cmds made o, NetworkOf l last ins cmds made o := by
  have hst : ∀ s ∈ l ++ [last], OneStream s.cmd ∧ s.plan.coreMapperSpec = sameCommand ∧ s.plan.infoMapperAggregator = 0 :=
    fun s hsm => ⟨(hs s hsm).1.2.2, (carried_plan (hs s hsm).1 (hs s hsm).2).1, (carried_plan (hs s hsm).1 (hs s hsm).2).2.1⟩
  have hlast : last ∈ l ++ [last] := by simp
  let cs := (l ++ [last]).map (·.cmd)
  have hcs : ∀ s ∈ l ++ [last], s.cmd ∈ cs := fun s hs => List.mem_map_of_mem hs
  have hcs' : ∀ v, (∀ s ∈ l ++ [last], Unused s.cmd v) ↔ ∀ c ∈ cs, Unused c v := by
    intro v
    simp only [cs, List.mem_map]
    exact ⟨fun h c ⟨s, hs, e⟩ => e ▸ h s hs, fun h s hs => h _ ⟨s, hs, rfl⟩⟩
  have hins : ∀ v ∈ ins, ∀ c ∈ cs, Unused c v := fun v hv => (hcs' v).1 fun s hs => hnew s hs v hv
  obtain ⟨cw, mw, outs, hw, hnw, hneww, hlen⟩ := workers_exist cs hst hcs ins hins ins (fun _ h => h) hn
  have hall : ∀ v ∈ mw ++ ins, ∀ c ∈ cs, Unused c v := by
    intro v hv
    rcases List.mem_append.1 hv with hv | hv
    · exact hneww v hv
    · exact hins v hv
  have ww : Wired ins cw mw outs := workers_wired hst hw hnw (fun s hs v hv => hall v hv _ (hcs s hs))
  have hmo : ∀ v ∈ outs, v ∈ mw ++ ins := fun v hv => by
    have := ww.reads.mem_iff.1 (List.mem_append_right _ hv)
    simp only [List.mem_append] at this ⊢
    exact this.symm
  have hno : outs.Nodup :=
    (List.nodup_append.1 (nodup_of_perm ww.reads (nodup_of_perm List.perm_append_comm hnw))).2.1
  have hmerge : ∃ cm mm o, MergeCommands last.plan last.cmd outs cm mm o ∧ (mm ++ (mw ++ ins)).Nodup ∧
      ∀ v ∈ mm, ∀ c ∈ cs, Unused c v := by
    rcases (carried_plan (hs last hlast).1 (hs last hlast).2).2.2 with hp | hp
    · obtain ⟨o, ho, hou⟩ := exists_new cs (mw ++ ins)
      obtain ⟨agg, hagg, -⟩ := C47_concatenate last.plan hp last.cmd outs o
      exact ⟨_, _, o, .concatenate (by rw [hp]; rfl) hagg, List.nodup_cons.2 ⟨hou, hnw⟩, by simpa using ho⟩
    · have hne' : outs ≠ [] := by
        rcases hne with hk | hk
        · have : last.plan.coreAggregatorSpec.kind = .concatenate := hk
          rw [hp] at this; cases this
        · intro e
          rw [e] at hlen
          exact hk (List.length_eq_zero_iff.1 hlen.symm)
      obtain ⟨cm, mm, o, hj, hnm, hnewm, -⟩ := joins_exist cs hp (hst last hlast).1 (hcs last hlast) outs hne'
        (fun v hv => hall v (hmo v hv)) (mw ++ ins) hmo hno hnw
      exact ⟨cm, mm, o, .tree (by rw [hp]; rfl) hj, hnm, hnewm⟩
  obtain ⟨cm, mm, o, hm, hnm, hnewm⟩ := hmerge
  refine ⟨cw ++ cm, mw ++ mm, o, ⟨cw, mw, outs, cm, mm, hw, hm, rfl, rfl⟩, ?_, ?_⟩
  · refine nodup_of_perm ?_ hnm
    refine List.perm_append_comm.trans ?_
    rw [← List.append_assoc]
    exact List.perm_append_comm.append_right _
  · intro s hs v hv
    refine (hcs' v).2 ?_ s hs
    rcases List.mem_append.1 hv with hv | hv
    · exact hins v hv
    · rcases List.mem_append.1 hv with hv | hv
      · exact hneww v hv
      · exact hnewm v hv

/-- `grep -i a f | cut -f 1 | sort -r` in two parts: there are such commands, and every run of them that cannot go on has written
the output of the pipeline. -/
theorem schedules_example : ∃ ins cmds made o, ins.length = 2 ∧ NetworkOf [grepStage, cutStage] sortStage ins cmds made o ∧
    ∀ n s, PipeRun allProgs cmds (ins.zip [["a"], ["b", "a"]]) n s → NothingLeft allProgs cmds (ins.zip [["a"], ["b", "a"]]) s →
      s.written o = piped allProgs [grepStage, cutStage, sortStage] ["a", "b", "a"] := by
  have hp : ∀ s ∈ [grepStage, cutStage] ++ [sortStage], ProperStage s := by
    simp only [List.cons_append, List.nil_append, List.mem_cons, List.not_mem_nil, or_false]
    rintro s (rfl | rfl | rfl)
    · exact grepStage_ok.1
    · exact cutStage_ok.1
    · exact sortStage_ok.1
  have hs : ∀ s ∈ [grepStage, cutStage] ++ [sortStage],
      ProperStage s ∧ (Concatenates s ∨ s.inv.cmdName ∈ ["sort", "custom_sort"]) := by
    intro s hm
    refine ⟨hp s hm, ?_⟩
    simp only [List.cons_append, List.nil_append, List.mem_cons, List.not_mem_nil, or_false] at hm
    rcases hm with rfl | rfl | rfl
    · exact .inl rfl
    · exact .inl rfl
    · exact .inr (by decide)
  obtain ⟨i, hi, -⟩ := exists_new (([grepStage, cutStage] ++ [sortStage]).map (·.cmd)) []
  obtain ⟨j, hj, hji⟩ := exists_new (([grepStage, cutStage] ++ [sortStage]).map (·.cmd)) [i]
  obtain ⟨cmds, made, o, hn⟩ := C116_commands (l := [grepStage, cutStage]) (last := sortStage) hs [i, j]
    (by simpa using fun e => hji (by simp [e])) (by
      intro s hs v hv
      simp only [List.mem_cons, List.not_mem_nil, or_false] at hv
      rcases hv with rfl | rfl
      · exact hi _ (List.mem_map_of_mem hs)
      · exact hj _ (List.mem_map_of_mem hs)) (.inr (by simp))
  refine ⟨[i, j], cmds, made, o, rfl, hn, fun n s hr hend => ?_⟩
  refine (C116_manual allProgs allProgs_cat allManuals hp ?_ sortStage_ok.2 (by decide) hn ["a", "b", "a"] [["a"], ["b", "a"]] rfl ?_
    hr hend).2
  · intro s hs
    simp only [List.mem_cons, List.not_mem_nil, or_false] at hs
    rcases hs with rfl | rfl
    · exact grepStage_ok.2
    · exact cutStage_ok.2
  · exact .block (x := ["a"]) (before := [["a"]]) (worker := []) (after := [])
      (.block (x := []) (before := []) (worker := []) (after := [[]]) (.start 2))

end PashAnn
