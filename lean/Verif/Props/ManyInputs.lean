import Verif.Spec.ManyInputs
import Verif.Props.Names
import Verif.Props.LastLine

/-! C115: commands with several inputs read them through `cat`. -/

namespace PashAnn
open Spec

theorem optionVar_nil {c : CommandInvocationWithIOVars}
    (h : ∀ n v, FlagOptionWithIOVar.optionIO n (.var v) ∉ c.flagOptionList) : c.flagOptionList.flatMap optionVar = [] := by
  refine List.flatMap_eq_nil_iff.2 fun f hf => ?_
  cases f with
  | optionIO n a =>
      cases a with
      | var v => exact absurd hf (h n v)
      | str | io => rfl
  | flag | optionVar => rfl

theorem strOperands_filter (p : VArg → Bool) (hp : ∀ s, p (.str s) = true) (c : CommandInvocationWithIOVars) :
    strOperands { c with operandList := c.operandList.filter p } = strOperands c := by
  unfold strOperands
  show (c.operandList.filter p).filterMap _ = _
  generalize c.operandList = l
  induction l with
  | nil => rfl
  | cons a l ih =>
      cases a with
      | str s => rw [List.filter_cons_of_pos (hp s), List.filterMap_cons, List.filterMap_cons, ih]
      | var v =>
          rw [List.filterMap_cons, List.filter_cons]
          by_cases h : p (.var v) = true
          · rw [if_pos h, List.filterMap_cons, ih]
          · rw [if_neg h, ih]
      | io f =>
          rw [List.filterMap_cons, List.filter_cons]
          by_cases h : p (.io f) = true
          · rw [if_pos h, List.filterMap_cons, ih]
          · rw [if_neg h, ih]

/-- C115: the inputs can be replaced by one new variable. The result is the same command with the same flags, options and
operands that are no files; it reads that variable only and writes where it wrote; and it is as in the theorems about
executions, so that mappers can be made from it. -/
theorem C115_prepared (c : CommandInvocationWithIOVars) (hc : ManyStreams c) (new : IOVar) (hn : Unused c new) :
    ∃ c', readsInstead c new = .ok c' ∧ OneStream c' ∧ c'.cmdName = c.cmdName ∧ c'.flagOptionList = c.flagOptionList ∧
      strOperands c' = strOperands c ∧ withAccess c' .streamInput = [new] ∧
      withAccess c' .streamOutput = withAccess c .streamOutput ∧ c'.implicitOutput = c.implicitOutput := by
  have hopt := optionVar_nil hc.options
  obtain ⟨d, hd, hk, ho, ha⟩ := (C46_remove c hc.described hc.distinct).1 (by rw [hopt]; simp)
  have hname : d.cmdName = c.cmdName := (congrArg CommandInvocationWithIOVars.cmdName hk :)
  have hfl : d.flagOptionList = c.flagOptionList := (congrArg CommandInvocationWithIOVars.flagOptionList hk :)
  have hop : d.operandList = c.operandList.filter (fun x => ∀ v ∈ varOf x, accessOf c v ≠ some .streamInput) :=
    (congrArg CommandInvocationWithIOVars.operandList hk :)
  have hii : d.implicitInput = none := by
    have e : d.implicitInput = c.implicitInput.filter (fun v => accessOf c v ≠ some .streamInput) :=
      (congrArg CommandInvocationWithIOVars.implicitInput hk :)
    rw [e]
    cases h : c.implicitInput with
    | none => rfl
    | some i => simp [Option.filter, hc.implicit i h]
  obtain ⟨o, hoo, hio⟩ := hc.out
  have hoa : accessOf c o = some .streamOutput := (withAccess_mem.1 (hoo ▸ List.mem_singleton.2 rfl)).2
  have hi' : d.implicitOutput = c.implicitOutput := by
    have e : d.implicitOutput = c.implicitOutput.filter (fun v => accessOf c v ≠ some .streamInput) :=
      (congrArg CommandInvocationWithIOVars.implicitOutput hk :)
    rw [e, hio]; simp [Option.filter, hoa]
  let e : CommandInvocationWithIOVars :=
    { d with implicitInput := some new, accessMap := AccessMap.set d.accessMap new .streamInput }
  have hacc : ∀ v, accessOf e v = if v = new then some .streamInput else accessOf d v := fun v => get_set _ _ _ _
  have hdo : occurrences d = d.operandList.flatMap varOf ++ d.implicitOutput.toList := by
    unfold occurrences; rw [hfl, hopt, hii]; simp
  have heo : occurrences e = d.operandList.flatMap varOf ++ [new] ++ d.implicitOutput.toList := by
    show d.flagOptionList.flatMap optionVar ++ d.operandList.flatMap varOf ++ [new] ++ d.implicitOutput.toList = _
    rw [hfl, hopt]; rfl
  have hmem : ∀ v, v ∈ occurrences d ↔ v ∈ occurrences c ∧ accessOf c v ≠ some .streamInput := by
    intro v; rw [ho]; simp
  have hnd : new ∉ occurrences d := fun h => hn.1 ((hmem new).1 h).1
  have hda : ∀ v ∈ occurrences d, accessOf e v = accessOf c v := by
    intro v hv
    have hne : v ≠ new := fun h => hnd (h ▸ hv)
    rw [hacc, if_neg hne, ha, if_neg]
    intro h
    exact ((hmem v).1 hv).2 (withAccess_mem.1 h).2
  have hfilter : ∀ a, withAccess e a = (if a = .streamInput then [new] else (withAccess c a)) := by
    intro a
    have e1 : (occurrences d).filter (fun v => accessOf e v = some a) = (occurrences d).filter (fun v => accessOf c v = some a) :=
      List.filter_congr fun v hv => by rw [hda v hv]
    have e2 : (occurrences d).filter (fun v => accessOf c v = some a) =
        if a = .streamInput then [] else withAccess c a := by
      rw [ho, List.filter_filter]
      split
      · next h => subst h; exact List.filter_eq_nil_iff.2 (by intro v _; simp)
      · next h =>
          refine List.filter_congr fun v _ => ?_
          by_cases hv : accessOf c v = some a
          · simp [hv, h]
          · simp [hv]
    rw [hdo] at e1 e2
    rw [List.filter_append] at e1
    show (occurrences e).filter _ = _
    rw [heo, List.filter_append, List.filter_append]
    have hnew : accessOf e new = some .streamInput := by rw [hacc, if_pos rfl]
    by_cases h : a = .streamInput
    · subst h
      rw [if_pos rfl] at e2
      rw [e2] at e1
      obtain ⟨h1, h2⟩ := List.append_eq_nil_iff.1 e1
      rw [h1, h2]; simp [hnew]
    · rw [if_neg h] at e2 ⊢
      rw [← e2, ← e1]
      have : [new].filter (fun v => decide (accessOf e v = some a)) = [] := by
        simp [hnew, Ne.symm h]
      rw [this, List.append_nil]
  refine ⟨e, by unfold readsInstead; rw [hd]; rfl, ⟨?_, ?_, ⟨new, by rw [hfilter]; rfl⟩, ⟨o, ?_, hi'.trans hio⟩, ?_, ?_⟩, hname, hfl, ?_,
    by rw [hfilter]; rfl, by rw [hfilter]; rfl, hi'⟩
  · intro v hv
    rw [heo] at hv
    by_cases h : v = new
    · rw [hacc, if_pos h]; simp
    · have hv' : v ∈ occurrences d := by
        rw [hdo]; simp only [List.mem_append, List.mem_singleton, h, or_false] at hv ⊢; exact hv
      rw [hda v hv']
      exact hc.described v ((hmem v).1 hv').1
  · have hnodup : (occurrences d).Nodup := by rw [ho]; exact hc.distinct.filter _
    rw [heo, List.append_assoc]
    show (_ ++ new :: d.implicitOutput.toList).Nodup
    rw [List.perm_middle.nodup_iff]
    exact List.nodup_cons.2 ⟨hdo ▸ hnd, hdo ▸ hnodup⟩
  · rw [hfilter]; exact hoo
  · intro n v; show _ ∉ d.flagOptionList; rw [hfl]; exact hc.options n v
  · intro i h
    have : new = i := Option.some.inj h
    rw [hacc, if_pos this.symm]
  · have := strOperands_filter (fun x => ∀ v ∈ varOf x, accessOf c v ≠ some .streamInput) (by simp [varOf]) c
    unfold strOperands at this ⊢
    rw [← this]
    show d.operandList.filterMap _ = _
    rw [hop]

/-- C115: the `cat` before the command gives the inputs one after another. -/
theorem C115_cat {α : Type} {prog : ProgramsOn α} (hcat : CatProgram prog) (c : CommandInvocationWithIOVars) (new : IOVar)
    (hn : Unused c new) (env : IOVar → List α) :
    output prog env (catBefore c new) = ((withAccess c .streamInput).map env).flatten ∧
      withAccess (catBefore c new) .streamOutput = [new] ∧ (catBefore c new).implicitOutput = some new := by
  have hni : new ∉ withAccess c .streamInput := fun h => hn.1 (withAccess_mem.1 h).1
  have hin : withAccess (catBefore c new) .streamInput = withAccess c .streamInput := makeCat_inputs _ _ hni c
    ⟨.concatenate, catBefore c new⟩ rfl
  have hacc : ∀ v, accessOf (catBefore c new) v = if v = new then some .streamOutput else
      if v ∈ withAccess c .streamInput then some .streamInput else none := by
    obtain ⟨agg, h, _, _, _, _, _, _, hacc, _⟩ := C47_concatenate (plan .consecChunks concatenation) rfl c (withAccess c .streamInput) new
    have : agg = ⟨.concatenate, catBefore c new⟩ := by cases h; rfl
    subst this
    exact hacc
  refine ⟨?_, ?_, rfl⟩
  · unfold output
    rw [hin]
    have : strOperands (catBefore c new) = [] := by
      unfold strOperands catBefore CommandInvocationWithIOVars.makeCat
      rw [List.filterMap_map]
      exact List.filterMap_eq_nil_iff.2 (fun _ _ => rfl)
    rw [this]
    exact hcat _
  · have ho : occurrences (catBefore c new) = withAccess c .streamInput ++ [new] := by
      unfold occurrences catBefore CommandInvocationWithIOVars.makeCat
      simp [List.flatMap_map, varOf]
    show (occurrences (catBefore c new)).filter _ = _
    rw [ho, List.filter_append]
    have h1 : (withAccess c .streamInput).filter (fun v => accessOf (catBefore c new) v = some .streamOutput) = [] := by
      refine List.filter_eq_nil_iff.2 fun v hv => ?_
      have hne : v ≠ new := fun h => hni (h ▸ hv)
      rw [hacc, if_neg hne, if_pos hv]; simp
    rw [h1]; simp [hacc]

/-- C115, exactly: reading the inputs through `cat` gives what the command gives on the inputs, whatever they are, if and only
if it does to its inputs what it does to one input that holds all of them. -/
theorem C115_exact {α : Type} {prog : ProgramsOn α} (hcat : CatProgram prog) (c : CommandInvocationWithIOVars)
    (hc : ManyStreams c) (new : IOVar) (hn : Unused c new) (c' : CommandInvocationWithIOVars)
    (h : readsInstead c new = .ok c') :
    (∀ env, sequential prog c' (output prog env (catBefore c new)) = output prog env c) ↔ OneAfterAnother prog c := by
  obtain ⟨d, hd, hone, h1, h2, h3, h4, -⟩ := C115_prepared c hc new hn
  rw [h] at hd; cases hd
  unfold sequential
  rw [h1, h2, h3]
  constructor
  · intro hall xs hlen
    let ins := withAccess c .streamInput
    have hnd : ins.Nodup := hc.distinct.filter _
    let env : IOVar → List α := fun v => xs[ins.idxOf v]?.getD []
    have henv : ins.map env = xs := by
      apply List.ext_getElem
      · rw [List.length_map, hlen]
      · intro n h1 h2
        have hn' : n < ins.length := by simpa using h1
        simp only [List.getElem_map, env, hnd.idxOf_getElem n hn', List.getElem?_eq_getElem h2, Option.getD_some]
    have := hall env
    rw [(C115_cat hcat c new hn env).1] at this
    unfold output at this
    rw [show (withAccess c .streamInput).map env = xs from henv] at this
    exact this.symm
  · intro hall env
    rw [(C115_cat hcat c new hn env).1]
    exact (hall _ (by simp)).symm

/-- C115 for plans that concatenate the outputs of line-wise commands: executing the plan on the output of `cat` gives what the
command gives on its inputs. -/
theorem C115_lines {inv : CommandInvocationInitial} {p : Parallelizer} (hp : Offered inv p)
    (hk : p.coreAggregatorSpec.kind = .concatenate) {α : Type} {prog : ProgramsOn α} (hcat : CatProgram prog)
    (c : CommandInvocationWithIOVars) (hc : ManyStreams c) (new : IOVar) (hn : Unused c new) (c' : CommandInvocationWithIOVars)
    (h : readsInstead c new = .ok c') (hl : LineWise (sequential prog c)) (ho : OneAfterAnother prog c) (env : IOVar → List α)
    (parts : List (List α)) (hs : Split p.splitter (output prog env (catBefore c new)) parts) (y : List α)
    (he : Executes prog p c' parts y) : y = output prog env c := by
  obtain ⟨d, hd, hone, h1, h2, h3, h4, -⟩ := C115_prepared c hc new hn
  rw [h] at hd; cases hd
  have hl' : LineWise (sequential prog c') := by
    have : sequential prog c' = sequential prog c := by funext x; unfold sequential; rw [h1, h2, h3]
    rw [this]; exact hl
  rw [C53_offered inv p hp hk prog hcat c' hone hl' _ parts hs y he]
  exact (C115_exact hcat c hc new hn c' h).2 ho env

/-- C115 for `sort`: executing a plan that is offered on the output of `cat` gives what `sort` gives on its files. -/
theorem C115_sort {inv : CommandInvocationInitial} (hn : inv.cmdName = "sort") {p : Parallelizer} (hp : Offered inv p)
    {prog : Programs} {le : List FlagOptionWithIOVar → String → String → Prop} (hprog : SortProgram prog le)
    (hcat : CatProgram prog) (c : CommandInvocationWithIOVars) (hb : Belongs inv c) (hcov : Covered "sort" c.flagOptionList)
    (hc : ManyStreams c) (hstr : strOperands c = []) (hle : LineOrder (le c.flagOptionList)) (new : IOVar) (hnew : Unused c new)
    (c' : CommandInvocationWithIOVars) (h : readsInstead c new = .ok c') (env : IOVar → Stream) (parts : List Stream)
    (hs : Split p.splitter (output prog env (catBefore c new)) parts) (y : Stream) (he : Executes prog p c' parts y) :
    y = output prog env c := by
  obtain ⟨d, hd, hone, h1, h2, h3, h4, -⟩ := C115_prepared c hc new hnew
  rw [h] at hd; cases hd
  have hb' : Belongs inv c' := ⟨h1.trans hb.1, by rw [h2]; exact hb.2⟩
  rw [C55_sort inv hn p hp prog le hprog c' hb' (h2 ▸ hcov) hone (h3.trans hstr) (h2 ▸ hle) _ parts hs y he]
  refine (C115_exact hcat c hc new hnew c' h).2 ?_ env
  intro xs _
  obtain ⟨hblock, -⟩ := sort_offered (.inl hn) hp
  have hng : ∀ n, n ∈ ParGen.sortBlockers → ¬ Given c.flagOptionList n :=
    fun n hn hg => hblock ⟨n, hn, (has_iff_given hb n).2 hg⟩
  have key := fun ins => hprog.sorts c.flagOptionList ins hcov hle (hng _ (by simp [ParGen.sortBlockers]))
    (hng _ (by simp [ParGen.sortBlockers])) (hng _ (by simp [ParGen.sortBlockers])) (hng _ (by simp [ParGen.sortBlockers]))
    (fun hm => absurd hm (hng _ (by simp [ParGen.sortBlockers])))
  rw [hb.1.trans hn, hstr]
  have hperm := (key xs).2.trans ((key [xs.flatten]).2.trans (by simp)).symm
  exact hperm.eq_of_pairwise (fun a b _ _ h1 h2 => hle.antisymm a b h1 h2) (key xs).1 (key [xs.flatten]).1

/-- An invocation that writes standard output only is as in the theorems above. -/
theorem stands_manyStreams {what : IOVar → FileWithIO} {c : CommandInvocationWithIO} {v : CommandInvocationWithIOVars}
    (hs : StandsFor what c v) (hone : (streamsWith c .streamOutput).length = 1) (hco : c.implicitOutput = some stdoutStream)
    (hin : c.implicitInput = some stdinStream ∨ c.implicitInput = none) : ManyStreams v := by
  obtain ⟨u, hu, hwu⟩ : ∃ u, v.implicitOutput = some u ∧ what u = stdoutStream := by
    have := hs.output
    rw [hco] at this
    exact Option.map_eq_some_iff.1 this
  have hacc : ∀ u ∈ occurrences v, accessOf v u = some (accessIn (what u)) := fun u hu =>
    hs.access u (List.mem_append_left _ hu)
  have huo : u ∈ occurrences v := by unfold occurrences; simp [hu]
  refine ⟨fun w hw => by rw [hacc w hw]; simp, (List.nodup_append.1 hs.distinct).1, ?_, ?_, ?_⟩
  · rw [← stands_withAccess hs, List.length_map] at hone
    obtain ⟨z, hz⟩ := List.length_eq_one_iff.1 hone
    have : u ∈ withAccess v .streamOutput := withAccess_mem.2 ⟨huo, by rw [hacc u huo, hwu]; rfl⟩
    rw [hz, List.mem_singleton] at this
    exact ⟨z, hz, this ▸ hu⟩
  · intro n w hm
    obtain ⟨f, _, hh⟩ := hs.options.mem_right hm
    cases hh
  · intro j hj
    have hjo : j ∈ occurrences v := by unfold occurrences; simp [hj]
    have hwj : some (what j) = c.implicitInput := by rw [← hs.input, hj]; rfl
    rcases hin with h | h
    · rw [h] at hwj
      rw [hacc j hjo, Option.some.inj hwj]; rfl
    · rw [h] at hwj; cases hwj

/-- C115 for parsed invocations of `grep`, `cut`, `sort` and `sed` that have a plan, with any number of files: they are as in
the theorems above, and `cat` reads the files in the order in which they are given, or standard input if there are none. For
`sed`, it also reads standard input after the files. -/
theorem C115_commands {inv : CommandInvocationInitial} {c : CommandInvocationWithIO} {what : IOVar → FileWithIO}
    {v : CommandInvocationWithIOVars} {p : Parallelizer} (ht : Typed inv c) (hs : StandsFor what c v) (ho : Offered inv p)
    (hn : inv.cmdName ∈ ["grep", "cut", "sort", "sed"]) (hno : ¬ (inv.cmdName = "sort" ∧ Has inv "-o"))
    {texts fs : List String} (htf : TextsThenFiles inv texts fs) :
    ManyStreams v ∧ v.cmdName = inv.cmdName ∧ strOperands v = texts ∧
      (withAccess v .streamInput).map what =
        fs.map (fileOf .streamInput) ++ (if fs = [] ∨ inv.cmdName = "sed" then [stdinStream] else []) := by
  obtain ⟨hname, -, si, so, hr, hin, hout⟩ := C63_table inv c ht
  obtain ⟨-, hgrep, hsort, -⟩ := offered_facts ho
  have key : c.operandList = strings texts ++ files .streamInput fs ∧ so ∧ (si ↔ fs = [] ∨ inv.cmdName = "sed") := by
    generalize c.operandList = ol at hr
    have noText : inv.cmdName ∉ ["grep", "sed"] ∨ Has inv "-e" ∨ Has inv "-f" → texts = [] ∧ inv.operandList = fs := fun h => by
      have := htf.option h
      exact ⟨this, by rw [htf.operands, this]; rfl⟩
    have oneText : inv.cmdName ∈ ["grep", "sed"] ∧ ¬ (Has inv "-e" ∨ Has inv "-f") → ∀ {o os}, inv.operandList = o :: os →
        texts = [o] ∧ os = fs := fun h o os e => by
      obtain ⟨t, rfl⟩ := htf.operand h
      have := htf.operands
      rw [e] at this
      cases this
      exact ⟨rfl, rfl⟩
    cases hr
    case filter h =>
      simp only [List.mem_cons, List.not_mem_nil, or_false] at h hn
      have hcut : inv.cmdName = "cut" := by rcases h with h | h | h | h <;> simp_all
      obtain ⟨rfl, rfl⟩ := noText (.inl (by simp [hcut]))
      exact ⟨by simp [strings], trivial, by simp [hcut]⟩
    case sort h =>
      have hso : inv.cmdName = "sort" := by
        simp only [List.mem_cons, List.not_mem_nil, or_false] at h hn
        rcases h with h | h <;> simp_all
      obtain ⟨rfl, rfl⟩ := noText (.inl (by simp [hso]))
      exact ⟨by simp [strings], fun h => hno ⟨hso, h⟩, by simp [hso, hsort h]⟩
    case grepOption h hx =>
      obtain ⟨rfl, rfl⟩ := noText (.inr hx)
      exact ⟨by simp [strings], hgrep h, by simp [h]⟩
    case grepOperand o os h hx e =>
      obtain ⟨rfl, rfl⟩ := oneText ⟨by simp [h], hx⟩ e
      exact ⟨by simp [strings], hgrep h, by simp [h]⟩
    case sedOption h hx =>
      obtain ⟨rfl, rfl⟩ := noText (.inr hx)
      exact ⟨by simp [strings], trivial, by simp [h]⟩
    case sedOperand o os h hx e =>
      obtain ⟨rfl, rfl⟩ := oneText ⟨by simp [h], hx⟩ e
      exact ⟨by simp [strings], trivial, by simp [h]⟩
    all_goals
      exfalso
      clear noText oneText htf hgrep hsort hno ht hs ho hin hout hname
      simp only [List.mem_cons, List.not_mem_nil, or_false] at hn
      rcases hn with h | h | h | h <;> simp_all
  obtain ⟨hol, hso, hsi⟩ := key
  have hco : c.implicitOutput = some stdoutStream := by
    rcases hout with h | h
    · exact h.2
    · exact absurd hso h.1
  have hst : streamsOf c = fs.map (fileOf .streamInput) ++ c.implicitInput.toList ++ [stdoutStream] := by
    unfold streamsOf
    rw [hol, List.filterMap_append, filterMap_strings, filterMap_files, hco]; rfl
  have hacc : ∀ s, accessIn (fileOf .streamInput s) = .streamInput := by
    intro s; unfold fileOf; split <;> rfl
  have hii : ∀ i ∈ c.implicitInput.toList, i = stdinStream := by
    intro i hi
    rcases hin with h | h <;> rw [h.2] at hi <;> simp at hi
    exact hi
  have hsin : streamsWith c .streamInput = fs.map (fileOf .streamInput) ++ c.implicitInput.toList := by
    unfold streamsWith
    rw [hst, List.filter_append, List.filter_eq_self.2, List.filter_eq_nil_iff.2, List.append_nil]
    · intro f hf; rw [List.mem_singleton.1 hf]; decide
    · intro f hf
      rcases List.mem_append.1 hf with hf | hf
      · obtain ⟨s, -, rfl⟩ := List.mem_map.1 hf; simp [hacc]
      · rw [hii f hf]; decide
  have hsout : streamsWith c .streamOutput = [stdoutStream] := by
    unfold streamsWith
    rw [hst, List.filter_append, List.filter_eq_nil_iff.2]
    · decide
    · intro f hf
      rcases List.mem_append.1 hf with hf | hf
      · obtain ⟨s, -, rfl⟩ := List.mem_map.1 hf; simp [hacc]
      · rw [hii f hf]; decide
  refine ⟨stands_manyStreams hs (by rw [hsout]; rfl) hco (hin.imp And.right And.right), by rw [hs.name, hname], ?_, ?_⟩
  · obtain ⟨vs, hvs, -⟩ := stands_operands (hol ▸ hs.operands)
    unfold strOperands
    rw [hvs]
    simp only [List.filterMap_append, List.filterMap_map]
    have e1 : ∀ l : List String, l.filterMap (fun s => some s) ++ [] = l := by simp
    have e2 : ∀ l : List IOVar, l.filterMap (fun _ => (none : Option String)) = [] := by simp
    exact (congrArg (_ ++ ·) (e2 vs)).trans (e1 texts)
  · rw [stands_withAccess hs, hsin]
    congr 1
    rcases hin with h | h
    · rw [h.2, if_pos (hsi.1 h.1)]; rfl
    · rw [h.2, if_neg (fun hh => h.1 (hsi.2 hh))]; rfl

/-- C115 for texts: if all inputs but the last end with complete lines, reading them through `cat` gives what a command gives
that does so with lines. -/
theorem C115_texts {texts : ProgramsOn Char} {lines : Programs} (hct : Completes texts lines) (c : CommandInvocationWithIOVars)
    (hc : ManyStreams c) (hname : c.cmdName ≠ "cat") (new : IOVar) (hn : Unused c new) (c' : CommandInvocationWithIOVars)
    (h : readsInstead c new = .ok c') (hl : OneAfterAnother lines c) (env : IOVar → Text)
    (hcut : CutAtLines ((withAccess c .streamInput).map env)) :
    sequential texts c' (output texts env (catBefore c new)) = output texts env c := by
  obtain ⟨d, hd, hone, h1, h2, h3, h4, -⟩ := C115_prepared c hc new hn
  rw [h] at hd; cases hd
  rw [(C115_cat hct.cat c new hn env).1, completes_sequential hct (h1 ▸ hname), textLines_flatten hcut]
  unfold output sequential
  rw [hct.others _ _ _ _ hname, h1, h2, h3]
  rw [hl (((withAccess c .streamInput).map env).map textLines) (by simp)]

/-- C115 for texts, exactly: for a command that prints all lines, reading the inputs through `cat` gives what the command gives
if and only if all inputs that are followed by something end with complete lines. -/
theorem C115_texts_exact {texts : ProgramsOn Char} {lines : Programs} (hct : Completes texts lines)
    (c : CommandInvocationWithIOVars) (hc : ManyStreams c) (hname : c.cmdName ≠ "cat") (new : IOVar) (hn : Unused c new)
    (c' : CommandInvocationWithIOVars) (h : readsInstead c new = .ok c')
    (hall : ∀ xs, lines c.cmdName c.flagOptionList (strOperands c) xs = xs.flatten) (env : IOVar → Text) :
    sequential texts c' (output texts env (catBefore c new)) = output texts env c ↔
      CutAtLines ((withAccess c .streamInput).map env) := by
  obtain ⟨d, hd, hone, h1, h2, h3, h4, -⟩ := C115_prepared c hc new hn
  rw [h] at hd; cases hd
  rw [(C115_cat hct.cat c new hn env).1, completes_sequential hct (h1 ▸ hname)]
  unfold output sequential
  rw [hct.others _ _ _ _ hname, h1, h2, h3, hall, hall, List.flatten_cons, List.flatten_nil, List.append_nil, complete_flatten,
    ← completed_iff, List.map_map]
  exact eq_comm

/-- `grep` shows no names before lines that it reads from one input, unless it is asked to. -/
theorem namesLines_one {fl : List FlagOptionWithIOVar} (h : ¬ ShowsNames fl) : ¬ NamesLines fl 1 := by
  rintro (h' | ⟨h', -⟩)
  · exact h h'
  · omega

theorem cons_name_ne (a l : String) : a ++ ":" ++ l ≠ l := by
  intro h
  have := congrArg String.length h
  simp only [String.length_append] at this
  have h1 : (":" : String).length = 1 := by decide
  omega

/-- What `cat` gives for the inputs of an invocation. -/
theorem namedCat_output {prog : NamedPrograms} (hcat : NamedCat prog) (v : CommandInvocationWithIOVars) (new : IOVar)
    (hn : Unused v new) (env : IOVar → String × Stream) :
    namedOutput prog env (catBefore v new) = ((withAccess v .streamInput).map fun u => (env u).2).flatten := by
  have hni : new ∉ withAccess v .streamInput := fun h => hn.1 (withAccess_mem.1 h).1
  unfold namedOutput
  rw [show withAccess (catBefore v new) .streamInput = withAccess v .streamInput from makeCat_inputs _ _ hni v
    ⟨.concatenate, catBefore v new⟩ rfl]
  have : strOperands (catBefore v new) = [] := by
    unfold strOperands catBefore CommandInvocationWithIOVars.makeCat
    rw [List.filterMap_map]
    exact List.filterMap_eq_nil_iff.2 (fun _ _ => rfl)
  rw [this, show (catBefore v new).cmdName = "cat" from rfl, show (catBefore v new).flagOptionList = [] from rfl, hcat,
    List.map_map]
  rfl

/-- C115 for `grep`, exactly: executing a plan that concatenates, on the output of `cat`, gives what `grep` gives on its files
if and only if it is asked about names, has one file at most, or prints nothing. Otherwise `grep` puts the names of the files
before the lines, and what reads the output of `cat` does not. -/
theorem C115_grep {inv : CommandInvocationInitial} {p : Parallelizer} (ho : Offered inv p)
    (hk : p.coreAggregatorSpec.kind = .concatenate) {prog : NamedPrograms} (hcat : NamedCat prog)
    {shown : List FlagOptionWithIOVar → List String → String → List String} (hg : NamedGrepAll prog shown)
    (v : CommandInvocationWithIOVars) (hv : ManyStreams v) (hname : v.cmdName = "grep")
    (hcov : ∀ f ∈ v.flagOptionList, f.getName ∈ lineGrepNames) (hsn : ¬ ShowsNames v.flagOptionList)
    (new : IOVar) (hn : Unused v new) (c' : CommandInvocationWithIOVars) (h : readsInstead v new = .ok c')
    (env : IOVar → String × Stream) (parts : List (String × Stream))
    (hs : (parts.map Prod.snd).flatten = namedOutput prog env (catBefore v new)) (y : Stream)
    (he : NamedExecutes prog p c' parts y) :
    y = namedOutput prog env v ↔ (2 ≤ (withAccess v .streamInput).length → (∀ f ∈ v.flagOptionList, f.getName ∉ ["-H", "-h"]) →
      ∀ u ∈ withAccess v .streamInput, ∀ l ∈ (env u).2, shown v.flagOptionList (strOperands v) l = []) := by
  obtain ⟨d, hd, hone, h1, h2, h3, h4, -⟩ := C115_prepared v hv new hn
  rw [h] at hd; cases hd
  let g := shown v.flagOptionList (strOperands v)
  have hone' : ∀ part : String × Stream, prog "grep" v.flagOptionList (strOperands v) [part] = part.2.flatMap g := by
    intro part
    rw [hg _ _ _ hcov, List.flatMap_cons, List.flatMap_nil, List.append_nil]
    simp only [List.length_cons, List.length_nil, Nat.zero_add, if_neg (namesLines_one hsn), List.map_id']
    rfl
  have hcatv := namedCat_output hcat v new hn env
  have hy : y = ((withAccess v .streamInput).map fun u => (env u).2.flatMap g).flatten := by
    have e1 : ∀ l : List (String × Stream), (l.map fun part => part.2.flatMap g).flatten = (l.map Prod.snd).flatten.flatMap g := by
      intro l
      induction l with
      | nil => rfl
      | cons a l ih => simp only [List.map_cons, List.flatten_cons, List.flatMap_append, ih]
    have e2 : ((withAccess v .streamInput).map fun u => (env u).2.flatMap g) =
        ((withAccess v .streamInput).map env).map fun part => part.2.flatMap g := by rw [List.map_map]; rfl
    rw [named_concatenation hcat hone (offered_concatenate ho hk) he, h1, h2, h3, hname, List.map_congr_left (fun part _ => hone' part),
      e1, hs, hcatv, e2, e1, List.map_map]
    rfl
  have hz : namedOutput prog env v = ((withAccess v .streamInput).map fun u => ((env u).2.flatMap g).map fun l =>
      if NamesLines v.flagOptionList (withAccess v .streamInput).length then (env u).1 ++ ":" ++ l else l).flatten := by
    unfold namedOutput
    rw [hname, hg _ _ _ hcov, List.length_map, List.flatMap_map, List.flatMap_def]
  rw [hy, hz, flatten_eq_iff (by intro b; simp)]
  by_cases hnl : NamesLines v.flagOptionList (withAccess v .streamInput).length
  · have hnl' : 2 ≤ (withAccess v .streamInput).length ∧ ∀ f ∈ v.flagOptionList, f.getName ∉ ["-H", "-h"] :=
      hnl.resolve_left hsn
    have key : ∀ (a : String) (ls : List String), ls = ls.map (fun l => a ++ ":" ++ l) ↔ ls = [] := by
      intro a ls
      cases ls with
      | nil => simp
      | cons l ls =>
          simp only [List.map_cons, List.cons.injEq, reduceCtorEq, iff_false, not_and]
          intro e
          exact absurd e.symm (cons_name_ne a l)
    simp only [hnl, if_true, key, List.flatMap_eq_nil_iff]
    exact ⟨fun hh _ _ => hh, fun hh => hh hnl'.1 hnl'.2⟩
  · simp only [hnl, if_false, List.map_id', implies_true, true_iff]
    intro hn2 hno
    exact absurd (.inr ⟨hn2, hno⟩) hnl

/-- C115 for `grep -H`, exactly, if all parts are read under one name: the plan gives what `grep` gives on its files if and only
if every file of which something is printed has that name. -/
theorem C115_grep_names {inv : CommandInvocationInitial} {p : Parallelizer} (ho : Offered inv p)
    (hk : p.coreAggregatorSpec.kind = .concatenate) {prog : NamedPrograms} (hcat : NamedCat prog)
    {shown : List FlagOptionWithIOVar → List String → String → List String} (hg : NamedGrepAll prog shown)
    (v : CommandInvocationWithIOVars) (hv : ManyStreams v) (hname : v.cmdName = "grep")
    (hcov : ∀ f ∈ v.flagOptionList, f.getName ∈ lineGrepNames) (hsn : ShowsNames v.flagOptionList)
    (new : IOVar) (hn : Unused v new) (c' : CommandInvocationWithIOVars) (h : readsInstead v new = .ok c')
    (env : IOVar → String × Stream) (parts : List (String × Stream)) (called : String) (hcalled : ∀ part ∈ parts, part.1 = called)
    (hs : (parts.map Prod.snd).flatten = namedOutput prog env (catBefore v new)) (y : Stream)
    (he : NamedExecutes prog p c' parts y) :
    y = namedOutput prog env v ↔ ∀ u ∈ withAccess v .streamInput,
      (∃ l ∈ (env u).2, shown v.flagOptionList (strOperands v) l ≠ []) → (env u).1 = called := by
  obtain ⟨d, hd, hone, h1, h2, h3, h4, -⟩ := C115_prepared v hv new hn
  rw [h] at hd; cases hd
  let g := shown v.flagOptionList (strOperands v)
  have hnl : ∀ k, NamesLines v.flagOptionList k := fun k => .inl hsn
  have hone' : ∀ part ∈ parts, prog "grep" v.flagOptionList (strOperands v) [part] =
      (part.2.flatMap g).map (fun l => called ++ ":" ++ l) := by
    intro part hpart
    rw [hg _ _ _ hcov, List.flatMap_cons, List.flatMap_nil, List.append_nil, ← hcalled part hpart]
    simp only [hnl, if_true]
    rfl
  have hcatv := namedCat_output hcat v new hn env
  have e1 : ∀ l : List (String × Stream), (l.map fun part => (part.2.flatMap g).map (fun l => called ++ ":" ++ l)).flatten =
      ((l.map Prod.snd).flatten.flatMap g).map (fun l => called ++ ":" ++ l) := by
    intro l
    induction l with
    | nil => rfl
    | cons a l ih => simp only [List.map_cons, List.flatten_cons, List.flatMap_append, List.map_append, ih]
  have hy : y = ((withAccess v .streamInput).map fun u => ((env u).2.flatMap g).map (fun l => called ++ ":" ++ l)).flatten := by
    have e2 : ((withAccess v .streamInput).map fun u => ((env u).2.flatMap g).map (fun l => called ++ ":" ++ l)) =
        ((withAccess v .streamInput).map env).map fun part => (part.2.flatMap g).map (fun l => called ++ ":" ++ l) := by
      rw [List.map_map]; rfl
    rw [named_concatenation hcat hone (offered_concatenate ho hk) he, h1, h2, h3, hname, List.map_congr_left hone',
      e1, hs, hcatv, e2, e1, List.map_map]
    rfl
  have hz : namedOutput prog env v =
      ((withAccess v .streamInput).map fun u => ((env u).2.flatMap g).map fun l => (env u).1 ++ ":" ++ l).flatten := by
    unfold namedOutput
    rw [hname, hg _ _ _ hcov, List.length_map, List.flatMap_map, List.flatMap_def]
    simp only [hnl, if_true]
    rfl
  rw [hy, hz, flatten_eq_iff (by intro b; simp)]
  refine forall_congr' fun u => forall_congr' fun _ => ?_
  rw [map_name_eq, List.flatMap_eq_nil_iff]
  constructor
  · rintro (e | e) ⟨l, hl, hne⟩
    · exact e.symm
    · exact absurd (e l hl) hne
  · intro e
    by_cases hex : ∃ l ∈ (env u).2, shown v.flagOptionList (strOperands v) l ≠ []
    · exact .inl (e hex).symm
    · exact .inr fun l hl => Classical.byContradiction fun hne => hex ⟨l, hl, hne⟩

/-- C115 is false of the code: for `grep a f g` both plans that concatenate are offered; whenever something is printed, no
execution of them on the output of `cat` gives what the command line gives. -/
theorem C115_false : ∃ inv c what v, PlainLine "grep" ["a", "f", "g"] [] ["a", "f", "g"] ∧
    parse (Shlex.join ("grep" :: ["a", "f", "g"])) = .ok inv ∧ Typed inv c ∧ StandsFor what c v ∧
    ∀ p ∈ bothPlans concatenation, Offered inv p ∧ ∀ (prog : NamedPrograms) shown, NamedCat prog → NamedGrepAll prog shown →
      ∀ new, Unused v new → ∃ c', readsInstead v new = .ok c' ∧
        ∀ env, (∃ u ∈ withAccess v .streamInput, ∃ l ∈ (env u).2, shown [] ["a"] l ≠ []) →
        ∀ parts, (parts.map Prod.snd).flatten = namedOutput prog env (catBefore v new) →
          (∃ y, NamedExecutes prog p c' parts y) ∧ ∀ y, NamedExecutes prog p c' parts y → y ≠ namedOutput prog env v := by
  have ht : Typed ⟨"grep", [], ["a", "f", "g"]⟩
      ⟨"grep", [], [.argString "a", .io (.file "f" .streamInput), .io (.file "g" .streamInput)], none, some stdoutStream⟩ :=
    ⟨⟨[], [.argString, inT, inT], none, some stdoutStream⟩, by decide +kernel, by decide +kernel⟩
  obtain ⟨what, v, hs⟩ := C90_variables _
  refine ⟨_, _, what, v, ⟨⟨(manuals.lookup "grep").getD [], by decide +kernel,
    .operands (by unfold OperandWord; decide +kernel)⟩, by decide +kernel, by decide⟩, by decide +kernel, ht, hs, ?_⟩
  have hfl : v.flagOptionList = [] := by
    have := hs.options
    generalize v.flagOptionList = fl at this
    cases this
    rfl
  intro p hp
  have ho : Offered ⟨"grep", [], ["a", "f", "g"]⟩ p := (C109_offered _ rfl (by decide) p).2 hp
  obtain ⟨hv, hname, hstr, hin⟩ := C115_commands ht hs ho (by decide) (by decide) (texts := ["a"]) (fs := ["f", "g"])
    ⟨rfl, fun h => by revert h; decide, fun _ => ⟨_, rfl⟩⟩
  have hlen : 2 ≤ (withAccess v .streamInput).length := by
    have := congrArg List.length hin
    simp at this
    omega
  refine ⟨ho, fun prog shown hcat hg new hnew => ?_⟩
  obtain ⟨c', hc', hone, -⟩ := C115_prepared v hv new hnew
  refine ⟨c', hc', fun env hsome parts hparts => ⟨named_exists prog hone hp parts, fun y hy e => ?_⟩⟩
  have hk : p.coreAggregatorSpec.kind = .concatenate := by
    simp only [bothPlans, List.mem_cons, List.not_mem_nil, or_false] at hp
    rcases hp with rfl | rfl <;> rfl
  have := (C115_grep ho hk hcat hg v hv hname (by rw [hfl]; simp) (by rw [hfl]; decide) new hnew c' hc' env parts hparts y hy).1 e
    hlen (by rw [hfl]; simp)
  obtain ⟨u, hu, l, hl, hne⟩ := hsome
  have h0 := this u hu l hl
  rw [hfl, hstr] at h0
  exact hne h0

/-- Programs as in the theorems: `grep` prints every line, and `cat` concatenates. -/
def manySample : NamedPrograms := fun n fl _ ins =>
  if n = "grep" then ins.flatMap fun i => i.2.map fun l => if NamesLines fl ins.length then i.1 ++ ":" ++ l else l
  else (ins.map Prod.snd).flatten

example : NamedCat manySample ∧ NamedGrepAll manySample (fun _ _ l => [l]) ∧
    manySample "grep" [] ["a"] [("f", ["b"]), ("g", ["c"])] = ["f:b", "g:c"] ∧
    manySample "grep" [.flag "-h"] ["a"] [("f", ["b"]), ("g", ["c"])] = ["b", "c"] ∧
    manySample "grep" [] ["a"] [("-", ["b", "c"])] = ["b", "c"] :=
  ⟨fun _ => rfl, fun fl strs ins _ => by simp [manySample], by decide +kernel, by decide +kernel, by decide +kernel⟩

/-- `sort -n f g`, with the files as variables 1 and 2 and standard output as variable 3. -/
def manySort : CommandInvocationWithIOVars :=
  ⟨"sort", [.flag "-n"], [.var 1, .var 2], none, some 3, [(1, .streamInput), (2, .streamInput), (3, .streamOutput)]⟩

/-- It is as in the theorems, a new variable exists, and what is made of it reads that one; `sort` treats its inputs as one. -/
example : ManyStreams manySort ∧ Unused manySort 4 ∧ readsInstead manySort 4 =
      .ok ⟨"sort", [.flag "-n"], [], some 4, some 3, [(3, .streamOutput), (4, .streamInput)]⟩ ∧
    (∀ {α : Type} (f : List α → List α), OneAfterAnother (fun _ _ _ ins => f ins.flatten) manySort) := by
  refine ⟨⟨by unfold Described; decide +kernel, by decide +kernel, ⟨3, by decide +kernel, rfl⟩, by simp [manySort], by simp [manySort]⟩,
    ⟨by decide +kernel, by decide +kernel⟩, by decide +kernel, fun f xs _ => by simp⟩

/-- Texts as in the theorems: the first file ends with a complete line, or does not. -/
example : CutAtLines [['a', '\n'], ['b']] ∧ ¬ CutAtLines [['a'], ['b']] := by
  refine ⟨fun before part after h ha => ?_, fun h => ?_⟩
  · cases before with
    | nil => cases h; exact .inr rfl
    | cons x before =>
        cases before with
        | nil => cases h; simp at ha
        | cons y before => simp at h
  · rcases h [] ['a'] [['b']] rfl (by simp) with h | h
    · cases h
    · simp at h

end PashAnn
