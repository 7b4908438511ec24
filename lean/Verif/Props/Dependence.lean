import Verif.Props.Plans
import Verif.Props.ParTable
import Verif.Props.IOTable
import Verif.Spec.Dependence

/-! Properties C85 and C86. Specification: `Spec/Dependence.lean`. -/

namespace PashAnn
open Spec

/-! C86: what annotations depend on. -/

theorem offers_same {inv inv' : CommandInvocationInitial} (h : SameForPlans inv inv') {l b} (ho : Offers inv l b) :
    Offers inv' l b := by
  obtain ⟨hn, hops, hh⟩ := h
  have key : ∀ cmd ns, (cmd, ns) ∈ consulted → inv.cmdName = cmd → ∀ n ∈ ns, Has inv n ↔ Has inv' n :=
    fun cmd ns hm hc => hh ns (hc ▸ hm)
  have any : ∀ cmd ns, (cmd, ns) ∈ consulted → inv.cmdName = cmd → ∀ l, (∀ n ∈ l, n ∈ ns) →
      (HasAny inv l ↔ HasAny inv' l) := by
    intro cmd ns hm hc l hl
    unfold HasAny
    constructor
    · rintro ⟨n, h1, h2⟩; exact ⟨n, h1, (key cmd ns hm hc n (hl n h1)).1 h2⟩
    · rintro ⟨n, h1, h2⟩; exact ⟨n, h1, (key cmd ns hm hc n (hl n h1)).2 h2⟩
  have last : ∀ os o, inv.cmdName = "tr" → (LastSetHasNewline inv os o ↔ LastSetHasNewline inv' os o) := by
    intro os o hc
    unfold LastSetHasNewline
    rw [key "tr" ["-d", "-s", "-c"] (by simp [consulted]) hc "-c" (by simp)]
  have sorts : inv.cmdName ∈ ["sort", "custom_sort"] → (HasAny inv sortStops ↔ HasAny inv' sortStops) := by
    intro hc
    simp only [List.mem_cons, List.not_mem_nil, or_false] at hc
    rcases hc with hc | hc
    · exact any "sort" sortStops (by simp [consulted]) hc _ (fun _ h => h)
    · exact any "custom_sort" sortStops (by simp [consulted]) hc _ (fun _ h => h)
  have gk := key "grep" _ (by simp [consulted]; rfl)
  have ga := any "grep" _ (by simp [consulted]; rfl)
  have tk := key "tr" _ (by simp [consulted]; rfl)
  have uk := key "uniq" _ (by simp [consulted]; rfl)
  have ua := any "uniq" _ (by simp [consulted]; rfl)
  cases ho with
  | conc hc => exact .conc (hn ▸ hc)
  | setDiff hc => exact .setDiff (hn.trans hc)
  | test hc => exact .test (hn ▸ hc)
  | altBigrams hc => exact .altBigrams (hn.trans hc)
  | bigrams hc => exact .bigrams (hn.trans hc)
  | sort hc hs => exact .sort (hn ▸ hc) (fun h => hs ((sorts hc).2 h))
  | sortStop hc hs => exact .sortStop (hn ▸ hc) ((sorts hc).1 hs)
  | grep hc hq hx =>
      refine .grep (hn.trans hc) (by rw [← gk hc _ (by simp)]; exact hq) ?_
      rw [← ga hc _ (by simp), ← ga hc _ (by simp)]; exact hx
  | grepStop hc hx =>
      refine .grepStop (hn.trans hc) ?_
      rw [← gk hc _ (by simp), ← ga hc _ (by simp), ← ga hc _ (by simp)]; exact hx
  | sed hc ho hx => exact .sed (hn.trans hc) (hops.trans ho) hx
  | sedStop hc ho hx => exact .sedStop (hn.trans hc) (hops.trans ho) hx
  | tr hc hd hs =>
      exact .tr (hn.trans hc) (by rw [← tk hc _ (by simp)]; exact hd) (by rw [← tk hc _ (by simp)]; exact hs)
  | trSets hc hd ho hl =>
      exact .trSets (hn.trans hc) (by rw [← tk hc _ (by simp), ← tk hc _ (by simp)]; exact hd) (hops.trans ho)
        (fun h => hl ((last _ _ hc).2 h))
  | trDelete hc hd ho hl =>
      exact .trDelete (hn.trans hc) (by rw [← tk hc _ (by simp)]; exact hd) (hops.trans ho) ((last _ _ hc).1 hl)
  | trSqueeze hc hd hs ho hl =>
      exact .trSqueeze (hn.trans hc) (by rw [← tk hc _ (by simp)]; exact hd) (by rw [← tk hc _ (by simp)]; exact hs)
        (hops.trans ho) ((last _ _ hc).1 hl)
  | uniq hc hx hcc =>
      exact .uniq (hn.trans hc) (by rw [← ua hc _ (by simp)]; exact hx) (by rw [← uk hc _ (by simp)]; exact hcc)
  | uniqCount hc hx hcc =>
      exact .uniqCount (hn.trans hc) (by rw [← ua hc _ (by simp)]; exact hx) (by rw [← uk hc _ (by simp)]; exact hcc)
  | uniqStop hc hx => exact .uniqStop (hn.trans hc) (by rw [← ua hc _ (by simp)]; exact hx)

theorem SameForPlans.symm {inv inv' : CommandInvocationInitial} (h : SameForPlans inv inv') : SameForPlans inv' inv :=
  ⟨h.1.symm, h.2.1.symm, fun ns hm n hn => (h.2.2 ns (h.1 ▸ hm) n hn).symm⟩

/-- C86. What is offered depends only on the name, the operands and which flags and options of the table `consulted` are
present: not on their order, on how often they are given, on the arguments of options, or on any other flag or option. -/
theorem C86_plans (inv inv' : CommandInvocationInitial) (h : SameForPlans inv inv') :
    getParallelizabilityInfo inv = getParallelizabilityInfo inv' := by
  refine Option.ext fun i => ?_
  rw [C64_table, C64_table]
  constructor
  · rintro ⟨l, b, ho, hi⟩; exact ⟨l, b, offers_same h ho, hi⟩
  · rintro ⟨l, b, ho, hi⟩; exact ⟨l, b, offers_same (SameForPlans.symm h) ho, hi⟩

/-- C86. In particular for command invocations with the same flags and options in another order or number. -/
theorem C86_plans_order (inv inv' : CommandInvocationInitial) (hn : inv'.cmdName = inv.cmdName)
    (ho : inv'.operandList = inv.operandList) (hf : ∀ fo, fo ∈ inv.flagOptionList ↔ fo ∈ inv'.flagOptionList) :
    getParallelizabilityInfo inv = getParallelizabilityInfo inv' := by
  refine C86_plans inv inv' ⟨hn, ho, fun ns _ n _ => ?_⟩
  unfold Has
  simp only [hf]

example : ∃ inv inv', parse "sort -k 2 -r -n f" = .ok inv ∧ parse "sort -nr -n -k 5 -t : f" = .ok inv' ∧
    SameForPlans inv inv' ∧ inv ≠ inv' :=
  ⟨⟨"sort", [.option "-k" "2", .flag "-r", .flag "-n"], ["f"]⟩,
   ⟨"sort", [.flag "-n", .flag "-r", .flag "-n", .option "-k" "5", .option "-t" ":"], ["f"]⟩, by decide +kernel,
   by decide +kernel, ⟨rfl, rfl, by
    intro ns hm n hn
    simp only [consulted, List.mem_cons, Prod.mk.injEq, List.not_mem_nil, or_false] at hm
    rcases hm with ⟨_, rfl⟩ | ⟨h, _⟩ | ⟨h, _⟩ | ⟨h, _⟩ | ⟨h, _⟩
    · simp only [sortStops, List.mem_cons, List.not_mem_nil, or_false] at hn
      rcases hn with rfl | rfl | rfl | rfl | rfl | rfl | rfl | rfl | rfl <;> simp [Has]
    all_goals exact absurd h (by decide)⟩, by decide⟩

/-- The number of plans stored for an invocation. -/
def planCount (inv : CommandInvocationInitial) : Option Nat := (getParallelizabilityInfo inv).map (·.parallelizerList.length)

/-- Whether some stored plan concatenates. -/
def someConcatenate (inv : CommandInvocationInitial) : Option Bool :=
  (getParallelizabilityInfo inv).map fun i => i.parallelizerList.any fun p =>
    match p.coreAggregatorSpec.kind with
    | .concatenate => true
    | _ => false

/-- C86. The table has no superfluous names: for every name in it there are two invocations of the command that differ only
in whether it is given, and that are offered different plans. -/
theorem C86_consulted_needed (cmd : String) (ns : List String) (hm : (cmd, ns) ∈ consulted) (n : String) (hn : n ∈ ns) :
    ∃ fl ops, ¬ Has ⟨cmd, fl, ops⟩ n ∧
      getParallelizabilityInfo ⟨cmd, fl, ops⟩ ≠ getParallelizabilityInfo ⟨cmd, .flag n :: fl, ops⟩ := by
  have byCount : ∀ fl ops, ¬ Has ⟨cmd, fl, ops⟩ n → planCount ⟨cmd, fl, ops⟩ ≠ planCount ⟨cmd, .flag n :: fl, ops⟩ →
      ∃ fl ops, ¬ Has ⟨cmd, fl, ops⟩ n ∧
        getParallelizabilityInfo ⟨cmd, fl, ops⟩ ≠ getParallelizabilityInfo ⟨cmd, .flag n :: fl, ops⟩ :=
    fun fl ops h1 h2 => ⟨fl, ops, h1, fun h => h2 (congrArg (Option.map _) h)⟩
  have byKind : ∀ fl ops, ¬ Has ⟨cmd, fl, ops⟩ n →
      someConcatenate ⟨cmd, fl, ops⟩ ≠ someConcatenate ⟨cmd, .flag n :: fl, ops⟩ →
      ∃ fl ops, ¬ Has ⟨cmd, fl, ops⟩ n ∧
        getParallelizabilityInfo ⟨cmd, fl, ops⟩ ≠ getParallelizabilityInfo ⟨cmd, .flag n :: fl, ops⟩ :=
    fun fl ops h1 h2 => ⟨fl, ops, h1, fun h => h2 (congrArg (Option.map _) h)⟩
  simp only [consulted, List.mem_cons, Prod.mk.injEq, List.not_mem_nil, or_false] at hm
  rcases hm with ⟨rfl, rfl⟩ | ⟨rfl, rfl⟩ | ⟨rfl, rfl⟩ | ⟨rfl, rfl⟩ | ⟨rfl, rfl⟩
  · refine byCount [] [] (by simp [Has]) ?_
    simp only [sortStops, List.mem_cons, List.not_mem_nil, or_false] at hn
    rcases hn with rfl | rfl | rfl | rfl | rfl | rfl | rfl | rfl | rfl <;> decide +kernel
  · refine byCount [] [] (by simp [Has]) ?_
    simp only [sortStops, List.mem_cons, List.not_mem_nil, or_false] at hn
    rcases hn with rfl | rfl | rfl | rfl | rfl | rfl | rfl | rfl | rfl <;> decide +kernel
  · simp only [List.mem_cons, List.not_mem_nil, or_false] at hn
    rcases hn with rfl | rfl | rfl | rfl | rfl | rfl | rfl | rfl | rfl | rfl
    · exact byCount [] [] (by simp [Has]) (by decide +kernel)
    · exact byCount [.flag "-c"] [] (by simp [Has]) (by decide +kernel)
    · exact byCount [.flag "-c"] [] (by simp [Has]) (by decide +kernel)
    · exact byCount [.flag "-c"] [] (by simp [Has]) (by decide +kernel)
    · exact byCount [.flag "-c"] [] (by simp [Has]) (by decide +kernel)
    · exact byCount [] [] (by simp [Has]) (by decide +kernel)
    · exact byCount [] [] (by simp [Has]) (by decide +kernel)
    · exact byCount [] [] (by simp [Has]) (by decide +kernel)
    · exact byCount [] [] (by simp [Has]) (by decide +kernel)
    · exact byCount [] [] (by simp [Has]) (by decide +kernel)
  · simp only [List.mem_cons, List.not_mem_nil, or_false] at hn
    rcases hn with rfl | rfl | rfl
    · exact byKind [] ["a\\n"] (by simp [Has]) (by decide +kernel)
    · exact byKind [] ["a\\n"] (by simp [Has]) (by decide +kernel)
    · exact byKind [.flag "-d"] ["a\\n"] (by simp [Has]) (by decide +kernel)
  · simp only [List.mem_cons, List.not_mem_nil, or_false] at hn
    rcases hn with rfl | rfl | rfl | rfl
    · exact byCount [] [] (by simp [Has]) (by decide +kernel)
    · exact byCount [] [] (by simp [Has]) (by decide +kernel)
    · exact byCount [] [] (by simp [Has]) (by decide +kernel)
    · refine ⟨[], [], by simp [Has], ?_⟩
      have h1 := par_uniq_plain ⟨"uniq", [], []⟩ (by simp [Has]) (by simp [Has])
      have h2 := par_uniq_count ⟨"uniq", [.flag "-c"], []⟩ (by simp [Has]) (by simp [Has])
      have hm : ("uniq", ParGen.uniq) ∈ parTable := by simp [parTable]
      rw [(getPar_gen rfl hm _).2 h1, (getPar_gen rfl hm _).2 h2]
      simp [offers, bothPlans, plan]

example : ("tr", ["-d", "-s", "-c"]) ∈ consulted ∧ "-c" ∈ ["-d", "-s", "-c"] := by simp [consulted]

/-- The typed form of a flag or option of a command. -/
theorem typed_function (inv : CommandInvocationInitial) (l : List FlagOptionWithIO) (h : OptionsRead inv l)
    (f : FlagOption → FlagOptionWithIO)
    (hf : ∀ d, DatabaseFor inv.cmdName d → ∀ fo ∈ inv.flagOptionList, ∀ t, FlagOptionClass d fo t → f fo = typedFlagOption fo t) :
    l = inv.flagOptionList.map f := by
  obtain ⟨hl, h⟩ := h
  obtain ⟨d, hd⟩ := databaseFor_exists inv.cmdName
  refine List.ext_getElem? fun k => ?_
  rw [List.getElem?_map]
  cases hk : inv.flagOptionList[k]? with
  | none =>
      rw [List.getElem?_eq_none_iff] at hk
      rw [List.getElem?_eq_none_iff.2 (by omega)]; rfl
  | some fo =>
      obtain ⟨t, hc, ht⟩ := h d hd k fo hk
      rw [ht, Option.map_some, hf d hd fo (List.mem_of_getElem? hk) t hc]

theorem flagOptionClass_unique {d : JsonData} (hd : Shipped d) {fo : FlagOption} {t t' : Typer} (h : FlagOptionClass d fo t)
    (h' : FlagOptionClass d fo t') : t' = t := by
  cases h with
  | flag => cases h'; rfl
  | option he ha =>
      cases h' with
      | option he' ha' =>
          rw [optionEntry_unique hd he' he] at ha'
          exact argClass_unique ha' ha

theorem reads_same {inv inv' : CommandInvocationInitial} (hn : inv'.cmdName = inv.cmdName)
    (ho : inv'.operandList = inv.operandList) (hh : ∀ n, Has inv' n ↔ Has inv n)
    (hc : ∀ n, count inv' n = count inv n) {ops i o} (h : Reads inv ops i o) : Reads inv' ops i o := by
  have hh' : ∀ n, Has inv' n = Has inv n := fun n => propext (hh n)
  cases h with
  | filter h1 => rw [← ho]; exact .filter (hn ▸ h1)
  | wc h1 h2 => rw [← ho]; exact .wc (hn.trans h1) (by rw [hh']; exact h2)
  | sort h1 => rw [← ho, ← hh', ← hh']; exact .sort (hn ▸ h1)
  | grepOption h1 h2 => rw [← ho, ← hh']; exact .grepOption (hn.trans h1) (by rw [hh', hh']; exact h2)
  | awkOption h1 h2 => rw [← ho]; exact .awkOption (hn.trans h1) (by rw [hh']; exact h2)
  | sedOption h1 h2 => rw [← ho]; exact .sedOption (hn.trans h1) (by rw [hh', hh']; exact h2)
  | grepOperand h1 h2 h3 =>
      rw [← hh']; exact .grepOperand (hn.trans h1) (by rw [hh', hh']; exact h2) (ho.trans h3)
  | awkOperand h1 h2 h3 => exact .awkOperand (hn.trans h1) (by rw [hh']; exact h2) (ho.trans h3)
  | sedOperand h1 h2 h3 => exact .sedOperand (hn.trans h1) (by rw [hh', hh']; exact h2) (ho.trans h3)
  | both h1 => rw [← ho]; exact .both (hn ▸ h1)
  | operandsOnly h1 => rw [← ho]; exact .operandsOnly (hn ▸ h1)
  | comm h1 h2 => exact .comm (hn.trans h1) (ho.trans h2)
  | stringFilter h1 => rw [← ho]; exact .stringFilter (hn ▸ h1)
  | seq h1 => rw [← ho]; exact .seq (hn.trans h1)
  | setDiff h1 h2 => exact .setDiff (hn.trans h1) (ho.trans h2)
  | tee h1 => rw [← ho]; exact .tee (hn.trans h1)
  | remove h1 => rw [← ho]; exact .remove (hn ▸ h1)
  | mvOperand h1 h2 h3 => exact .mvOperand (hn.trans h1) ((hc _).trans h2) (ho.trans h3)
  | mvOption h1 h2 => rw [← ho]; exact .mvOption (hn.trans h1) ((hc _).trans h2)
  | uniq0 h1 h2 => exact .uniq0 (hn.trans h1) (ho.trans h2)
  | uniq1 h1 h2 => exact .uniq1 (hn.trans h1) (ho.trans h2)
  | uniq2 h1 h2 => exact .uniq2 (hn.trans h1) (ho.trans h2)

/-- C86. The order of the flags and options does not matter for how the files are read and written: reordering them
reorders the typed flags and options in the same way and changes nothing else. (For `mv`, repeating `-t` matters.) -/
theorem C86_reading (inv inv' : CommandInvocationInitial) (hn : inv'.cmdName = inv.cmdName)
    (ho : inv'.operandList = inv.operandList) (hf : inv'.flagOptionList.Perm inv.flagOptionList)
    (c : CommandInvocationWithIO) (h : Typed inv c) :
    ∃ c', Typed inv' c' ∧ c'.cmdName = c.cmdName ∧ c'.operandList = c.operandList ∧
      c'.implicitInput = c.implicitInput ∧ c'.implicitOutput = c.implicitOutput ∧
      c'.flagOptionList.Perm c.flagOptionList := by
  obtain ⟨h1, h2, si, so, hr, hi, hoo⟩ := C63_table inv c h
  have hmem : ∀ fo, fo ∈ inv'.flagOptionList ↔ fo ∈ inv.flagOptionList := fun fo => hf.mem_iff
  have hh : ∀ n, Has inv' n ↔ Has inv n := by intro n; unfold Has; simp only [hmem]
  have hr' := reads_same hn ho hh (fun n => by unfold count; exact hf.countP_eq _) hr
  have hk : OptionsKnown inv := by
    obtain ⟨i, hi, _⟩ := h
    have : getInputOutputInfo inv ≠ none := by rw [hi]; simp
    rw [Ne, C19_io_lookup] at this
    simp only [not_or, Classical.not_not] at this
    exact this.2.1
  have hk' : OptionsKnown inv' := fun d n a hd hm => hk d n a (hn ▸ hd) ((hmem _).1 hm)
  obtain ⟨c', h'⟩ := (C63_complete inv' hk').2 ⟨_, _, _, hr'⟩
  obtain ⟨h1', h2', si', so', hr'', hi', hoo'⟩ := C63_table inv' c' h'
  obtain ⟨e1, rfl, rfl⟩ := C63_unambiguous inv' _ _ _ _ _ _ hr' hr''
  refine ⟨c', h', by rw [h1, h1', hn], e1.symm, ?_, ?_, ?_⟩
  · rcases hi with ⟨p, q⟩ | ⟨p, q⟩ <;> rcases hi' with ⟨p', q'⟩ | ⟨p', q'⟩ <;> simp_all
  · rcases hoo with ⟨p, q⟩ | ⟨p, q⟩ <;> rcases hoo' with ⟨p', q'⟩ | ⟨p', q'⟩ <;> simp_all
  · obtain ⟨d, hd⟩ := databaseFor_exists inv.cmdName
    have ⟨f, hfun⟩ : ∃ f : FlagOption → FlagOptionWithIO, ∀ fo t, FlagOptionClass d fo t → f fo = typedFlagOption fo t := by
      classical
      refine ⟨fun fo => if hx : ∃ t, FlagOptionClass d fo t then typedFlagOption fo (Classical.choose hx) else .flag "",
        fun fo t ht => ?_⟩
      have hx : ∃ t, FlagOptionClass d fo t := ⟨t, ht⟩
      simp only [hx, dif_pos]
      rw [flagOptionClass_unique (databaseFor_shipped hd) ht (Classical.choose_spec hx)]
    rw [typed_function inv _ h2 f (fun d' hd' fo _ t ht => by
        rw [databaseFor_unique hd' hd] at ht; exact hfun fo t ht),
      typed_function inv' _ h2' f (fun d' hd' fo _ t ht => by
        rw [databaseFor_unique hd' (hn ▸ hd)] at ht; exact hfun fo t ht)]
    exact hf.map f

example : ∃ inv inv' c, parse "grep -v -f p -c -" = .ok inv ∧ parse "grep -c -v -f p -" = .ok inv' ∧
    inv'.flagOptionList.Perm inv.flagOptionList ∧ Typed inv c ∧ inv ≠ inv' :=
  ⟨⟨"grep", [.flag "-v", .option "-f" "p", .flag "-c"], ["-"]⟩, ⟨"grep", [.flag "-c", .flag "-v", .option "-f" "p"], ["-"]⟩,
   ⟨"grep", [.flag "-v", .option "-f" (.io (.file "p" .configInput)), .flag "-c"], [.io (.std .stdin .streamInput)], none,
     some stdoutStream⟩, by decide +kernel, by decide +kernel, by decide,
   ⟨⟨[.plainString, .fileStd .configInput, .plainString], [inT], none, some stdoutStream⟩, by decide +kernel,
     by decide +kernel⟩, by decide⟩

/-! C85: requests for a help or version text. -/

theorem asksHelp_consulted {cmd : String} {l : List String} (h : AsksHelp cmd l) :
    ∃ n ∈ l, ∀ ns, (cmd, ns) ∈ consulted → n ∉ ns := by
  obtain ⟨q, hq, rfl, n, hn, hl⟩ := h
  refine ⟨n, hl, ?_⟩
  have : ∀ q ∈ helpNames, ∀ n ∈ q.2, ∀ r ∈ consulted, r.1 = q.1 → n ∉ r.2 := by decide +kernel
  exact fun ns hm => this q hq n hn _ hm rfl

/-- C85 is false of the code: asking for a help or version text changes nothing in what is offered, for all invocations. -/
theorem C85_not_looked_at_false (inv : CommandInvocationInitial) (q : String × List String) (hq : q ∈ helpNames)
    (hc : inv.cmdName = q.1) (n : String) (hn : n ∈ q.2) :
    getParallelizabilityInfo { inv with flagOptionList := .flag n :: inv.flagOptionList } = getParallelizabilityInfo inv := by
  refine (C86_plans inv { inv with flagOptionList := .flag n :: inv.flagOptionList } ⟨rfl, rfl, fun ns hm m hmm => ?_⟩).symm
  have hne : m ≠ n := by
    have : ∀ q ∈ helpNames, ∀ n ∈ q.2, ∀ r ∈ consulted, r.1 = q.1 → n ∉ r.2 := by decide +kernel
    rintro rfl
    exact this q hq m hn _ hm hc hmm
  simp [Has, hne]

example : ("grep", ["--help", "-V"]) ∈ helpNames ∧
    parse "grep --version x f" = .ok ⟨"grep", [.flag "-V"], ["x", "f"]⟩ := ⟨by simp [helpNames], by decide +kernel⟩

theorem asksHelp_belongs {inv : CommandInvocationInitial} {c : CommandInvocationWithIOVars} (hb : Belongs inv c)
    (h : AsksHelp inv.cmdName (inv.flagOptionList.map (·.getName))) :
    AsksHelp c.cmdName (c.flagOptionList.map (·.getName)) := by
  rw [hb.1, hb.2]; exact h

/-- C85 is false of the code: if programs print their help and version texts, every plan that is offered with such a request
and concatenates gives a wrong output for some input and split. -/
theorem C85_concatenate_false {α : Type} (inv : CommandInvocationInitial)
    (hh : AsksHelp inv.cmdName (inv.flagOptionList.map (·.getName))) (p : Parallelizer) (hp : Offered inv p)
    (hk : p.coreAggregatorSpec.kind = .concatenate) (prog : ProgramsOn α) (hcat : CatProgram prog)
    (text : String → List FlagOptionWithIOVar → List α) (ht : PrintsHelp prog text) (c : CommandInvocationWithIOVars)
    (hb : Belongs inv c) (hc : OneStream c) :
    ∃ x parts, Split p.splitter x parts ∧ (∃ y, Executes prog p c parts y) ∧
      ∀ y, Executes prog p c parts y → y ≠ sequential prog c x := by
  have hall : ∀ z, sequential prog c z = text c.cmdName c.flagOptionList :=
    fun z => (ht _ _ _ _ (asksHelp_belongs hb hh)).1
  have hlen := (ht _ _ (strOperands c) [] (asksHelp_belongs hb hh)).2
  refine wrong_concatenation hcat hc (x := []) (y := []) ?_ (offered_concatenate hp hk)
  rw [hall, hall]
  intro h
  have := congrArg List.length h
  simp only [List.length_append] at this
  omega

theorem spliced_const_length {f : Stream → Stream} {t : Stream} (ht : 2 ≤ t.length) (hf : ∀ z, f z = t)
    {outs : List Stream} {y : Stream} (h : Spliced f outs y) (ho : ∀ s ∈ outs, t.length ≤ s.length) :
    t.length ≤ y.length ∧ (2 ≤ outs.length → t.length < y.length) := by
  induction h with
  | leaf s => exact ⟨ho s (by simp), by simp⟩
  | @node l r a b hl hr ihl ihr =>
      have h1 := (ihl (fun s h => ho s (List.mem_append.2 (.inl h)))).1
      have h2 := (ihr (fun s h => ho s (List.mem_append.2 (.inr h)))).1
      have : t.length < (splice f a b).length := by
        unfold splice
        cases b with
        | nil => simp only [List.length_nil] at h2; omega
        | cons b0 b' =>
            cases hg : a.getLast? with
            | none =>
                rw [List.getLast?_eq_none_iff] at hg
                subst hg; simp only [List.length_nil] at h1; omega
            | some x =>
                simp only [hf, List.length_append, List.length_dropLast, List.length_cons] at h2 ⊢
                omega
      exact ⟨by omega, fun _ => this⟩

/-- C85 is false of the code for uniq: a plan is offered, and if uniq prints its help and version texts, it gives a wrong
output for some input and split. -/
theorem C85_uniq_false (inv : CommandInvocationInitial) (hn : inv.cmdName = "uniq")
    (hh : AsksHelp inv.cmdName (inv.flagOptionList.map (·.getName)))
    (hx : ¬ ∃ n ∈ ["-d", "-D", "--all-repeated", "-c"], Has inv n) (prog : Programs)
    (text : String → List FlagOptionWithIOVar → Stream) (ht : PrintsHelp prog text) (c : CommandInvocationWithIOVars)
    (hb : Belongs inv c) (hc : OneStream c) :
    (∃ p, Offered inv p) ∧ ∀ p, Offered inv p → ∃ x parts, Split p.splitter x parts ∧ (∃ y, Executes prog p c parts y) ∧
      ∀ y, Executes prog p c parts y → y ≠ sequential prog c x := by
  have hoff := uniq_offered hn (by
    rintro ⟨n, hm, hh⟩
    refine hx ⟨n, ?_, hh⟩
    simp only [List.mem_cons, List.not_mem_nil, or_false] at hm ⊢
    rcases hm with rfl | rfl | rfl <;> simp) (fun h => hx ⟨"-c", by simp, h⟩)
  have hall : ∀ z, sequential prog c z = text c.cmdName c.flagOptionList :=
    fun z => (ht _ _ _ _ (asksHelp_belongs hb hh)).1
  have hlen := (ht _ _ (strOperands c) [] (asksHelp_belongs hb hh)).2
  refine ⟨⟨_, (hoff _).2 (List.mem_cons_self ..)⟩, fun p hp => ?_⟩
  have hp := (hoff p).1 hp
  simp only [bothPlans, List.mem_cons, List.not_mem_nil, or_false] at hp
  refine ⟨[], [[], []], by rcases hp with rfl | rfl <;> rfl, by
    rcases hp with rfl | rfl <;> exact C56_executable prog c hc _ _ (by simp), ?_⟩
  intro y h e
  obtain ⟨runs, hparts, hr, hrec⟩ := h
  have ho : runs.map Prod.snd = [text c.cmdName c.flagOptionList, text c.cmdName c.flagOptionList] := by
    rw [runs_outputs hc (by rcases hp with rfl | rfl <;> rfl) (by rcases hp with rfl | rfl <;> rfl) hr, ← hparts]
    simp [hall]
  rw [ho] at hrec
  have hsp : Spliced (sequential prog c) [text c.cmdName c.flagOptionList, text c.cmdName c.flagOptionList] y := by
    generalize [text c.cmdName c.flagOptionList, text c.cmdName c.flagOptionList] = outs at hrec
    cases hrec with
    | concatenate hk => rcases hp with rfl | rfl <;> cases hk
    | tree hk => rcases hp with rfl | rfl <;> cases hk
    | adjacent _ h => exact h
  have := (spliced_const_length hlen hall hsp (by simp)).2 (by simp)
  rw [e, hall] at this
  omega

theorem joined_length {prog : Programs} (hm : MergeKeepsLines prog) {p : Parallelizer} (hp : p.coreAggregatorSpec = sortMerge)
    {c : CommandInvocationWithIOVars} (hn : c.cmdName = "sort") (hc : OneStream c) {outs : List Stream} {y : Stream}
    (h : Joined prog p c outs y) : y.length = outs.flatten.length := by
  induction h with
  | leaf s => simp
  | @node l r a b x y o agg env hl hr hx hy ho hxy h ha hb ihl ihr =>
      obtain ⟨agg', ha', hout⟩ := sort_aggregator prog hp hc hx hy hxy
      rw [h] at ha'; cases ha'
      rw [hout, hn, hm]
      · simp [ha, hb, ihl, ihr]
      · exact ⟨.flag "-m", by simp [mergeOf], rfl⟩
      · rintro ⟨n, hm, z, hz, rfl⟩
        have hin : z.getName ∈ orderingNames ∨ z.getName = "-m" := by
          rcases List.mem_append.1 hz with hz | hz
          · exact .inl (by simpa using (List.mem_filter.1 hz).2)
          · rw [List.mem_singleton.1 hz]; exact .inr rfl
        generalize z.getName = w at hm hin
        revert hin
        simp only [List.mem_cons, List.not_mem_nil, or_false] at hm
        rcases hm with rfl | rfl | rfl | rfl <;> decide
      · have hcov : ∃ q ∈ coveredNames, q.1 = "sort" ∧ (∀ n ∈ orderingNames, n ∈ q.2) ∧ "-m" ∈ q.2 := by decide +kernel
        obtain ⟨q, h1, h2, h3, h4⟩ := hcov
        refine ⟨q, h1, h2, fun z hz => ?_⟩
        rcases List.mem_append.1 hz with hz | hz
        · exact h3 _ (by simpa using (List.mem_filter.1 hz).2)
        · rw [List.mem_singleton.1 hz]; exact h4

/-- C85 is false of the code for sort: every plan that is offered gives a wrong output for some input and split, if sort
prints its help and version texts and its merge keeps all lines. -/
theorem C85_sort_false (inv : CommandInvocationInitial) (hn : inv.cmdName = "sort")
    (hh : AsksHelp inv.cmdName (inv.flagOptionList.map (·.getName))) (p : Parallelizer) (hp : Offered inv p) (prog : Programs)
    (text : String → List FlagOptionWithIOVar → Stream) (ht : PrintsHelp prog text) (hm : MergeKeepsLines prog)
    (c : CommandInvocationWithIOVars) (hb : Belongs inv c) (hc : OneStream c) :
    ∃ x parts, Split p.splitter x parts ∧ (∃ y, Executes prog p c parts y) ∧
      ∀ y, Executes prog p c parts y → y ≠ sequential prog c x := by
  have hplan := (sort_offered (.inl hn) hp).2
  have hpm : p.coreMapperSpec = sameCommand ∧ p.infoMapperAggregator = 0 ∧ p.coreAggregatorSpec = sortMerge := by
    rcases hplan with rfl | rfl <;> exact ⟨rfl, rfl, rfl⟩
  have hall : ∀ z, sequential prog c z = text c.cmdName c.flagOptionList :=
    fun z => (ht _ _ _ _ (asksHelp_belongs hb hh)).1
  have hlen := (ht _ _ (strOperands c) [] (asksHelp_belongs hb hh)).2
  refine ⟨[], [[], []], ?_, C55_executable inv hn p hp prog c hc _ (by simp), ?_⟩
  · rcases hplan with rfl | rfl
    · rfl
    · exact Dealt.start 2
  · rintro y ⟨runs, hparts, hr, hrec⟩ e
    have hj : Joined prog p c (runs.map Prod.snd) y := by
      generalize runs.map Prod.snd = outs at hrec
      cases hrec with
      | concatenate hk => rw [hpm.2.2] at hk; cases hk
      | tree _ h => exact h
      | adjacent hk => rw [hpm.2.2] at hk; cases hk
    rw [runs_outputs hc hpm.1 hpm.2.1 hr, ← hparts] at hj
    have := joined_length hm hpm.2.2 (hb.1.trans hn) hc hj
    rw [e] at this
    simp only [hall, List.map_cons, List.map_nil, List.flatten_cons, List.flatten_nil, List.append_nil,
      List.length_append] at this
    omega

/-- Programs that print a text of two lines when asked for help, and else their input. -/
def helpProgs : Programs := fun cmd fl _ ins =>
  if AsksHelp cmd (fl.map (·.getName)) then ["usage", "options"] else ins.flatten

theorem helpProgs_ok : CatProgram helpProgs ∧ PrintsHelp helpProgs (fun _ _ => ["usage", "options"]) ∧
    MergeKeepsLines helpProgs := by
  refine ⟨fun ins => ?_, fun cmd fl strs ins h => ⟨by simp [helpProgs, h], by simp⟩, fun fl ins _ _ h => ?_⟩
  · have : ¬ AsksHelp "cat" [] := by decide +kernel
    simp [helpProgs, this]
  · have : ¬ AsksHelp "sort" (fl.map (·.getName)) := by
      rintro ⟨q, hq, hn, n, hm, hl⟩
      obtain ⟨x, hx, rfl⟩ := List.mem_map.1 hl
      obtain ⟨r, hr, hrn, h⟩ := h
      have key : ∀ q ∈ helpNames, ∀ r ∈ coveredNames, q.1 = "sort" → r.1 = "sort" → ∀ n ∈ q.2, n ∉ r.2 := by
        decide +kernel
      exact key q hq r hr hn hrn _ hm (h x hx)
    simp [helpProgs, this]

example : ∃ inv p, parse "uniq --help x" = .ok inv ∧ AsksHelp inv.cmdName (inv.flagOptionList.map (·.getName)) ∧
    Offered inv p ∧ Belongs inv (uniqSample [.flag "--help"]) ∧ OneStream (uniqSample [.flag "--help"]) ∧
    sequential helpProgs (uniqSample [.flag "--help"]) [] = ["usage", "options"] :=
  ⟨⟨"uniq", [.flag "--help"], ["x"]⟩, plan .consecChunks (.nonFunc .adjLinesSeq false), by decide +kernel, by decide +kernel,
    (uniq_offered rfl (by simp [Has]) (by simp [Has]) _).2 (by simp [bothPlans]), ⟨rfl, rfl⟩,
    uniqSample_ok _ (by simp [optionVar]), by decide +kernel⟩

example : ∃ inv p, parse "grep -V" = .ok inv ∧ AsksHelp inv.cmdName (inv.flagOptionList.map (·.getName)) ∧
    Offered inv p ∧ p.coreAggregatorSpec.kind = .concatenate :=
  ⟨⟨"grep", [.flag "-V"], []⟩, plan .consecChunks concatenation, by decide +kernel, by decide +kernel,
    offered_iff.2 ⟨_, (getPar_gen rfl (show ("grep", ParGen.grep) ∈ parTable by simp [parTable]) _).2
      (par_grep_some _ (by simp [Has]) (.inr (by simp [grepSpecial, Has]))), .inl (by simp [bothPlans])⟩, rfl⟩

example : ∃ inv p, parse "sort --version" = .ok inv ∧ AsksHelp inv.cmdName (inv.flagOptionList.map (·.getName)) ∧
    Offered inv p :=
  ⟨⟨"sort", [.flag "--version"], []⟩, plan .consecChunks sortMerge, by decide +kernel, by decide +kernel,
    offered_iff.2 ⟨offers [plan .consecChunks sortMerge] true, (getPar_gen rfl (by simp [parTable]) _).2
      (par_sort _ (by simp [ParGen.sortBlockers, Has])), .inl (by simp)⟩⟩

theorem derives_names {d : JsonData} {ws : List String} {fs : List FlagOption} {ops : List String} (h : Derives d ws fs ops) :
    ∀ fo ∈ fs, fo.getName ∈ (setOfAllFlags d).map (primaryFlag d) ∨
      (fo.getName ∈ setOfAllFlags d ∧ ∃ c, fo.getName.toList = ['-', c]) ∨
      fo.getName ∈ (setOfAllOptions d).map (primaryOption d) := by
  induction h with
  | done => simp
  | operands _ => simp
  | flag h1 h2 h3 _ ih =>
      intro fo hm
      rcases List.mem_cons.1 hm with rfl | hm
      · rw [canonical_unique h3 (primaryFlag_canonical d _)]
        exact .inl (List.mem_map.2 ⟨_, (mem_setOfAllFlags d _).2 h2, rfl⟩)
      · exact ih fo hm
  | option h1 h2 h3 h4 _ ih =>
      intro fo hm
      rcases List.mem_cons.1 hm with rfl | hm
      · rw [canonical_unique h4 (primaryOption_canonical d _)]
        exact .inr (.inr (List.mem_map.2 ⟨_, (mem_setOfAllOptions d _).2 h3, rfl⟩))
      · exact ih fo hm
  | cluster h1 h2 h3 _ ih =>
      intro fo hm
      rcases List.mem_append.1 hm with hm | hm
      · obtain ⟨x, hx, rfl⟩ := List.mem_map.1 hm
        exact .inr (.inl ⟨(mem_setOfAllFlags d _).2 (h3.2.2 x hx), x, by simp [FlagOption.getName]⟩)
      · exact ih fo hm

/-- All names that the parser can leave in an invocation are in the list. -/
def coverOk (d : JsonData) (names : List String) : Bool :=
  (setOfAllFlags d).all (fun f => names.contains (primaryFlag d f) &&
    (names.contains f || f.toList.length != 2 || f.toList.head? != some '-')) &&
  (setOfAllOptions d).all (fun f => names.contains (primaryOption d f))

theorem coverage (q : String × List String) (hq : q ∈ coveredNames) (d : JsonData) (hd : (q.1, d) ∈ Data.table) :
    ∃ r ∈ uncoveredNames, r.1 = q.1 ∧ coverOk d (q.2 ++ r.2) = true := by
  have one : ∀ {name : String} {d d' : JsonData}, (name, d) ∈ Data.table → (name, d') ∈ Data.table → d = d' :=
    fun h h' => databaseFor_unique (databaseFor_table h) (databaseFor_table h')
  simp only [coveredNames, List.mem_cons, List.not_mem_nil, or_false] at hq
  rcases hq with rfl | rfl | rfl | rfl | rfl | rfl | rfl
  · rw [one hd (show ("grep", Data.d_grep) ∈ Data.table by simp [Data.table])]
    exact ⟨uncoveredNames[0], by simp [uncoveredNames], rfl, by decide +kernel⟩
  · rw [one hd (show ("sort", Data.d_sort) ∈ Data.table by simp [Data.table])]
    exact ⟨uncoveredNames[1], by simp [uncoveredNames], rfl, by decide +kernel⟩
  · rw [one hd (show ("uniq", Data.d_uniq) ∈ Data.table by simp [Data.table])]
    exact ⟨uncoveredNames[2], by simp [uncoveredNames], rfl, by decide +kernel⟩
  · rw [one hd (show ("cut", Data.d_cut) ∈ Data.table by simp [Data.table])]
    exact ⟨uncoveredNames[3], by simp [uncoveredNames], rfl, by decide +kernel⟩
  · rw [one hd (show ("sed", Data.d_sed) ∈ Data.table by simp [Data.table])]
    exact ⟨uncoveredNames[4], by simp [uncoveredNames], rfl, by decide +kernel⟩
  · rw [one hd (show ("xargs", Data.d_xargs) ∈ Data.table by simp [Data.table])]
    exact ⟨uncoveredNames[5], by simp [uncoveredNames], rfl, by decide +kernel⟩
  · rw [one hd (show ("tr", Data.d_tr) ∈ Data.table by simp [Data.table])]
    exact ⟨uncoveredNames[6], by simp [uncoveredNames], rfl, by decide +kernel⟩

/-- C85. Apart from the flags and options listed in `uncoveredNames`, among them the requests for a help or version text,
everything that the parser can leave in an invocation of these programs is covered by their specifications. -/
theorem C85_covered_or_listed (s : String) (inv : CommandInvocationInitial) (h : parse s = .ok inv)
    (q : String × List String) (hq : q ∈ coveredNames) (hn : inv.cmdName = q.1) (fo : FlagOption)
    (hf : fo ∈ inv.flagOptionList) : fo.getName ∈ q.2 ∨ ∃ r ∈ uncoveredNames, r.1 = q.1 ∧ fo.getName ∈ r.2 := by
  obtain ⟨name, ws, d, hs, hp, hd, rfl⟩ := parse_ok h
  have hmem : (q.1, d) ∈ Data.table := by
    have hsl : ∀ q ∈ coveredNames, '/' ∉ q.1.toList := by decide +kernel
    rcases databaseFor_plain (show '/' ∉ name.toList from (show name = q.1 from hn) ▸ hsl q hq) hd with hd | ⟨hd, _⟩
    · exact hn ▸ hd
    · have : ∀ q ∈ coveredNames, ∃ e ∈ Data.table, e.1 = q.1 := by decide +kernel
      obtain ⟨e, he, hqe⟩ := this q hq
      exact absurd (show (name, e.2) ∈ Data.table by rw [show name = e.1 from hn.trans hqe.symm]; exact he) (hd _)
  obtain ⟨r, hr, hrq, hok⟩ := coverage q hq d hmem
  simp only [coverOk, Bool.and_eq_true, List.all_eq_true, Bool.or_eq_true, bne_iff_ne, ne_eq, List.contains_iff_mem,
    List.mem_append] at hok
  obtain ⟨k1, k3⟩ := hok
  have fin : ∀ n, n ∈ q.2 ∨ n ∈ r.2 → n ∈ q.2 ∨ ∃ r ∈ uncoveredNames, r.1 = q.1 ∧ n ∈ r.2 :=
    fun n h => h.imp id (fun h => ⟨r, hr, hrq, h⟩)
  refine fin _ ?_
  rcases derives_names (derives_parseLoop d ws) fo hf with h | ⟨h, c, hc⟩ | h
  · obtain ⟨f, hf, e⟩ := List.mem_map.1 h
    rw [← e]; exact (k1 f hf).1
  · rcases (k1 _ h).2 with (h | h) | h
    · exact h
    · exact absurd (by rw [hc]; rfl) h
    · exact absurd (by rw [hc]; rfl) h
  · obtain ⟨f, hf, e⟩ := List.mem_map.1 h
    rw [← e]; exact k3 f hf

example : ∃ inv, parse "grep -yV --regexp a f" = .ok inv ∧ inv.cmdName = "grep" ∧
    inv.flagOptionList = [.flag "-y", .flag "-V", .option "--regexp" "a"] :=
  ⟨⟨"grep", [.flag "-y", .flag "-V", .option "--regexp" "a"], ["f"]⟩, by decide +kernel, rfl, rfl⟩

end PashAnn
