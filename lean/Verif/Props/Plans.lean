import Verif.Props.Streams
import Verif.Spec.Programs

/-! Properties C65, C67 and C68: executing what is offered for `cut`, `sed` and `xargs`. Specification:
`Spec/Streams.lean` and `Spec/Programs.lean`. -/

namespace PashAnn
open Spec

/-- Executing a plan that concatenates gives the concatenation of the outputs. -/
theorem executes_concatenation {α : Type} {prog : ProgramsOn α} (hcat : CatProgram prog)
    {c : CommandInvocationWithIOVars} (hc : OneStream c) {p : Parallelizer} (hp : p ∈ bothPlans concatenation)
    {parts : List (List α)} {y : List α} :
    Executes prog p c parts y → y = (parts.map (sequential prog c)).flatten := by
  simp only [bothPlans, List.mem_cons, List.not_mem_nil, or_false] at hp
  rintro ⟨runs, rfl, hr, hrec⟩
  rcases hp with rfl | rfl <;> rw [recombined_concatenate hcat rfl hrec, runs_outputs hc rfl rfl hr]

theorem executable_concatenation {α : Type} (prog : ProgramsOn α) {c : CommandInvocationWithIOVars} (hc : OneStream c)
    {p : Parallelizer} (hp : p ∈ bothPlans concatenation) (parts : List (List α)) : ∃ y, Executes prog p c parts y := by
  simp only [bothPlans, List.mem_cons, List.not_mem_nil, or_false] at hp
  rcases hp with rfl | rfl <;> exact C53_executable prog c hc _ parts

theorem split_concatenation {α : Type} {p : Parallelizer} (hp : p ∈ bothPlans concatenation) {x : List α}
    {parts : List (List α)} : Split p.splitter x parts ↔ parts.flatten = x := by
  simp only [bothPlans, List.mem_cons, List.not_mem_nil, or_false] at hp
  rcases hp with rfl | rfl <;> rfl

/-- A wrong split: executing every plan that concatenates gives a wrong output. -/
theorem wrong_concatenation {α : Type} {prog : ProgramsOn α} (hcat : CatProgram prog)
    {c : CommandInvocationWithIOVars} (hc : OneStream c) {x y : List α}
    (h : sequential prog c (x ++ y) ≠ sequential prog c x ++ sequential prog c y) {p : Parallelizer}
    (hp : p ∈ bothPlans concatenation) :
    ∃ z parts, Split p.splitter z parts ∧ (∃ r, Executes prog p c parts r) ∧
      ∀ r, Executes prog p c parts r → r ≠ sequential prog c z := by
  refine ⟨x ++ y, [x, y], (split_concatenation hp).2 (by simp), executable_concatenation prog hc hp _, ?_⟩
  intro r hr
  rw [executes_concatenation hcat hc hp hr]
  simpa using h.symm

/-- Commands that are always offered both plans with concatenation. -/
theorem offered_line {inv : CommandInvocationInitial} (hn : inv.cmdName ∈ ["col", "custom_tr", "cut", "xargs"])
    (p : Parallelizer) : Offered inv p ↔ p ∈ bothPlans concatenation := by
  have hi : getParallelizabilityInfo inv = some (offers (bothPlans concatenation)) := by
    simp only [List.mem_cons, List.not_mem_nil, or_false] at hn
    rcases hn with hn | hn | hn | hn
    · exact (getPar_gen hn (show ("col", ParGen.col) ∈ parTable by simp [parTable]) _).2 (par_conc _ _ (by simp))
    · exact (getPar_gen hn (show ("custom_tr", ParGen.customTr) ∈ parTable by simp [parTable]) _).2
        (par_conc _ _ (by simp))
    · exact (getPar_gen hn (show ("cut", ParGen.cut) ∈ parTable by simp [parTable]) _).2 (par_conc _ _ (by simp))
    · exact (getPar_gen hn (show ("xargs", ParGen.xargs) ∈ parTable by simp [parTable]) _).2 (par_conc _ _ (by simp))
  rw [offered_iff]
  constructor
  · rintro ⟨i, hi', h⟩
    rw [hi] at hi'; cases hi'
    rcases h with h | ⟨h, _⟩
    · exact h
    · cases h
  · intro h
    exact ⟨_, hi, .inl h⟩

/-! `cut` -/

/-- C65. Executing a parallelizer offered for a cut invocation gives the output of cut. Missing: `-z` (C70), fields
delimited by newlines, for which it is false (below), and the help and version texts (C85). -/
theorem C65_cut_partial (inv : CommandInvocationInitial) (hn : inv.cmdName = "cut") (p : Parallelizer)
    (hp : Offered inv p) (prog : Programs) (hcat : CatProgram prog)
    (select : List FlagOptionWithIOVar → String → List String) (listed : List FlagOptionWithIOVar → Nat → Bool)
    (hcut : CutProgram prog select listed) (c : CommandInvocationWithIOVars) (hb : Belongs inv c)
    (hcov : Covered "cut" c.flagOptionList) (hc : OneStream c) (hs : strOperands c = []) (hz : ¬ Has inv "-z")
    (hf : ¬ (Has inv "-f" ∧ argOf c.flagOptionList "-d" = some "\n")) (x : Stream) (parts : List Stream)
    (hsp : Split p.splitter x parts) (y : Stream) (h : Executes prog p c parts y) : y = sequential prog c x := by
  have hp := (offered_line (by simp [hn]) p).1 hp
  rw [executes_concatenation hcat hc hp h, ← (split_concatenation hp).1 hsp]
  refine lineWise_flatten ?_ parts
  intro a b
  rw [has_iff_given hb] at hz hf
  unfold sequential
  rw [hb.1, hn, hs, hcut.lines _ _ hcov hz hf, hcut.lines _ _ hcov hz hf, hcut.lines _ _ hcov hz hf, List.flatMap_append]

/-- C65 is false of the code if the newline delimits the fields (the earlier annotations had an exception for this
case): for all programs as in the manual, whenever the list has 1 but not 3, every offered parallelizer gives a wrong
output on some input. -/
theorem C65_newline_false (inv : CommandInvocationInitial) (hn : inv.cmdName = "cut") (prog : Programs)
    (hcat : CatProgram prog) (select : List FlagOptionWithIOVar → String → List String)
    (listed : List FlagOptionWithIOVar → Nat → Bool) (hcut : CutProgram prog select listed)
    (c : CommandInvocationWithIOVars) (hb : Belongs inv c) (hcov : Covered "cut" c.flagOptionList) (hc : OneStream c)
    (hs : strOperands c = []) (hx : ¬ ∃ n ∈ ["-z", "--complement", "--output-delimiter"], Has inv n) (hf : Has inv "-f")
    (hd : argOf c.flagOptionList "-d" = some "\n") (h1 : listed c.flagOptionList 1 = true)
    (h3 : listed c.flagOptionList 3 = false) :
    (∃ p, Offered inv p) ∧ ∀ p, Offered inv p → ∃ x parts, Split p.splitter x parts ∧
      (∃ y, Executes prog p c parts y) ∧ ∀ y, Executes prog p c parts y → y ≠ sequential prog c x := by
  have hoff := offered_line (inv := inv) (by simp [hn])
  refine ⟨⟨_, (hoff (plan .consecChunks concatenation)).2 (by simp [bothPlans])⟩, ?_⟩
  intro p hp
  have hg : ∀ n ∈ ["-z", "--complement", "--output-delimiter"], ¬ Given c.flagOptionList n :=
    fun n hn hh => hx ⟨n, hn, (has_iff_given hb n).2 hh⟩
  have hseq : ∀ z : Stream, 2 ≤ z.length →
      sequential prog c z = ((z.zipIdx 1).filter (fun l => listed c.flagOptionList l.2)).map Prod.fst := by
    intro z hz
    unfold sequential
    rw [hb.1, hn, hs, hcut.fields _ _ hcov (hg _ (by simp)) (hg _ (by simp)) (hg _ (by simp)) ((has_iff_given hb _).1 hf) hd hz]
    match z, hz with
    | a :: z, _ => rw [List.zipIdx_cons, List.filter_cons_of_pos (by simpa using h1)]
  refine wrong_concatenation hcat hc (x := ["a", "b"]) (y := ["c", "d"]) ?_ ((hoff p).1 hp)
  rw [hseq _ (by simp), hseq _ (by simp), hseq _ (by simp)]
  intro e
  have hm : "c" ∈ ((["c", "d"].zipIdx 1).filter (fun l => listed c.flagOptionList l.2)).map Prod.fst := by
    simp [List.zipIdx_cons, List.filter_cons, h1]
  have hm' : "c" ∈ (((["a", "b"] ++ ["c", "d"]).zipIdx 1).filter (fun l => listed c.flagOptionList l.2)).map Prod.fst := by
    rw [e]; exact List.mem_append_right _ hm
  rw [List.mem_map] at hm'
  obtain ⟨⟨a, k⟩, hm', rfl⟩ := hm'
  simp [List.mem_filter, List.zipIdx_cons] at hm'
  obtain ⟨rfl, h⟩ := hm'
  rw [h3] at h; cases h

/-- Programs with `cat` and a `cut` that prints the first character of each line; the list is the number one. -/
def cutProgs : Programs := fun n fl _ ins =>
  if n = "cat" then ins.flatten
  else if Given fl "-f" ∧ argOf fl "-d" = some "\n" then ins.flatten.take 1
  else ins.flatten.map (fun l => String.ofList (l.toList.take 1))

theorem cutProgs_ok : CatProgram cutProgs ∧
    CutProgram cutProgs (fun _ l => [String.ofList (l.toList.take 1)]) (fun _ k => decide (k = 1)) := by
  refine ⟨fun _ => rfl, ⟨?_, ?_⟩⟩
  · intro fl x _ _ h
    unfold cutProgs
    simp only [h, show ("cut" = "cat") = False by simp, if_false, List.flatten_cons, List.flatten_nil, List.append_nil]
    induction x with
    | nil => rfl
    | cons a x ih => simp [ih]
  · intro fl x _ _ _ _ hf hd hx
    unfold cutProgs
    simp only [hf, hd, and_self, show ("cut" = "cat") = False by simp, if_false, if_true, List.flatten_cons,
      List.flatten_nil, List.append_nil]
    cases x with
    | nil => simp at hx
    | cons a x =>
        have : ∀ (l : List String) k, 2 ≤ k → (l.zipIdx k).filter (fun l => decide (l.2 = 1)) = [] := by
          intro l
          induction l with
          | nil => intros; rfl
          | cons b l ih =>
              intro k hk
              rw [List.zipIdx_cons, List.filter_cons_of_neg (by simp; omega), ih (k + 1) (by omega)]
        simp [List.zipIdx_cons, this]

/-- `cut -d NEWLINE -f 1` from a file to the standard output. -/
def cutNewlineSample : CommandInvocationWithIOVars :=
  ⟨"cut", [.optionVar 0 "-d" (.str "\n"), .optionVar 1 "-f" (.str "1")], [.var 1], none, some 2,
    [(1, .streamInput), (2, .streamOutput)]⟩

theorem cutNewlineSample_ok : OneStream cutNewlineSample where
  described := by unfold Described; decide +kernel
  distinct := by decide +kernel
  input := ⟨1, by decide +kernel⟩
  out := ⟨2, by decide +kernel, rfl⟩
  options := by intro n v; simp [cutNewlineSample]
  implicit := by intro i h; cases h

example : ∃ inv, parse "cut -d '\n' -f 1 f" = .ok inv ∧ inv.cmdName = "cut" ∧ Belongs inv cutNewlineSample ∧
    Covered "cut" cutNewlineSample.flagOptionList ∧
    strOperands cutNewlineSample = [] ∧ (¬ ∃ n ∈ ["-z", "--complement", "--output-delimiter"], Has inv n) ∧
    Has inv "-f" ∧ argOf cutNewlineSample.flagOptionList "-d" = some "\n" :=
  ⟨⟨"cut", [.option "-d" "\n", .option "-f" "1"], ["f"]⟩, by decide +kernel, rfl, ⟨rfl, rfl⟩, by decide +kernel, rfl,
    by simp [Has],    by simp [Has], by decide +kernel⟩

example : ∃ inv, parse "cut -f 1 f" = .ok inv ∧ Belongs inv cutSample ∧
    Covered "cut" cutSample.flagOptionList ∧ strOperands cutSample = [] ∧ ¬ Has inv "-z" ∧
    ¬ (Has inv "-f" ∧ argOf cutSample.flagOptionList "-d" = some "\n") :=
  ⟨⟨"cut", [.option "-f" "1"], ["f"]⟩, by decide +kernel, ⟨rfl, rfl⟩, by decide +kernel, rfl, by simp [Has], by
    rintro ⟨_, h⟩; revert h; decide +kernel⟩

/-! `sed` -/

/-- What is offered for `sed`. -/
theorem offered_sed {inv : CommandInvocationInitial} (hn : inv.cmdName = "sed") {o : String} {os : List String}
    (ho : inv.operandList = o :: os) (p : Parallelizer) :
    Offered inv p ↔ (StartsWith "-" o ∨ StartsWith "s" o ∨ (¬ Occurs "d" o ∧ ¬ Occurs "q" o)) ∧
      p ∈ bothPlans concatenation := by
  have hi := fun i => getPar_gen (i := i) hn (show ("sed", ParGen.sed) ∈ parTable by simp [parTable])
  rw [offered_iff]
  by_cases hx : StartsWith "-" o ∨ StartsWith "s" o ∨ (¬ Occurs "d" o ∧ ¬ Occurs "q" o)
  · have h := (hi _).2 ((par_sed inv ho).1 hx)
    constructor
    · rintro ⟨i, hi', hp⟩
      rw [h] at hi'; cases hi'
      rcases hp with hp | ⟨hp, _⟩
      · exact ⟨hx, hp⟩
      · cases hp
    · rintro ⟨_, hp⟩; exact ⟨_, h, .inl hp⟩
  · have h := (hi _).2 ((par_sed inv ho).2 hx)
    constructor
    · rintro ⟨i, hi', hp⟩
      rw [h] at hi'; cases hi'
      rcases hp with hp | ⟨hp, _⟩ <;> cases hp
    · rintro ⟨h', _⟩; exact absurd h' hx

/-- C67. Executing a parallelizer offered for a sed invocation gives the output of sed, if what the script does with a
line depends neither on the number of the line nor on whether it is the last one. Missing: other scripts, for which it is
false (below), `-z`, and flags that the specification of sed does not cover. -/
theorem C67_sed_partial (inv : CommandInvocationInitial) (hn : inv.cmdName = "sed") (p : Parallelizer)
    (hp : Offered inv p) (prog : Programs) (hcat : CatProgram prog) (plain : String → Prop)
    (act : List FlagOptionWithIOVar → String → Nat → Bool → String → List String) (hsed : SedProgram prog plain act)
    (c : CommandInvocationWithIOVars) (hb : Belongs inv c) (hcov : Covered "sed" c.flagOptionList) (hc : OneStream c)
    (script : String)
    (hs : strOperands c = [script]) (hpl : plain script) (hz : ¬ Has inv "-z")
    (hact : ∀ k last k' last' l, act c.flagOptionList script k last l = act c.flagOptionList script k' last' l)
    (x : Stream) (parts : List Stream) (hsp : Split p.splitter x parts) (y : Stream)
    (h : Executes prog p c parts y) : y = sequential prog c x := by
  have hp : p ∈ bothPlans concatenation := by
    cases ho : inv.operandList with
    | nil =>
        obtain ⟨i, hi, _⟩ := offered_iff.1 hp
        rw [getPar_gen hn (show ("sed", ParGen.sed) ∈ parTable by simp [parTable]), par_sed_nil inv ho] at hi
        cases hi
    | cons o os => exact ((offered_sed hn ho p).1 hp).2
  rw [executes_concatenation hcat hc hp h, ← (split_concatenation hp).1 hsp]
  refine lineWise_flatten ?_ parts
  have hall : ∀ z : Stream, sequential prog c z = z.flatMap (act c.flagOptionList script 0 false) := by
    intro z
    rw [has_iff_given hb] at hz
    unfold sequential
    rw [hb.1, hn, hs, hsed.lines _ _ _ hcov hpl hz]
    generalize z.length = n, 1 = k
    induction z generalizing k with
    | nil => rfl
    | cons a z ih =>
        rw [List.zipIdx_cons, List.flatMap_cons, List.flatMap_cons, ih]
        congr 1
        exact hact _ _ _ _ _
  intro a b
  rw [hall, hall, hall, List.flatMap_append]

/-- C67 is false of the code: for all numbers and all commands without the letters d and q that change some line, the
command with the number before it is offered, and for all programs as in the manual every offered parallelizer gives a
wrong output on some input. -/
theorem C67_numbered_false (inv : CommandInvocationInitial) (hn : inv.cmdName = "sed") (n : Nat) (cmd : String)
    (hd : ¬ Occurs "d" cmd) (hq : ¬ Occurs "q" cmd) (hdig : ¬ ∃ d ∈ cmd.toList.head?, d.isDigit) (files : List String)
    (hop : inv.operandList = (toString (n + 1) ++ cmd) :: files) (hx : ¬ Has inv "-n" ∧ ¬ Has inv "-z") (prog : Programs)
    (hcat : CatProgram prog) (plain : String → Prop)
    (act : List FlagOptionWithIOVar → String → Nat → Bool → String → List String) (hsed : SedProgram prog plain act)
    (c : CommandInvocationWithIOVars) (hb : Belongs inv c) (hcov : Covered "sed" c.flagOptionList) (hc : OneStream c)
    (hs : strOperands c = [toString (n + 1) ++ cmd]) (hpl : plain cmd) (l : String) (out : List String)
    (hact : ∀ k last, act c.flagOptionList cmd k last l = out) (hout : out ≠ [l]) :
    (∃ p, Offered inv p) ∧ ∀ p, Offered inv p → ∃ x parts, Split p.splitter x parts ∧
      (∃ y, Executes prog p c parts y) ∧ ∀ y, Executes prog p c parts y → y ≠ sequential prog c x := by
  have hoff := offered_sed hn hop
  have hdigits : ∀ ch ∈ (toString (n + 1)).toList, ch.isDigit := by
    intro ch hch
    rw [Nat.toString_eq_repr, Nat.toList_repr] at hch
    exact Nat.isDigit_of_mem_toDigits (by decide) (by decide) hch
  have hocc : ∀ a : Char, ¬ a.isDigit → ¬ Occurs (String.singleton a) cmd → ¬ Occurs (String.singleton a) (toString (n + 1) ++ cmd) := by
    rintro a ha h ⟨bef, aft, e⟩
    have hm : a ∈ (toString (n + 1) ++ cmd).toList := by rw [e]; simp
    rw [String.toList_append, List.mem_append] at hm
    rcases hm with hm | hm
    · exact ha (hdigits a hm)
    · obtain ⟨b, t, e⟩ := List.append_of_mem hm
      exact h ⟨b, t, by simp [e]⟩
  have hplan : ∀ p, Offered inv p ↔ p ∈ bothPlans concatenation := by
    intro p
    rw [hoff]
    exact ⟨And.right, fun h => ⟨.inr (.inr ⟨hocc 'd' (by decide) hd, hocc 'q' (by decide) hq⟩), h⟩⟩
  refine ⟨⟨_, (hplan (plan .consecChunks concatenation)).2 (by simp [bothPlans])⟩, ?_⟩
  intro p hp
  rw [has_iff_given hb, has_iff_given hb] at hx
  obtain ⟨hpl', hnum⟩ : plain (toString (n + 1) ++ cmd) ∧ ∀ k last line, act c.flagOptionList (toString (n + 1) ++ cmd) k last line =
      if k = n + 1 then act c.flagOptionList cmd k last line else [line] :=
    ⟨(hsed.numbered c.flagOptionList n cmd 0 true "" hcov hpl hdig hx.1).1,
      fun k last line => (hsed.numbered c.flagOptionList n cmd k last line hcov hpl hdig hx.1).2⟩
  have hseq : ∀ m, sequential prog c (List.replicate m l) =
      ((List.replicate m l).zipIdx 1).flatMap (fun q => if q.2 = n + 1 then out else [l]) := by
    intro m
    unfold sequential
    rw [hb.1, hn, hs, hsed.lines _ _ _ hcov hpl' hx.2]
    unfold List.flatMap
    congr 1
    apply List.map_congr_left
    intro q hq
    have hql : q.1 = l := by
      have := List.fst_mem_of_mem_zipIdx hq
      exact List.eq_of_mem_replicate this
    rw [hnum, hql, hact]
  have hrange : ∀ m k, (List.replicate m l).zipIdx k = (List.range' k m).map (fun i => (l, i)) := by
    intro m
    induction m with
    | zero => intro k; rfl
    | succ m ih => intro k; rw [List.replicate_succ, List.zipIdx_cons, ih, List.range'_succ]; rfl
  have hlow : ∀ m k, (∀ i, k ≤ i → i < k + m → i ≠ n + 1) →
      ((List.range' k m).map (fun i => (l, i))).flatMap (fun q => if q.2 = n + 1 then out else [l]) = List.replicate m l := by
    intro m
    induction m with
    | zero => intros; rfl
    | succ m ih =>
        intro k hk
        rw [List.range'_succ, List.map_cons, List.flatMap_cons, ih (k + 1) (fun i h1 h2 => hk i (by omega) (by omega)),
          if_neg (hk k (by omega) (by omega))]
        rfl
  have hA : sequential prog c (List.replicate (n + 1) l) = List.replicate n l ++ out := by
    rw [hseq, hrange, List.range'_concat, List.map_append, List.flatMap_append, hlow n 1 (by omega)]
    simp [Nat.add_comm]
  have hB : sequential prog c (List.replicate (n + 1) l ++ List.replicate (n + 1) l) =
      List.replicate n l ++ out ++ List.replicate (n + 1) l := by
    rw [List.replicate_append_replicate, hseq, hrange,
      ← List.range'_append_1 (s := 1) (m := n + 1) (n := n + 1), List.map_append, List.flatMap_append,
      List.range'_concat, List.map_append, List.flatMap_append, hlow n 1 (by omega), hlow (n + 1) (1 + (n + 1)) (by omega)]
    simp [Nat.add_comm]
  refine wrong_concatenation hcat hc (x := List.replicate (n + 1) l) (y := List.replicate (n + 1) l) ?_ ((hplan p).1 hp)
  rw [hA, hB]
  intro e
  have e := List.append_cancel_left e
  rw [List.replicate_succ', List.append_cancel_left_eq] at e
  exact hout e.symm

/-- C67 is false of the code also for commands with `$` before them: all of them without the letters d and q are offered, and if
they change some line, then for all programs as in the manual every offered parallelizer gives a wrong output on some input. -/
theorem C67_last_false (inv : CommandInvocationInitial) (hn : inv.cmdName = "sed") (cmd : String)
    (hd : ¬ Occurs "d" cmd) (hq : ¬ Occurs "q" cmd) (files : List String)
    (hop : inv.operandList = ("$" ++ cmd) :: files) (hx : ¬ Has inv "-n" ∧ ¬ Has inv "-z") (prog : Programs)
    (hcat : CatProgram prog) (plain : String → Prop)
    (act : List FlagOptionWithIOVar → String → Nat → Bool → String → List String) (hsed : SedProgram prog plain act)
    (hlast : SedLast plain act)
    (c : CommandInvocationWithIOVars) (hb : Belongs inv c) (hcov : Covered "sed" c.flagOptionList) (hc : OneStream c)
    (hs : strOperands c = ["$" ++ cmd]) (hpl : plain cmd) (l : String) (out : List String)
    (hact : ∀ k last, act c.flagOptionList cmd k last l = out) (hout : out ≠ [l]) :
    (∃ p, Offered inv p) ∧ ∀ p, Offered inv p → ∃ x parts, Split p.splitter x parts ∧
      (∃ y, Executes prog p c parts y) ∧ ∀ y, Executes prog p c parts y → y ≠ sequential prog c x := by
  have hocc : ∀ a : Char, a ≠ '$' → ¬ Occurs (String.singleton a) cmd → ¬ Occurs (String.singleton a) ("$" ++ cmd) := by
    rintro a ha h ⟨bef, aft, e⟩
    have hm : a ∈ ("$" ++ cmd).toList := by rw [e]; simp
    rw [String.toList_append, List.mem_append] at hm
    rcases hm with hm | hm
    · exact ha (by simpa using hm)
    · obtain ⟨b, t, e⟩ := List.append_of_mem hm
      exact h ⟨b, t, by simp [e]⟩
  have hplan : ∀ p, Offered inv p ↔ p ∈ bothPlans concatenation := by
    intro p
    rw [offered_sed hn hop]
    exact ⟨And.right, fun h => ⟨.inr (.inr ⟨hocc 'd' (by decide) hd, hocc 'q' (by decide) hq⟩), h⟩⟩
  refine ⟨⟨_, (hplan (plan .consecChunks concatenation)).2 (by simp [bothPlans])⟩, ?_⟩
  intro p hp
  rw [has_iff_given hb, has_iff_given hb] at hx
  have hpl' := (hlast c.flagOptionList cmd 0 true "" hcov hpl hx.1).1
  have hl := fun k last line => (hlast c.flagOptionList cmd k last line hcov hpl hx.1).2
  have hseq : ∀ x, sequential prog c x = (x.zipIdx 1).flatMap (fun q => if q.2 = x.length then act c.flagOptionList cmd q.2 true q.1 else [q.1]) := by
    intro x
    unfold sequential
    rw [hb.1, hn, hs, hsed.lines _ _ _ hcov hpl' hx.2]
    unfold List.flatMap
    congr 1
    apply List.map_congr_left
    intro q _
    rw [hl]
    by_cases h : q.2 = x.length <;> simp [h]
  refine wrong_concatenation hcat hc (x := [l]) (y := [l]) ?_ ((hplan p).1 hp)
  rw [hseq, hseq]
  simp [hact]
  intro e
  exact hout (List.append_cancel_right (show out ++ out = [l] ++ out from e.symm))

/-- C67, exactly, for every script, every program and all options: the offered parallelizers are right for all splits if and only
if the output of the script for a concatenation is the concatenation of its outputs. -/
theorem C67_exact (inv : CommandInvocationInitial) (hn : inv.cmdName = "sed") (p : Parallelizer) (hp : Offered inv p) {α : Type}
    (prog : ProgramsOn α) (hcat : CatProgram prog) (c : CommandInvocationWithIOVars) (hc : OneStream c) :
    (∀ x parts y, Split p.splitter x parts → Executes prog p c parts y → y = sequential prog c x) ↔
      ∀ x y, sequential prog c (x ++ y) = sequential prog c x ++ sequential prog c y := by
  have hp : p ∈ bothPlans concatenation := by
    cases ho : inv.operandList with
    | nil =>
        obtain ⟨i, hi, _⟩ := offered_iff.1 hp
        rw [getPar_gen hn (show ("sed", ParGen.sed) ∈ parTable by simp [parTable]), par_sed_nil inv ho] at hi
        cases hi
    | cons o os => exact ((offered_sed hn ho p).1 hp).2
  have hs : ∃ s, s ≠ .roundRobinUnwrapFlag ∧ p = plan s concatenation := by
    simp only [bothPlans, List.mem_cons, List.not_mem_nil, or_false] at hp
    rcases hp with rfl | rfl
    · exact ⟨.consecChunks, by simp, rfl⟩
    · exact ⟨.roundRobinPlain, by simp, rfl⟩
  constructor
  · intro h
    obtain ⟨s, hne, rfl⟩ := hs
    exact C53_necessary prog hcat c hc s hne h
  · intro h x parts y hsp hex
    exact C53_chunks prog hcat c hc p hs h x parts hsp y hex

/-- What the sample `sed` does: the substitution of a by b, possibly with a number before it. -/
def sedAct (script : String) (k : Nat) (line : String) : List String :=
  let digits := script.toList.takeWhile Char.isDigit
  if digits = [] ∨ k = Nat.ofDigitChars 10 digits 0 then [if line = "a" then "b" else line] else [line]

def sedProgs : Programs := fun n _ strs ins =>
  if n = "cat" then ins.flatten
  else (ins.flatten.zipIdx 1).flatMap (fun l => sedAct (strs.headD "") l.2 l.1)

theorem sedProgs_ok : CatProgram sedProgs ∧
    SedProgram sedProgs (fun s => s.toList.dropWhile Char.isDigit = "s/a/b/".toList) (fun _ s k _ l => sedAct s k l) := by
  refine ⟨fun _ => rfl, ⟨?_, ?_⟩⟩
  · intro fl script x _ _ _
    simp [sedProgs]
  · intro fl n cmd k last line _ hpl hdig _
    have hd : ∀ ch ∈ (toString (n + 1)).toList, ch.isDigit = true := by
      intro ch hch
      rw [Nat.toString_eq_repr, Nat.toList_repr] at hch
      exact Nat.isDigit_of_mem_toDigits (by decide) (by decide) hch
    have hcmd : cmd.toList.dropWhile Char.isDigit = cmd.toList ∧ cmd.toList.takeWhile Char.isDigit = [] := by
      cases h : cmd.toList with
      | nil => exact ⟨rfl, rfl⟩
      | cons a t =>
          have : a.isDigit = false := by
            cases ha : a.isDigit with
            | false => rfl
            | true => exact absurd ⟨a, by rw [h]; rfl, ha⟩ hdig
          simp [this]
    have ht : (toString (n + 1) ++ cmd).toList.takeWhile Char.isDigit = (toString (n + 1)).toList := by
      rw [String.toList_append, List.takeWhile_append_of_pos hd, hcmd.2, List.append_nil]
    refine ⟨?_, ?_⟩
    · rw [String.toList_append, List.dropWhile_append_of_pos hd]; exact hpl
    · unfold sedAct
      rw [ht, hcmd.2]
      have h1 : (toString (n + 1)).toList ≠ [] := by
        rw [Nat.toString_eq_repr, Nat.toList_repr]
        exact List.ne_nil_of_length_pos (Nat.length_toDigits_pos)
      have h2 : Nat.ofDigitChars 10 (toString (n + 1)).toList 0 = n + 1 := by
        rw [Nat.toString_eq_repr, Nat.toList_repr, Nat.ofDigitChars_ten_toDigits]
      simp only [h1, h2, false_or, true_or, if_true]

/-- Another sample `sed`: the substitution of a by b, after any numbers and `$`. -/
def addressedAct (cs : List Char) (k : Nat) (last : Bool) (line : String) : List String :=
  if h : cs.takeWhile Char.isDigit ≠ [] then
    if k = Nat.ofDigitChars 10 (cs.takeWhile Char.isDigit) 0 then addressedAct (cs.dropWhile Char.isDigit) k last line else [line]
  else match cs with
    | '$' :: r => if last = true then addressedAct r k last line else [line]
    | _ => [if line = "a" then "b" else line]
termination_by cs.length
decreasing_by
  · have e := congrArg List.length (List.takeWhile_append_dropWhile (p := Char.isDigit) (l := cs))
    have := List.length_pos_iff.2 h
    rw [List.length_append] at e
    omega
  · simp

def addressedProgs : Programs := fun n _ strs ins =>
  if n = "cat" then ins.flatten
  else (ins.flatten.zipIdx 1).flatMap (fun l => addressedAct (strs.headD "").toList l.2 (decide (l.2 = ins.flatten.length)) l.1)

theorem addressedProgs_ok : CatProgram addressedProgs ∧
    SedProgram addressedProgs (fun _ => True) (fun _ s k last l => addressedAct s.toList k last l) ∧
    SedLast (fun _ => True) (fun _ s k last l => addressedAct s.toList k last l) := by
  refine ⟨fun _ => rfl, ⟨?_, ?_⟩, ?_⟩
  · intro fl script x _ _ _
    simp [addressedProgs]
  · intro fl n cmd k last line _ _ hdig _
    have hd : ∀ ch ∈ (toString (n + 1)).toList, ch.isDigit = true := by
      intro ch hch
      rw [Nat.toString_eq_repr, Nat.toList_repr] at hch
      exact Nat.isDigit_of_mem_toDigits (by decide) (by decide) hch
    have hcmd : cmd.toList.dropWhile Char.isDigit = cmd.toList ∧ cmd.toList.takeWhile Char.isDigit = [] := by
      cases h : cmd.toList with
      | nil => exact ⟨rfl, rfl⟩
      | cons a t =>
          have : a.isDigit = false := by
            cases ha : a.isDigit with
            | false => rfl
            | true => exact absurd ⟨a, by rw [h]; rfl, ha⟩ hdig
          simp [this]
    have ht : (toString (n + 1) ++ cmd).toList.takeWhile Char.isDigit = (toString (n + 1)).toList := by
      rw [String.toList_append, List.takeWhile_append_of_pos hd, hcmd.2, List.append_nil]
    have hdr : (toString (n + 1) ++ cmd).toList.dropWhile Char.isDigit = cmd.toList := by
      rw [String.toList_append, List.dropWhile_append_of_pos hd, hcmd.1]
    have h1 : (toString (n + 1)).toList ≠ [] := by
      rw [Nat.toString_eq_repr, Nat.toList_repr]
      exact List.ne_nil_of_length_pos (Nat.length_toDigits_pos)
    have h2 : Nat.ofDigitChars 10 (toString (n + 1)).toList 0 = n + 1 := by
      rw [Nat.toString_eq_repr, Nat.toList_repr, Nat.ofDigitChars_ten_toDigits]
    refine ⟨trivial, ?_⟩
    show addressedAct _ _ _ _ = _
    rw [addressedAct, dif_pos (by rw [ht]; exact h1), ht, hdr, h2]
  · intro fl cmd k last line _ _ _
    refine ⟨trivial, ?_⟩
    show addressedAct _ _ _ _ = _
    have : ("$" ++ cmd).toList = '$' :: cmd.toList := by simp
    rw [this, addressedAct]
    simp

/-- `sed SCRIPT` from standard input to the standard output. -/
def sedSample (script : String) : CommandInvocationWithIOVars :=
  ⟨"sed", [], [.str script], some 1, some 2, [(1, .streamInput), (2, .streamOutput)]⟩

theorem sedSample_ok (script : String) : OneStream (sedSample script) where
  described := by
    intro v hv
    simp only [sedSample, occurrences, List.flatMap_nil, List.flatMap_cons, varOf, List.append_nil, List.nil_append,
      Option.toList_some, List.mem_append, List.mem_singleton] at hv
    rcases hv with rfl | rfl <;> simp [sedSample, accessOf, List.lookup]
  distinct := by simp [sedSample, occurrences, varOf]
  input := ⟨1, by simp [sedSample, withAccess, occurrences, varOf, accessOf, List.lookup]⟩
  out := ⟨2, by simp [sedSample, withAccess, occurrences, varOf, accessOf, List.lookup], rfl⟩
  options := by intro n v; simp [sedSample]
  implicit := by intro i h; cases h; rfl

example : ∃ inv, parse "sed 12s/a/b/" = .ok inv ∧ inv.operandList = [toString (11 + 1) ++ "s/a/b/"] ∧ ¬ Has inv "-n" ∧
    ¬ Has inv "-z" ∧ Belongs inv (sedSample "12s/a/b/") ∧ Covered "sed" (sedSample "12s/a/b/").flagOptionList ∧
    strOperands (sedSample "12s/a/b/") = ["12s/a/b/"] ∧
    (∀ k, sedAct "s/a/b/" k "a" = ["b"]) :=
  ⟨⟨"sed", [], ["12s/a/b/"]⟩, by decide +kernel, by decide +kernel, by simp [Has], by simp [Has], ⟨rfl, rfl⟩,
    by decide +kernel, rfl, by intro k; simp [sedAct]⟩

example : ∃ inv p, parse "sed s/a/b/" = .ok inv ∧ Offered inv p ∧ Belongs inv (sedSample "s/a/b/") ∧
    Covered "sed" (sedSample "s/a/b/").flagOptionList ∧
    strOperands (sedSample "s/a/b/") = ["s/a/b/"] ∧ ¬ Has inv "-z" ∧
    "s/a/b/".toList.dropWhile Char.isDigit = "s/a/b/".toList ∧
    (∀ k k' l, sedAct "s/a/b/" k l = sedAct "s/a/b/" k' l) :=
  ⟨⟨"sed", [], ["s/a/b/"]⟩, plan .consecChunks concatenation, by decide +kernel,
    (offered_sed rfl rfl _).2 ⟨.inr (.inl ⟨"/a/b/".toList, by decide +kernel⟩), by simp [bothPlans]⟩, ⟨rfl, rfl⟩,
    by decide +kernel, rfl,
    by simp [Has], by decide +kernel, by intro k k' l; simp [sedAct]⟩

example : ∃ inv, parse "sed '$s/a/b/'" = .ok inv ∧ inv.operandList = ["$" ++ "s/a/b/"] ∧ ¬ Has inv "-n" ∧ ¬ Has inv "-z" ∧
    Belongs inv (sedSample "$s/a/b/") ∧ Covered "sed" (sedSample "$s/a/b/").flagOptionList ∧ OneStream (sedSample "$s/a/b/") ∧
    strOperands (sedSample "$s/a/b/") = ["$s/a/b/"] ∧ ∀ k last, addressedAct "s/a/b/".toList k last "a" = ["b"] :=
  ⟨⟨"sed", [], ["$s/a/b/"]⟩, by decide +kernel, by decide +kernel, by simp [Has], by simp [Has], ⟨rfl, rfl⟩,
    by decide +kernel, sedSample_ok _, rfl, by intro k last; rw [addressedAct]; simp⟩

/-! `xargs` -/

/-- C68. Executing a parallelizer offered for an xargs invocation gives the output of xargs, if it runs the command for
each word and not without words. Missing: other invocations, for which it is false (below). -/
theorem C68_xargs_partial (inv : CommandInvocationInitial) (hn : inv.cmdName = "xargs") (p : Parallelizer)
    (hp : Offered inv p) (prog : Programs) (hcat : CatProgram prog) (words : String → List String)
    (run : List FlagOptionWithIOVar → List String → List String → Stream) (hxa : XargsProgram prog words run)
    (c : CommandInvocationWithIOVars) (hb : Belongs inv c) (hcov : Covered "xargs" c.flagOptionList) (hc : OneStream c)
    (h1 : argOf c.flagOptionList "-n" = some "1")
    (hx : ¬ ∃ n ∈ ["--null", "--delimiter", "-E", "-I", "-L", "-a"], Has inv n) (x : Stream) (parts : List Stream)
    (hr : Has inv "-r" ∨ ∀ part ∈ parts, part.flatMap words ≠ []) (hne : parts ≠ [])
    (hsp : Split p.splitter x parts) (y : Stream) (h : Executes prog p c parts y) : y = sequential prog c x := by
  have hp := (offered_line (by simp [hn]) p).1 hp
  rw [executes_concatenation hcat hc hp h, ← (split_concatenation hp).1 hsp]
  have hx' : ¬ ∃ n ∈ ["--null", "--delimiter", "-E", "-I", "-L", "-a"], Given c.flagOptionList n := by
    rintro ⟨n, hn, hh⟩; exact hx ⟨n, hn, (has_iff_given hb n).2 hh⟩
  have hseq : ∀ z : Stream, Has inv "-r" ∨ z.flatMap words ≠ [] →
      sequential prog c z = (z.flatMap words).flatMap (fun w => run c.flagOptionList (strOperands c) [w]) := by
    intro z hz
    unfold sequential
    rw [hb.1, hn, hxa.single _ _ _ hcov h1 hx']
    by_cases hw : z.flatMap words = []
    · rw [if_pos hw, if_pos ((has_iff_given hb _).1 (hz.resolve_right (fun h => h hw))), hw]; rfl
    · rw [if_neg hw]
  have hz : Has inv "-r" ∨ parts.flatten.flatMap words ≠ [] := by
    rcases hr with hr | hr
    · exact .inl hr
    · right
      intro e
      cases parts with
      | nil => exact hne rfl
      | cons a l =>
          rw [List.flatten_cons, List.flatMap_append] at e
          exact hr a (by simp) (List.append_eq_nil_iff.1 e).1
  rw [hseq _ hz]
  have : parts.map (sequential prog c) =
      parts.map (fun z => (z.flatMap words).flatMap (fun w => run c.flagOptionList (strOperands c) [w])) :=
    List.map_congr_left (fun z hz => hseq z (hr.imp id (fun hr => hr z hz)))
  rw [this]
  clear this hz hseq hr hne h hsp
  induction parts with
  | nil => rfl
  | cons a l ih => rw [List.map_cons, List.flatten_cons, ih, List.flatten_cons, List.flatMap_append, List.flatMap_append]

/-- C68, the same for one run per line. -/
theorem C68_lines_partial (inv : CommandInvocationInitial) (hn : inv.cmdName = "xargs") (p : Parallelizer)
    (hp : Offered inv p) (prog : Programs) (hcat : CatProgram prog) (words : String → List String)
    (run : List FlagOptionWithIOVar → List String → List String → Stream) (hxa : XargsProgram prog words run)
    (c : CommandInvocationWithIOVars) (hb : Belongs inv c) (hcov : Covered "xargs" c.flagOptionList) (hc : OneStream c)
    (h1 : argOf c.flagOptionList "-L" = some "1")
    (hx : ¬ ∃ n ∈ ["--null", "--delimiter", "-E", "-I", "-n", "-a"], Has inv n) (x : Stream) (parts : List Stream)
    (hl : ∀ l ∈ x, l.toList.getLast? ≠ some ' ' ∧ l.toList.getLast? ≠ some '\t')
    (hr : Has inv "-r" ∨ ∀ part ∈ parts, part.flatMap words ≠ []) (hne : parts ≠ [])
    (hsp : Split p.splitter x parts) (y : Stream) (h : Executes prog p c parts y) : y = sequential prog c x := by
  have hp := (offered_line (by simp [hn]) p).1 hp
  have hxp := (split_concatenation hp).1 hsp
  rw [executes_concatenation hcat hc hp h, ← hxp]
  have hx' : ¬ ∃ n ∈ ["--null", "--delimiter", "-E", "-I", "-n", "-a"], Given c.flagOptionList n := by
    rintro ⟨n, hn, hh⟩; exact hx ⟨n, hn, (has_iff_given hb n).2 hh⟩
  have hseq : ∀ z : Stream, Has inv "-r" ∨ z.flatMap words ≠ [] →
      (∀ l ∈ z, l.toList.getLast? ≠ some ' ' ∧ l.toList.getLast? ≠ some '\t') →
      sequential prog c z =
        z.flatMap (fun l => if words l = [] then [] else run c.flagOptionList (strOperands c) (words l)) := by
    intro z hz hl
    unfold sequential
    rw [hb.1, hn, hxa.lines _ _ _ hcov h1 hx' hl]
    by_cases hw : z.flatMap words = []
    · rw [if_pos hw, if_pos ((has_iff_given hb _).1 (hz.resolve_right (fun h => h hw)))]
      symm
      rw [List.flatMap_eq_nil_iff]
      intro l hl
      rw [if_pos ((List.flatMap_eq_nil_iff.1 hw) l hl)]
    · rw [if_neg hw]
  have hz : Has inv "-r" ∨ parts.flatten.flatMap words ≠ [] := by
    rcases hr with hr | hr
    · exact .inl hr
    · right
      intro e
      cases parts with
      | nil => exact hne rfl
      | cons a l =>
          rw [List.flatten_cons, List.flatMap_append] at e
          exact hr a (by simp) (List.append_eq_nil_iff.1 e).1
  rw [hseq _ hz (by rw [hxp]; exact hl)]
  have : parts.map (sequential prog c) = parts.map (fun z => z.flatMap
      (fun l => if words l = [] then [] else run c.flagOptionList (strOperands c) (words l))) :=
    List.map_congr_left (fun z hz => hseq z (hr.imp id (fun hr => hr z hz))
      (fun l h => hl l (by rw [← hxp]; exact List.mem_flatten.2 ⟨z, hz, h⟩)))
  rw [this]
  clear this hz hseq hr hne h hsp hxp
  induction parts with
  | nil => rfl
  | cons a l ih => rw [List.map_cons, List.flatten_cons, ih, List.flatten_cons, List.flatMap_append]

/-- C68 is false of the code if xargs runs the command once for many words: for all programs as in the manual, whenever
running the command with two words is not the same as running it with one and then the other, every offered
parallelizer gives a wrong output on some input. -/
theorem C68_batch_false (inv : CommandInvocationInitial) (hn : inv.cmdName = "xargs") (prog : Programs)
    (hcat : CatProgram prog) (words : String → List String)
    (run : List FlagOptionWithIOVar → List String → List String → Stream) (hxa : XargsProgram prog words run)
    (c : CommandInvocationWithIOVars) (hb : Belongs inv c) (hcov : Covered "xargs" c.flagOptionList) (hc : OneStream c)
    (hx : ¬ ∃ n ∈ ["--null", "--delimiter", "-E", "-I", "-L", "-n", "-x", "-a"], Has inv n) (l l' a b : String)
    (hl : words l = [a]) (hl' : words l' = [b])
    (hrun : run c.flagOptionList (strOperands c) [a, b] ≠
      run c.flagOptionList (strOperands c) [a] ++ run c.flagOptionList (strOperands c) [b]) :
    (∃ p, Offered inv p) ∧ ∀ p, Offered inv p → ∃ x parts, Split p.splitter x parts ∧
      (∃ y, Executes prog p c parts y) ∧ ∀ y, Executes prog p c parts y → y ≠ sequential prog c x := by
  have hoff := offered_line (inv := inv) (by simp [hn])
  refine ⟨⟨_, (hoff (plan .consecChunks concatenation)).2 (by simp [bothPlans])⟩, ?_⟩
  intro p hp
  have hx' : ¬ ∃ n ∈ ["--null", "--delimiter", "-E", "-I", "-L", "-n", "-x", "-a"], Given c.flagOptionList n := by
    rintro ⟨n, hn, hh⟩; exact hx ⟨n, hn, (has_iff_given hb n).2 hh⟩
  have hseq : ∀ z : Stream, z.flatMap words ≠ [] → (z.flatMap words).length ≤ 2 →
      sequential prog c z = run c.flagOptionList (strOperands c) (z.flatMap words) := by
    intro z hz hlen
    unfold sequential
    rw [hb.1, hn, hxa.all _ _ _ hcov hx' hlen, if_neg (fun h => hz h.1)]
  refine wrong_concatenation hcat hc (x := [l]) (y := [l']) ?_ ((hoff p).1 hp)
  rw [hseq _ (by simp [hl]) (by simp [hl, hl']), hseq _ (by simp [hl]) (by simp [hl]), hseq _ (by simp [hl']) (by simp [hl'])]
  simpa [hl, hl'] using hrun

/-- C68 is false of the code if xargs runs the command without words: for all programs as in the manual, without `-r`
and with a command that prints something when it is run without words, an empty part gives a wrong output, even with
`-n 1`. -/
theorem C68_empty_false (inv : CommandInvocationInitial) (hn : inv.cmdName = "xargs") (prog : Programs)
    (hcat : CatProgram prog) (words : String → List String)
    (run : List FlagOptionWithIOVar → List String → List String → Stream) (hxa : XargsProgram prog words run)
    (c : CommandInvocationWithIOVars) (hb : Belongs inv c) (hcov : Covered "xargs" c.flagOptionList) (hc : OneStream c)
    (h1 : argOf c.flagOptionList "-n" = some "1")
    (hx : ¬ ∃ n ∈ ["--null", "--delimiter", "-E", "-I", "-L", "-a", "-r"], Has inv n)
    (hrun : run c.flagOptionList (strOperands c) [] ≠ []) :
    (∃ p, Offered inv p) ∧ ∀ p, Offered inv p → ∃ x parts, Split p.splitter x parts ∧
      (∃ y, Executes prog p c parts y) ∧ ∀ y, Executes prog p c parts y → y ≠ sequential prog c x := by
  have hoff := offered_line (inv := inv) (by simp [hn])
  refine ⟨⟨_, (hoff (plan .consecChunks concatenation)).2 (by simp [bothPlans])⟩, ?_⟩
  intro p hp
  have hx' : ∀ n ∈ ["--null", "--delimiter", "-E", "-I", "-L", "-a", "-r"], ¬ Given c.flagOptionList n := by
    intro n hn hh; exact hx ⟨n, hn, (has_iff_given hb n).2 hh⟩
  have hseq : sequential prog c [] = run c.flagOptionList (strOperands c) [] := by
    unfold sequential
    rw [hb.1, hn, hxa.single _ _ _ hcov h1 (by
      rintro ⟨n, hn, hh⟩
      refine hx' n ?_ hh
      simp only [List.mem_cons, List.not_mem_nil, or_false] at hn ⊢
      rcases hn with rfl | rfl | rfl | rfl | rfl | rfl <;> simp), List.flatMap_nil, if_pos rfl, if_neg (hx' _ (by simp))]
  refine wrong_concatenation hcat hc (x := []) (y := []) ?_ ((hoff p).1 hp)
  rw [List.append_nil, hseq]
  intro e
  exact hrun (by simpa using e)

/-- Programs with `cat` and an `xargs` whose command prints the number of its arguments; lines are words. -/
def xargsProgs : Programs := fun n fl _ ins =>
  if n = "cat" then ins.flatten
  else if argOf fl "-n" = some "1" ∨ argOf fl "-L" = some "1" then
    (if ins.flatten = [] then (if Given fl "-r" then [] else ["0"]) else ins.flatten.map (fun _ => "1"))
  else if ins.flatten = [] ∧ Given fl "-r" then [] else [toString ins.flatten.length]

theorem xargsProgs_ok : CatProgram xargsProgs ∧ XargsProgram xargsProgs (fun l => [l]) (fun _ _ ws => [toString ws.length]) := by
  have hw : ∀ x : Stream, x.flatMap (fun l => [l]) = x := fun x => by
    induction x with
    | nil => rfl
    | cons a x ih => simp [ih]
  have hm : ∀ (x : Stream), x.map (fun _ => "1") = x.flatMap (fun _ => [toString 1]) := fun x => by
    induction x with
    | nil => rfl
    | cons a x ih => rw [List.map_cons, ih, List.flatMap_cons]; rfl
  refine ⟨fun _ => rfl, ⟨?_, ?_, ?_⟩⟩
  · intro fl strs x _ h1 hx
    rw [hw]
    simp only [xargsProgs, show ("xargs" = "cat") = False by simp, if_false, h1, true_or, if_true, List.flatten_cons,
      List.flatten_nil, List.append_nil, List.length_nil, List.length_singleton, hm]
    rfl
  · intro fl strs x _ h1 hx hl
    rw [hw]
    simp only [xargsProgs, show ("xargs" = "cat") = False by simp, if_false, h1, or_true, if_true, List.flatten_cons,
      List.flatten_nil, List.append_nil, List.length_nil, List.length_singleton, hm]
    rfl
  · intro fl strs x _ hx hlen
    have hg : ∀ n ∈ ["--null", "--delimiter", "-E", "-I", "-L", "-n", "-x", "-a"], ¬ Given fl n := fun n hn hh => hx ⟨n, hn, hh⟩
    rw [hw]
    simp only [xargsProgs, show ("xargs" = "cat") = False by simp, if_false, argOf_none (hg "-n" (by simp)),
      argOf_none (hg "-L" (by simp)), List.flatten_cons, List.flatten_nil, List.append_nil]
    simp

/-- `xargs` with some options and `echo`, from standard input to the standard output. -/
def xargsSample (fl : List FlagOptionWithIOVar) : CommandInvocationWithIOVars :=
  ⟨"xargs", fl, [.str "echo"], some 1, some 2, [(1, .streamInput), (2, .streamOutput)]⟩

theorem xargsSample_ok (fl : List FlagOptionWithIOVar) (h : ∀ x ∈ fl, optionVar x = []) : OneStream (xargsSample fl) := by
  have hf : fl.flatMap optionVar = [] := List.flatMap_eq_nil_iff.2 h
  constructor
  · intro v hv
    simp only [xargsSample, occurrences, hf, List.flatMap_nil, List.flatMap_cons, varOf, List.append_nil, List.nil_append,
      Option.toList_some, List.mem_append, List.mem_singleton] at hv
    rcases hv with rfl | rfl <;> simp [xargsSample, accessOf, List.lookup]
  · simp [xargsSample, occurrences, varOf, hf]
  · exact ⟨1, by simp [xargsSample, withAccess, occurrences, varOf, accessOf, List.lookup, hf]⟩
  · exact ⟨2, by simp [xargsSample, withAccess, occurrences, varOf, accessOf, List.lookup, hf], rfl⟩
  · intro n v hm
    have := h _ hm
    simp [optionVar, varOf] at this
  · intro i h; cases h; rfl

example : ∃ inv, parse "xargs -n 1 -r echo" = .ok inv ∧ Has inv "-r" ∧
    (¬ ∃ n ∈ ["--null", "--delimiter", "-E", "-I", "-L", "-a"], Has inv n) ∧
    Belongs inv (xargsSample [.optionVar 0 "-n" (.str "1"), .flag "-r"]) ∧
    OneStream (xargsSample [.optionVar 0 "-n" (.str "1"), .flag "-r"]) ∧
    Covered "xargs" (xargsSample [.optionVar 0 "-n" (.str "1"), .flag "-r"]).flagOptionList ∧
    argOf (xargsSample [.optionVar 0 "-n" (.str "1"), .flag "-r"]).flagOptionList "-n" = some "1" :=
  ⟨⟨"xargs", [.option "-n" "1", .flag "-r"], ["echo"]⟩, by decide +kernel, by simp [Has], by simp [Has], ⟨rfl, rfl⟩,
    xargsSample_ok _ (by simp [optionVar]), by decide +kernel, by decide +kernel⟩

example : ∃ inv, parse "xargs -L 1 echo" = .ok inv ∧ (¬ ∃ n ∈ ["--null", "--delimiter", "-E", "-I", "-n", "-a"], Has inv n) ∧
    Belongs inv (xargsSample [.optionVar 0 "-L" (.str "1")]) ∧ OneStream (xargsSample [.optionVar 0 "-L" (.str "1")]) ∧
    Covered "xargs" (xargsSample [.optionVar 0 "-L" (.str "1")]).flagOptionList ∧
    argOf (xargsSample [.optionVar 0 "-L" (.str "1")]).flagOptionList "-L" = some "1" :=
  ⟨⟨"xargs", [.option "-L" "1"], ["echo"]⟩, by decide +kernel, by simp [Has], ⟨rfl, rfl⟩,
    xargsSample_ok _ (by simp [optionVar]), by decide +kernel, by decide +kernel⟩

example : ∃ inv, parse "xargs echo" = .ok inv ∧
    (¬ ∃ n ∈ ["--null", "--delimiter", "-E", "-I", "-L", "-n", "-x", "-a"], Has inv n) ∧
    Belongs inv (xargsSample []) ∧ OneStream (xargsSample []) ∧ Covered "xargs" (xargsSample []).flagOptionList ∧
    ([toString ["a", "b"].length] : Stream) ≠ [toString ["a"].length] ++ [toString ["b"].length] :=
  ⟨⟨"xargs", [], ["echo"]⟩, by decide +kernel, by simp [Has], ⟨rfl, rfl⟩, xargsSample_ok _ (by simp), by decide +kernel,
    by decide +kernel⟩

example : ∃ inv, parse "xargs -n 1 echo" = .ok inv ∧
    (¬ ∃ n ∈ ["--null", "--delimiter", "-E", "-I", "-L", "-a", "-r"], Has inv n) ∧
    Belongs inv (xargsSample [.optionVar 0 "-n" (.str "1")]) ∧ OneStream (xargsSample [.optionVar 0 "-n" (.str "1")]) ∧
    Covered "xargs" (xargsSample [.optionVar 0 "-n" (.str "1")]).flagOptionList ∧ ([toString ([] : List String).length] : Stream) ≠ [] :=
  ⟨⟨"xargs", [.option "-n" "1"], ["echo"]⟩, by decide +kernel, by simp [Has], ⟨rfl, rfl⟩,
    xargsSample_ok _ (by simp [optionVar]), by decide +kernel, by simp⟩

end PashAnn
