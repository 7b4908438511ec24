import Verif.Props.Plans

/-! Properties C66 and C70: executing what is offered for `tr`, and for `grep` and `cut` with null-terminated records, on
texts. Specification: `Spec/Streams.lean` and `Spec/Programs.lean`. -/

namespace PashAnn
open Spec

/-! Squeezing. -/

theorem squeeze_append (set : Char → Bool) (x y : Text)
    (h : ∀ a, x.getLast? = some a → y.head? = some a → set a = false) :
    squeeze set (x ++ y) = squeeze set x ++ squeeze set y := by
  match x with
  | [] => rfl
  | [a] =>
      match y with
      | [] => rfl
      | b :: t =>
          have : ¬ (a = b ∧ set a = true) := by
            rintro ⟨rfl, hs⟩
            rw [h a rfl rfl] at hs; cases hs
          simp [squeeze, this]
  | a :: b :: x =>
      have ih := squeeze_append set (b :: x) y (by intro c h1 h2; exact h c (by simpa using h1) h2)
      simp only [List.cons_append] at ih ⊢
      by_cases hab : a = b ∧ set a = true
      · rw [squeeze, squeeze, if_pos hab, if_pos hab, ih]
      · rw [squeeze, squeeze, if_neg hab, if_neg hab, ih]; rfl

namespace Spec

/-- At the end of a part, where the last character is a newline, nothing is squeezed with what follows: what the newline
becomes is not in the squeezed set, and if it is deleted, nothing that is kept is. -/
def TrParameters.SafeEnds (t : TrParameters) (fl : List FlagOptionWithIOVar) (sets : List String) : Prop :=
  Given fl "-s" →
    match t.image fl sets '\n' with
    | some c => t.last fl sets c = false
    | none => ∀ e d, t.image fl sets e = some d → t.last fl sets d = false

end Spec

theorem tr_append {t : TrParameters} {fl : List FlagOptionWithIOVar} {sets : List String} (hs : t.SafeEnds fl sets)
    (x y : Text) (hx : x = [] ∨ x.getLast? = some '\n') : t.tr fl sets (x ++ y) = t.tr fl sets x ++ t.tr fl sets y := by
  unfold TrParameters.tr
  simp only [List.filterMap_append]
  by_cases h : Given fl "-s"
  · simp only [h, if_true]
    refine squeeze_append _ _ _ ?_
    intro a ha _
    rcases hx with rfl | hx
    · cases ha
    · have hs := hs h
      obtain ⟨x', rfl⟩ : ∃ x', x = x' ++ ['\n'] := by
        obtain ⟨ys, e⟩ := List.getLast?_eq_some_iff.1 hx
        exact ⟨ys, e⟩
      cases hi : t.image fl sets '\n' with
      | some c =>
          rw [hi] at hs
          simp [List.filterMap_append, hi] at ha
          rw [← ha]; exact hs
      | none =>
          rw [hi] at hs
          have hm := List.mem_of_getLast? ha
          obtain ⟨e, _, he⟩ := List.mem_filterMap.1 hm
          exact hs e a he
  · simp only [h, if_false]

theorem tr_parts {t : TrParameters} {fl : List FlagOptionWithIOVar} {sets : List String} (hs : t.SafeEnds fl sets)
    (parts : List Text) (h : ∀ part ∈ parts.dropLast, part = [] ∨ part.getLast? = some '\n') :
    (parts.map (t.tr fl sets)).flatten = t.tr fl sets parts.flatten := by
  induction parts with
  | nil =>
      simp only [List.map_nil, List.flatten_nil, TrParameters.tr, List.filterMap_nil, squeeze, ite_self]
  | cons a l ih =>
      cases l with
      | nil => simp
      | cons b l =>
          rw [List.map_cons, List.flatten_cons, ih (fun part hp => h part (by simp [hp])), List.flatten_cons (l := a),
            tr_append hs a _ (h a (by simp))]

/-- C66, exactly: concatenation is right for a tr invocation, for all texts and all splits at ends of lines, if and only
if nothing is squeezed across an end of line. -/
theorem C66_exact (prog : ProgramsOn Char) (hcat : CatProgram prog) (t : TrParameters) (ht : TrProgram prog t)
    (c : CommandInvocationWithIOVars) (hn : c.cmdName = "tr") (hc : OneStream c) (hcov : Covered "tr" c.flagOptionList)
    (hu : TrUsage c.flagOptionList (strOperands c)) (p : Parallelizer) (hp : p ∈ bothPlans concatenation) :
    (∀ x parts y, TextSplit x parts → Executes prog p c parts y → y = sequential prog c x) ↔
      t.SafeEnds c.flagOptionList (strOperands c) := by
  have hseq : ∀ z, sequential prog c z = t.tr c.flagOptionList (strOperands c) z := by
    intro z; unfold sequential; rw [hn, ht.output _ _ _ hcov hu]
  constructor
  · intro h hs
    have key : ∀ x y : Text, x.getLast? = some '\n' → sequential prog c (x ++ y) = sequential prog c x ++ sequential prog c y := by
      intro x y hx
      obtain ⟨r, hr⟩ := executable_concatenation prog hc hp [x, y]
      have e := h (x ++ y) [x, y] r ⟨by simp, by simp [hx]⟩ hr
      rw [← e, executes_concatenation hcat hc hp hr]
      simp
    cases hi : t.image c.flagOptionList (strOperands c) '\n' with
    | some a =>
        cases hl : t.last c.flagOptionList (strOperands c) a with
        | false => exact hl
        | true =>
            have := key ['\n'] ['\n'] rfl
            rw [hseq, hseq] at this
            simp [TrParameters.tr, hs, hi, squeeze, hl] at this
    | none =>
        intro e d he
        cases hl : t.last c.flagOptionList (strOperands c) d with
        | false => rfl
        | true =>
            have := key [e, '\n'] [e] rfl
            rw [hseq, hseq, hseq] at this
            simp [TrParameters.tr, hs, hi, he, squeeze, hl] at this
  · intro hs x parts y hsp hex
    rw [executes_concatenation hcat hc hp hex, hseq, ← hsp.1, ← tr_parts hs parts hsp.2]
    congr 1
    exact List.map_congr_left (fun z _ => hseq z)

/-- C66. Executing a parallelizer that is offered for a tr invocation and concatenates gives the output of tr, for all
texts, if nothing is squeezed across an end of line. Missing: other invocations, for which it is false (below); the
other aggregators offered for tr are not implemented. -/
theorem C66_tr_partial (inv : CommandInvocationInitial) (p : Parallelizer) (hp : Offered inv p)
    (hk : p.coreAggregatorSpec.kind = .concatenate) (hn : inv.cmdName = "tr") (prog : ProgramsOn Char)
    (hcat : CatProgram prog) (t : TrParameters) (ht : TrProgram prog t) (c : CommandInvocationWithIOVars)
    (hb : Belongs inv c) (hc : OneStream c) (hcov : Covered "tr" c.flagOptionList)
    (hu : TrUsage c.flagOptionList (strOperands c)) (hs : t.SafeEnds c.flagOptionList (strOperands c)) (x : Text)
    (parts : List Text) (hsp : TextSplit x parts) (y : Text) (h : Executes prog p c parts y) : y = sequential prog c x :=
  (C66_exact prog hcat t ht c (hb.1.trans hn) hc hcov hu p (offered_concatenate hp hk)).2 hs x parts y hsp h

/-- C66: translating and deleting, without squeezing, concatenation is always right, also if newlines are deleted. -/
theorem C66_translate_delete (prog : ProgramsOn Char) (hcat : CatProgram prog) (t : TrParameters) (ht : TrProgram prog t)
    (c : CommandInvocationWithIOVars) (hn : c.cmdName = "tr") (hc : OneStream c) (hcov : Covered "tr" c.flagOptionList)
    (hu : TrUsage c.flagOptionList (strOperands c)) (hs : ¬ Given c.flagOptionList "-s")
    (p : Parallelizer) (hp : p ∈ bothPlans concatenation) (x : Text) (parts : List Text) (hsp : TextSplit x parts)
    (y : Text) (h : Executes prog p c parts y) : y = sequential prog c x :=
  (C66_exact prog hcat t ht c hn hc hcov hu p hp).2 (fun h => absurd h hs) x parts y hsp h

/-- C66 is false of the code for `tr -s` and `tr -cs` with the newline escape as last set, the usual way to get one word
per line: it is offered concatenation, and for all programs as in the manual this is wrong on some text. -/
theorem C66_squeeze_false (inv : CommandInvocationInitial) (hn : inv.cmdName = "tr") (os : List String)
    (ho : inv.operandList = os ++ ["\\n"]) (hlen : os.length ≤ 1) (hx : Has inv "-s" ∧ ¬ Has inv "-d")
    (hcc : ¬ (os = [] ∧ Has inv "-c")) (prog : ProgramsOn Char) (hcat : CatProgram prog) (t : TrParameters)
    (ht : TrProgram prog t) (c : CommandInvocationWithIOVars) (hb : Belongs inv c) (hcov : Covered "tr" c.flagOptionList)
    (hc : OneStream c) (hs : strOperands c = inv.operandList) :
    (∃ p, Offered inv p) ∧ ∀ p, Offered inv p → ∃ x parts, TextSplit x parts ∧
      (∃ y, Executes prog p c parts y) ∧ ∀ y, Executes prog p c parts y → y ≠ sequential prog c x := by
  have h1 : trNewline inv "\\n" = false := by
    have e1 : containsNewLine "\\n" = false := by decide +kernel
    have e2 : containsNullChar "\\n" = false := by decide +kernel
    unfold trNewline
    simp only [e1, e2, Bool.or_self, Bool.not_false]
    split
    · rename_i hb
      simp only [ho, List.length_append, List.length_singleton, Bool.and_eq_true, decide_eq_true_eq,
        contains_one] at hb
      exact absurd ⟨List.length_eq_zero_iff.1 (by omega), hb.2⟩ hcc
    · rfl
  have hi : getParallelizabilityInfo inv = some (offers (bothPlans concatenation)) :=
    (getPar_gen hn (show ("tr", ParGen.tr) ∈ parTable by simp [parTable]) _).2 ((par_tr_some _ ho).2.2 h1)
  refine ⟨⟨plan .consecChunks concatenation, offered_iff.2 ⟨_, hi, .inl (by simp [bothPlans])⟩⟩, ?_⟩
  intro p hp
  have hp : p ∈ bothPlans concatenation := by
    obtain ⟨i, hi', hp⟩ := offered_iff.1 hp
    rw [hi] at hi'; cases hi'
    rcases hp with hp | ⟨hp, _⟩
    · exact hp
    · cases hp
  rw [has_iff_given hb, has_iff_given hb] at hx
  have hu : TrUsage c.flagOptionList (strOperands c) := by
    unfold TrUsage
    rw [hs, ho]
    match os, hlen with
    | [], _ => exact .inl ⟨rfl, fun h => hx.2 (h.2 hx.1)⟩
    | [s], _ => exact .inr ⟨rfl, fun _ => hx.1⟩
  have himg : t.image c.flagOptionList (strOperands c) '\n' = some '\n' := by
    unfold TrParameters.image
    rw [if_neg hx.2]
    by_cases hl : (strOperands c).length ≤ 1
    · rw [if_pos hl]
    · rw [if_neg hl]
      rw [hs, ho] at hl ⊢
      match os, hlen with
      | [], _ => simp at hl
      | [s], _ => rcases ht.toNewline c.flagOptionList s '\n' with h | h <;> simpa using h
  have hlast : t.last c.flagOptionList (strOperands c) '\n' = true := by
    unfold TrParameters.last
    rw [hs, ho]
    match os, hlen, hcc with
    | [], _, hcc =>
        have : ¬ Given c.flagOptionList "-c" := fun h => hcc ⟨rfl, (has_iff_given hb _).2 h⟩
        simp [TrParameters.first, ht.newline, this]
    | [s], _, _ => simp [ht.newline]
  refine ⟨['\n', '\n'], [['\n'], ['\n']], ⟨rfl, by simp⟩, executable_concatenation prog hc hp _, ?_⟩
  intro y hy
  rw [executes_concatenation hcat hc hp hy]
  have hseq : ∀ z, sequential prog c z = t.tr c.flagOptionList (strOperands c) z := by
    intro z; unfold sequential; rw [hb.1, hn, ht.output _ _ _ hcov hu]
  simp [hseq, TrParameters.tr, hx.1, himg, squeeze, hlast]

/-- Programs with `cat` and a `tr` that knows the newline escape and sets of letters as they are; it translates what is
in the first set (or not in it, with `-c`) to the newline. -/
def sampleTr : TrParameters where
  member s c := if s = "\\n" then decide (c = '\n') else decide (c ∈ s.toList)
  translate fl sets c := if (decide (c ∈ (sets.headD "").toList) != decide (Given fl "-c")) = true then '\n' else c

def trProgs : ProgramsOn Char := fun n fl strs ins => if n = "cat" then ins.flatten else sampleTr.tr fl strs ins.flatten

theorem trProgs_ok : CatProgram trProgs ∧ TrProgram trProgs sampleTr := by
  refine ⟨fun _ => rfl, ⟨?_, ?_, ?_⟩⟩
  · intro fl sets x _ _; simp [trProgs]
  · intro c; rfl
  · intro fl s c
    by_cases h : (decide (c ∈ s.toList) != decide (Given fl "-c")) = true
    · right; simp only [sampleTr, List.headD_cons]; exact if_pos h
    · left; simp only [sampleTr, List.headD_cons]; exact if_neg h

/-- `tr` with some flags and sets, from standard input to the standard output. -/
def trSample (fl : List String) (sets : List String) : CommandInvocationWithIOVars :=
  ⟨"tr", fl.map .flag, sets.map .str, some 1, some 2, [(1, .streamInput), (2, .streamOutput)]⟩

theorem trSample_ok (fl sets : List String) : OneStream (trSample fl sets) := by
  have hf : (fl.map FlagOptionWithIOVar.flag).flatMap optionVar = [] := by
    rw [List.flatMap_map]; exact List.flatMap_eq_nil_iff.2 (fun _ _ => rfl)
  have hs : (sets.map VArg.str).flatMap varOf = [] := by
    rw [List.flatMap_map]; exact List.flatMap_eq_nil_iff.2 (fun _ _ => rfl)
  constructor
  · intro v hv
    simp only [trSample, occurrences, hf, hs, List.append_nil, List.nil_append,
      Option.toList_some, List.mem_append, List.mem_singleton] at hv
    rcases hv with rfl | rfl <;> simp [trSample, accessOf, List.lookup]
  · simp [trSample, occurrences, hf, hs]
  · exact ⟨1, by simp [trSample, withAccess, occurrences, accessOf, List.lookup, hf, hs]⟩
  · exact ⟨2, by simp [trSample, withAccess, occurrences, accessOf, List.lookup, hf, hs], rfl⟩
  · intro n v hm; simp [trSample] at hm
  · intro i h; cases h; rfl

example : ∃ inv, parse "tr -c -s abc '\\n'" = .ok inv ∧ inv.operandList = ["abc"] ++ ["\\n"] ∧
    (Has inv "-s" ∧ ¬ Has inv "-d") ∧ Belongs inv (trSample ["-c", "-s"] ["abc", "\\n"]) ∧
    Covered "tr" (trSample ["-c", "-s"] ["abc", "\\n"]).flagOptionList ∧
    strOperands (trSample ["-c", "-s"] ["abc", "\\n"]) = inv.operandList :=
  ⟨⟨"tr", [.flag "-c", .flag "-s"], ["abc", "\\n"]⟩, by decide +kernel, rfl, by simp [Has], ⟨rfl, rfl⟩,
    by decide +kernel, rfl⟩

/-- Squeezing blanks is safe. -/
example : ∃ inv p, parse "tr -s ' '" = .ok inv ∧ Offered inv p ∧ p.coreAggregatorSpec.kind = .concatenate ∧
    Belongs inv (trSample ["-s"] [" "]) ∧ Covered "tr" (trSample ["-s"] [" "]).flagOptionList ∧
    TrUsage (trSample ["-s"] [" "]).flagOptionList (strOperands (trSample ["-s"] [" "])) ∧ sampleTr.SafeEnds (trSample ["-s"] [" "]).flagOptionList
      (strOperands (trSample ["-s"] [" "])) ∧ TextSplit "a  b\nc\n".toList ["a  b\n".toList, "c\n".toList] ∧
    sequential trProgs (trSample ["-s"] [" "]) "a  b\nc\n".toList = "a b\nc\n".toList := by
  refine ⟨⟨"tr", [.flag "-s"], [" "]⟩, plan .consecChunks concatenation, by decide +kernel, ?_, rfl, ⟨rfl, rfl⟩,
    by decide +kernel, by decide +kernel, ?_, by unfold TextSplit; decide +kernel, by decide +kernel⟩
  · refine offered_iff.2 ⟨offers (bothPlans concatenation), ?_, .inl (by simp [bothPlans])⟩
    rw [getPar_gen rfl (show ("tr", ParGen.tr) ∈ parTable by simp [parTable])]
    exact (par_tr_some _ (os := []) rfl).2.2 (by decide +kernel)
  · intro _
    show sampleTr.last _ _ '\n' = false
    decide +kernel

/-! Null-terminated records. -/

theorem records_no_null (r : Text) (h : '\x00' ∉ r) (hr : r ≠ []) : records r = [r] := by
  induction r with
  | nil => exact absurd rfl hr
  | cons a r ih =>
      have ha : a ≠ '\x00' := fun e => h (by simp [e])
      unfold records
      rw [if_neg ha]
      cases r with
      | nil => rfl
      | cons b r => rw [ih (fun hm => h (List.mem_cons_of_mem _ hm)) (by simp)]

theorem records_append (x y : Text) (hx : x = [] ∨ x.getLast? = some '\x00') : records (x ++ y) = records x ++ records y := by
  rcases hx with rfl | hx
  · rfl
  · obtain ⟨x', rfl⟩ := List.getLast?_eq_some_iff.1 hx
    clear hx
    suffices h : records (x' ++ ['\x00']) ≠ [] ∧
        records (x' ++ ['\x00'] ++ y) = records (x' ++ ['\x00']) ++ records y from h.2
    induction x' with
    | nil => exact ⟨by simp [records], by simp [records]⟩
    | cons a x ih =>
        simp only [List.cons_append, records]
        by_cases ha : a = '\x00'
        · simp only [if_pos ha]; exact ⟨by simp, by rw [ih.2]; rfl⟩
        · simp only [if_neg ha, ih.2]
          obtain ⟨r, rs, e⟩ := List.exists_cons_of_ne_nil ih.1
          rw [e]
          exact ⟨by simp, rfl⟩

theorem records_parts {f : Text → Text} {g : List Text → Text} (hf : ∀ z, f z = g (records z)) (hg : ∀ a b, g (a ++ b) = g a ++ g b)
    (parts : List Text) (h : ∀ part ∈ parts.dropLast, part = [] ∨ part.getLast? = some '\x00') :
    (parts.map f).flatten = f parts.flatten := by
  induction parts with
  | nil =>
      have h := hg [] []
      simp only [List.append_nil] at h
      have : g [] = [] := List.append_cancel_left (as := g []) (by simpa using h.symm)
      simp [hf, records, this]
  | cons a l ih =>
      cases l with
      | nil => simp
      | cons b l =>
          rw [List.map_cons, List.flatten_cons, ih (fun part hp => h part (by simp [hp])), List.flatten_cons (l := a), hf, hf,
            hf, records_append a _ (h a (by simp)), hg]

/-- C70. What does hold for grep and cut with `-z`: if no part ends inside a record, concatenation is right. Missing:
parts that end at a newline inside a record, for which it is false (below). -/
theorem C70_records_partial (prog : ProgramsOn Char) (hcat : CatProgram prog)
    (matching : List FlagOptionWithIOVar → List String → Text → Bool) (hg : GrepNullProgram prog matching)
    (select : List FlagOptionWithIOVar → Text → Text) (hcut : CutNullProgram prog select)
    (c : CommandInvocationWithIOVars) (hc : OneStream c) (hz : Given c.flagOptionList "-z")
    (hcov : Covered c.cmdName c.flagOptionList)
    (hcmd : (c.cmdName = "grep" ∧ ¬ ∃ n ∈ notRecords, Given c.flagOptionList n) ∨
      (c.cmdName = "cut" ∧ strOperands c = [] ∧ ¬ Given c.flagOptionList "-s" ∧
        ¬ Given c.flagOptionList "--output-delimiter"))
    (p : Parallelizer) (hp : p ∈ bothPlans concatenation) (x : Text) (parts : List Text) (hsp : parts.flatten = x)
    (hends : ∀ part ∈ parts.dropLast, part = [] ∨ part.getLast? = some '\x00') (y : Text)
    (h : Executes prog p c parts y) : y = sequential prog c x := by
  rw [executes_concatenation hcat hc hp h, ← hsp]
  rcases hcmd with ⟨hn, hx⟩ | ⟨hn, hs, h1, h2⟩
  · refine records_parts (g := fun rs => (rs.filter (matching c.flagOptionList (strOperands c))).flatMap (· ++ ['\x00'])) ?_
      (fun a b => by simp) parts hends
    intro z; unfold sequential; rw [hn, hg _ _ _ (by rw [← hn]; exact hcov) hz hx]
  · refine records_parts (g := fun rs => rs.flatMap (fun r => select c.flagOptionList r ++ ['\x00'])) ?_
      (fun a b => by simp) parts hends
    intro z; unfold sequential; rw [hn, hs, hcut _ _ (by rw [← hn]; exact hcov) hz h1 h2]

/-- C70. A grep or cut invocation with `-z` is not split at newlines: false of the code for grep. For all programs as in
the manual and every pattern that matches some record with a newline inside, every offered parallelizer gives a wrong
output on some text. -/
theorem C70_grep_false (inv : CommandInvocationInitial) (hn : inv.cmdName = "grep") (hz : Has inv "-z")
    (hx : ¬ ∃ n ∈ notRecords, Has inv n)
    (prog : ProgramsOn Char) (hcat : CatProgram prog)
    (matching : List FlagOptionWithIOVar → List String → Text → Bool) (hg : GrepNullProgram prog matching)
    (c : CommandInvocationWithIOVars) (hb : Belongs inv c) (hcov : Covered "grep" c.flagOptionList) (hc : OneStream c)
    (a b : Text)
    (hb' : b ≠ []) (h0 : '\x00' ∉ a ++ '\n' :: b)
    (hm : matching c.flagOptionList (strOperands c) (a ++ '\n' :: b) = true) :
    (∃ p, Offered inv p) ∧ ∀ p, Offered inv p → ∃ x parts, TextSplit x parts ∧
      (∃ y, Executes prog p c parts y) ∧ ∀ y, Executes prog p c parts y → y ≠ sequential prog c x := by
  have hi : getParallelizabilityInfo inv = some (offers (bothPlans concatenation)) := by
    refine grep_offered hn ⟨fun h => hx ⟨"-q", by simp [notRecords], h⟩, .inr ?_⟩
    rintro ⟨n, hn, h⟩
    refine hx ⟨n, ?_, h⟩
    simp only [grepSpecial, List.mem_cons, List.not_mem_nil, or_false] at hn
    rcases hn with rfl | rfl | rfl | rfl | rfl <;> simp [notRecords]
  refine ⟨⟨plan .consecChunks concatenation, offered_iff.2 ⟨_, hi, .inl (by simp [bothPlans])⟩⟩, ?_⟩
  intro p hp
  have hp : p ∈ bothPlans concatenation := by
    obtain ⟨i, hi', hp⟩ := offered_iff.1 hp
    rw [hi] at hi'; cases hi'
    rcases hp with hp | ⟨hp, _⟩
    · exact hp
    · cases hp
  have hseq : ∀ z, sequential prog c z = ((records z).filter (matching c.flagOptionList (strOperands c))).flatMap (· ++ ['\x00']) := by
    intro z
    unfold sequential
    rw [hb.1, hn, hg _ _ _ hcov ((has_iff_given hb _).1 hz) (by rintro ⟨n, hn, h⟩; exact hx ⟨n, hn, (has_iff_given hb n).2 h⟩)]
  have h0a : '\x00' ∉ a ++ ['\n'] := by
    intro h; refine h0 ?_
    simp only [List.mem_append, List.mem_cons, List.not_mem_nil, or_false] at h ⊢
    rcases h with h | h
    · exact .inl h
    · exact .inr (.inl h)
  have h0b : '\x00' ∉ b := fun h => h0 (by simp [h])
  refine ⟨a ++ '\n' :: b, [a ++ ['\n'], b], ⟨by simp, by simp⟩, executable_concatenation prog hc hp _, ?_⟩
  intro y hy
  rw [executes_concatenation hcat hc hp hy]
  simp only [List.map_cons, List.map_nil, List.flatten_cons, List.flatten_nil, List.append_nil]
  rw [hseq, hseq, hseq, records_no_null _ h0a (by simp), records_no_null _ h0b hb', records_no_null _ h0 (by simp)]
  intro e
  have hlen := congrArg List.length e
  have hcnt := congrArg (List.count '\x00') e
  have c1 : List.count '\x00' (a ++ ['\n']) = 0 := List.count_eq_zero.2 h0a
  have c2 : List.count '\x00' b = 0 := List.count_eq_zero.2 h0b
  have c3 : List.count '\x00' (a ++ '\n' :: b) = 0 := List.count_eq_zero.2 h0
  have hbl : 0 < b.length := List.length_pos_iff.2 hb'
  by_cases m1 : matching c.flagOptionList (strOperands c) (a ++ ['\n']) = true <;>
    by_cases m2 : matching c.flagOptionList (strOperands c) b = true <;>
      simp [hm, m1, m2, List.count_append] at hlen hcnt c1 c2 c3 <;> first | omega | exact hb' hlen

/-- C70, false of the code for cut too, whatever is cut. -/
theorem C70_cut_false (inv : CommandInvocationInitial) (hn : inv.cmdName = "cut") (hz : Has inv "-z")
    (hx : ¬ Has inv "-s" ∧ ¬ Has inv "--output-delimiter") (prog : ProgramsOn Char) (hcat : CatProgram prog)
    (select : List FlagOptionWithIOVar → Text → Text) (hsel : ∀ fl r, '\x00' ∉ r → '\x00' ∉ select fl r)
    (hcut : CutNullProgram prog select) (c : CommandInvocationWithIOVars) (hb : Belongs inv c)
    (hcov : Covered "cut" c.flagOptionList) (hc : OneStream c) (hs : strOperands c = []) :
    (∃ p, Offered inv p) ∧ ∀ p, Offered inv p → ∃ x parts, TextSplit x parts ∧
      (∃ y, Executes prog p c parts y) ∧ ∀ y, Executes prog p c parts y → y ≠ sequential prog c x := by
  have hoff := offered_line (inv := inv) (by simp [hn])
  refine ⟨⟨_, (hoff (plan .consecChunks concatenation)).2 (by simp [bothPlans])⟩, ?_⟩
  intro p hp
  have hp := (hoff p).1 hp
  rw [has_iff_given hb, has_iff_given hb] at hx
  have hseq : ∀ z, sequential prog c z = (records z).flatMap (fun r => select c.flagOptionList r ++ ['\x00']) := by
    intro z
    unfold sequential
    rw [hb.1, hn, hs, hcut _ _ hcov ((has_iff_given hb _).1 hz) hx.1 hx.2]
  refine ⟨['a', '\n', 'b'], [['a', '\n'], ['b']], ⟨rfl, by simp⟩, executable_concatenation prog hc hp _, ?_⟩
  intro y hy
  rw [executes_concatenation hcat hc hp hy]
  simp only [List.map_cons, List.map_nil, List.flatten_cons, List.flatten_nil, List.append_nil]
  rw [hseq, hseq, hseq, records_no_null _ (by decide) (by simp), records_no_null _ (by decide) (by simp),
    records_no_null _ (by decide) (by simp)]
  intro e
  have hcnt := congrArg (List.count '\x00') e
  have hsel : ∀ r : Text, '\x00' ∉ r → List.count '\x00' (select c.flagOptionList r) = 0 :=
    fun r hr => List.count_eq_zero.2 (hsel _ r hr)
  simp [List.count_append, hsel] at hcnt

example : ∃ inv, parse "grep -z a f" = .ok inv ∧ Has inv "-z" ∧
    (¬ ∃ n ∈ notRecords, Has inv n) ∧ Covered "grep" (grepSample [.flag "-z"]).flagOptionList ∧
    Belongs inv (grepSample [.flag "-z"]) ∧ OneStream (grepSample [.flag "-z"]) :=
  ⟨⟨"grep", [.flag "-z"], ["a", "f"]⟩, by decide +kernel, by simp [Has], by simp [Has, notRecords],
    by decide +kernel, ⟨rfl, rfl⟩, grepSample_ok _ (by simp [optionVar])⟩

/-- Programs with `cat`, and `grep -z` and `cut -z` that find everything and cut off nothing. -/
def nullProgs : ProgramsOn Char := fun n _ _ ins =>
  if n = "cat" then ins.flatten else (records ins.flatten).flatMap (· ++ ['\x00'])

example : CatProgram nullProgs ∧ GrepNullProgram nullProgs (fun _ _ _ => true) ∧ CutNullProgram nullProgs (fun _ r => r) := by
  refine ⟨fun _ => rfl, ?_, ?_⟩
  · intro fl strs x _ _ _
    rw [List.filter_eq_self.2 (fun _ _ => rfl)]
    simp [nullProgs]
  · intro fl x _ _ _ _; simp [nullProgs]

example : ∃ inv, parse "cut -z -f 1 f" = .ok inv ∧ Has inv "-z" ∧ (¬ Has inv "-s" ∧ ¬ Has inv "--output-delimiter") :=
  ⟨⟨"cut", [.flag "-z", .option "-f" "1"], ["f"]⟩, by decide +kernel, by simp [Has], by simp [Has]⟩

end PashAnn
