import Verif.Spec.NullUniq
import Verif.Props.TextPlans

/-! Property C70 for `uniq -z`, which is offered a plan although its records can contain ends of lines. -/

namespace PashAnn
open Spec

theorem splicedAt_two {d : Char} {f : Text → Text} {outs : List Text} {y : Text} (h : SplicedAt d f outs y) {a b : Text}
    (ho : outs = [a, b]) : y = spliceAt d f a b := by
  have one : ∀ {outs : List Text} {y : Text}, SplicedAt d f outs y → outs ≠ [] := by
    intro outs y h
    induction h with
    | leaf s => simp
    | node _ _ ih _ => simp [ih]
  have single : ∀ {outs : List Text} {y : Text}, SplicedAt d f outs y → ∀ a, outs = [a] → y = a := by
    intro outs y h a he
    cases h with
    | leaf s => cases he; rfl
    | node hl hr =>
        have := congrArg List.length he
        rw [List.length_append] at this
        have h1 := List.length_pos_iff.2 (one hl)
        have h2 := List.length_pos_iff.2 (one hr)
        simp at this
        omega
  cases h with
  | leaf s => cases ho
  | @node l r a' b' hl hr =>
      have h1 := one hl
      have h2 := one hr
      cases l with
      | nil => exact absurd rfl h1
      | cons u l =>
          cases l with
          | nil =>
              cases ho
              rw [single hl a rfl, single hr b rfl]
          | cons v l =>
              simp only [List.cons_append, List.cons.injEq] at ho
              have h3 := congrArg List.length ho.2.2
              rw [List.length_append, List.length_nil] at h3
              have h4 := List.length_pos_iff.2 h2
              omega

/-- C70 is false of the code for uniq: with `-z` a plan is offered, and whatever the records, and whether it joins at lines or at
records, there is a text for which it gives a wrong output. -/
theorem C70_uniq_false (inv : CommandInvocationInitial) (hn : inv.cmdName = "uniq") (hz : Has inv "-z")
    (hx : ¬ ∃ n ∈ ["-c", "-d", "-D", "--all-repeated", "--group"], Has inv n)
    (prog : ProgramsOn Char) (same : List FlagOptionWithIOVar → Text → Text → Bool) (hprog : UniqNullProgram prog same)
    (c : CommandInvocationWithIOVars) (hb : Belongs inv c) (hcov : Covered "uniq" c.flagOptionList) (hc : OneStream c)
    (hstr : strOperands c = []) (d : Char) (hd : d = '\n' ∨ d = '\x00') (a b : Char) (ha : a ≠ '\x00' ∧ a ≠ '\n')
    (hb' : b ≠ '\x00' ∧ b ≠ '\n') :
    (∃ p, Offered inv p) ∧ ∀ p, Offered inv p → ∃ parts, TextSplit [a, '\n', b] parts ∧
      (∃ y, ExecutesAt d prog p c parts y) ∧ sequential prog c [a, '\n', b] = [a, '\n', b, '\x00'] ∧
      ∀ y, ExecutesAt d prog p c parts y → y ≠ [a, '\n', b, '\x00'] := by
  have hoff := uniq_offered hn (by
    rintro ⟨n, hm, hh⟩
    refine hx ⟨n, ?_, hh⟩
    simp only [List.mem_cons, List.not_mem_nil, or_false] at hm ⊢
    rcases hm with rfl | rfl | rfl <;> simp) (fun h => hx ⟨"-c", by simp, h⟩)
  have hng : ∀ n, n ∈ ["-c", "-d", "-D", "--all-repeated", "--group"] → ¬ Given c.flagOptionList n :=
    fun n hn hg => hx ⟨n, hn, (has_iff_given hb n).2 hg⟩
  have hseq : ∀ z, sequential prog c z = (recordGroups (same c.flagOptionList) (records z)).flatMap fun g =>
      if (Given c.flagOptionList "-u" ∧ 1 < g.length) ∨ (Given c.flagOptionList "-d" ∧ g.length ≤ 1) then []
      else g.headD [] ++ ['\x00'] := by
    intro z
    unfold sequential
    rw [hb.1, hn, hstr, hprog _ _ hcov ((has_iff_given hb _).1 hz) (by
      rintro ⟨n, hm, hg⟩
      refine hng n ?_ hg
      simp only [List.mem_cons, List.not_mem_nil, or_false] at hm ⊢
      rcases hm with rfl | rfl | rfl | rfl <;> simp)]
  have hone : ∀ z : Text, z ≠ [] → '\x00' ∉ z → sequential prog c z = z ++ ['\x00'] := by
    intro z hz h0
    rw [hseq, records_no_null _ h0 hz]
    simp [recordGroups, hng "-d" (by simp)]
  have h3 : sequential prog c [a, '\n', b] = [a, '\n', b, '\x00'] :=
    hone _ (by simp) (by simp [ha.1.symm, hb'.1.symm])
  refine ⟨⟨plan .consecChunks (.nonFunc .adjLinesSeq false), (hoff _).2 (by simp [bothPlans])⟩, ?_⟩
  intro p hp
  have hplan : ∃ s, p = plan s (.nonFunc .adjLinesSeq false) := by
    have := (hoff p).1 hp
    simp only [bothPlans, List.mem_cons, List.not_mem_nil, or_false] at this
    rcases this with rfl | rfl <;> exact ⟨_, rfl⟩
  obtain ⟨s, rfl⟩ := hplan
  have e1 : sequential prog c [a, '\n'] = [a, '\n', '\x00'] := hone _ (by simp) (by simp [ha.1.symm])
  have e2 : sequential prog c [b] = [b, '\x00'] := hone _ (by simp) (by simp [hb'.1.symm])
  refine ⟨[[a, '\n'], [b]], ⟨rfl, by simp⟩, ?_, h3, ?_⟩
  · refine ⟨_, rfl, [([a, '\n'], sequential prog c [a, '\n']), ([b], sequential prog c [b])], rfl, ?_, .node (.leaf _) (.leaf _)⟩
    intro r hr
    simp only [List.mem_cons, List.not_mem_nil, or_false] at hr
    rcases hr with rfl | rfl <;> exact mapperRun_exists prog hc rfl rfl _
  · rintro y ⟨_, runs, hparts, hr, hrec⟩
    rw [runs_outputs hc rfl rfl hr, ← hparts] at hrec
    have hy := splicedAt_two hrec (a := [a, '\n', '\x00']) (b := [b, '\x00']) (by simp [e1, e2])
    rw [hy]
    have hb0 := hb'.1
    have hbn := hb'.2
    have ha0 := ha.1
    have han := ha.2
    rcases hd with rfl | rfl
    · have hp1 : piecesOf '\n' [a, '\n', '\x00'] = [[a, '\n'], ['\x00']] := by simp [piecesOf, han]
      have hp2 : piecesOf '\n' [b, '\x00'] = [[b, '\x00']] := by simp [piecesOf, hbn]
      have hr2 : records ['\x00', b, '\x00'] = [[], [b]] := by simp [records, hb0]
      simp only [spliceAt, hp1, hp2, List.getLast?_cons_cons, List.getLast?_singleton, List.dropLast, List.flatten_cons,
        List.flatten_nil, List.append_nil, List.cons_append, List.nil_append, hseq, hr2]
      by_cases h1 : same c.flagOptionList [] [b] = true <;> by_cases h2 : Given c.flagOptionList "-u" <;>
        simp [recordGroups, h1, h2, hng "-d"]
    · have hp1 : piecesOf '\x00' [a, '\n', '\x00'] = [[a, '\n', '\x00']] := by simp [piecesOf, ha0]
      have hp2 : piecesOf '\x00' [b, '\x00'] = [[b, '\x00']] := by simp [piecesOf, hb0]
      have hr2 : records [a, '\n', '\x00', b, '\x00'] = [[a, '\n'], [b]] := by simp [records, hb0, ha0]
      simp only [spliceAt, hp1, hp2, List.getLast?_singleton, List.dropLast, List.flatten_nil, List.append_nil,
        List.cons_append, List.nil_append, hseq, hr2]
      by_cases h1 : same c.flagOptionList [a, '\n'] [b] = true <;> by_cases h2 : Given c.flagOptionList "-u" <;>
        simp [recordGroups, h1, h2, hng "-d"]

/-- Programs in which `uniq -z` compares whole records. -/
def uniqNullProgs : ProgramsOn Char := fun _ fl _ ins =>
  (recordGroups (· == ·) (records ins.flatten)).flatMap fun g =>
    if (Given fl "-u" ∧ 1 < g.length) ∨ (Given fl "-d" ∧ g.length ≤ 1) then [] else g.headD [] ++ ['\x00']

example : UniqNullProgram uniqNullProgs (fun _ => (· == ·)) := by
  intro fl x _ _ _
  simp [uniqNullProgs]

example : ∃ inv, parse "uniq -z x" = .ok inv ∧ Has inv "-z" ∧
    (¬ ∃ n ∈ ["-c", "-d", "-D", "--all-repeated", "--group"], Has inv n) ∧
    Belongs inv (uniqSample [.flag "-z"]) ∧ Covered "uniq" (uniqSample [.flag "-z"]).flagOptionList ∧
    OneStream (uniqSample [.flag "-z"]) ∧ strOperands (uniqSample [.flag "-z"]) = [] :=
  ⟨⟨"uniq", [.flag "-z"], ["x"]⟩, by decide +kernel, by simp [Has], by simp [Has], ⟨rfl, rfl⟩, by decide +kernel,
    uniqSample_ok _ (by simp [optionVar]), by decide +kernel⟩

end PashAnn
