import Verif.Props.IOInfo
import Verif.Spec.IOTable

/-! Property C63: the complete table of how invocations are read. Specification: `Spec/IOTable.lean`. -/

namespace PashAnn
open Spec

theorem typers_optionsRead {inv : CommandInvocationInitial} {ts : List Typer} (h : flagoptionListTyper inv = .ok ts) :
    OptionsRead inv (List.zipWith typedFlagOption inv.flagOptionList ts) := by
  obtain ⟨_, _, hl, hc⟩ := typers_spec h
  refine ⟨by simp [hl], fun d hd k fo hk => ?_⟩
  obtain ⟨t, ht, hcl⟩ := hc d hd k fo hk
  exact ⟨t, hcl, by simp [List.getElem?_zipWith, hk, ht]⟩

/-- Everything that a typed invocation says follows the table. -/
theorem C63_table (inv : CommandInvocationInitial) (c : CommandInvocationWithIO) (h : Typed inv c) :
    c.cmdName = inv.cmdName ∧ OptionsRead inv c.flagOptionList ∧
    ∃ stdin stdout, Reads inv c.operandList stdin stdout ∧
      (stdin ∧ c.implicitInput = some stdinStream ∨ ¬ stdin ∧ c.implicitInput = none) ∧
      (stdout ∧ c.implicitOutput = some stdoutStream ∨ ¬ stdout ∧ c.implicitOutput = none) := by
  obtain ⟨i, hi, ha⟩ := h
  obtain ⟨gen, ts, hm, hts, hg⟩ := getIO_some.1 hi
  have hsh := gen_shape hm (.init ts _) hg
  rw [getIO_apply hi] at ha
  cases ha
  refine ⟨rfl, by rw [hsh.flags]; exact typers_optionsRead hts, ?_⟩
  clear hi hsh hts
  have oi : ∀ (p : Prop) [Decidable p] (x : FileWithIO), p ∧ optIf p x = some x ∨ ¬ p ∧ optIf p x = none := by
    intro p _ x; by_cases hp : p <;> simp [optIf, hp]
  have ot : ∀ x : FileWithIO, True ∧ some x = some x ∨ ¬ True ∧ some x = none := fun _ => .inl ⟨trivial, rfl⟩
  have of : ∀ x : FileWithIO, False ∧ (none : Option FileWithIO) = some x ∨ ¬ False ∧ (none : Option FileWithIO) = none :=
    fun _ => .inr ⟨id, rfl⟩
  have zf : ∀ (l : List String) (a : AccessKind),
      List.zipWith (fun s t => typedArg t s) l (List.replicate l.length (.fileStd a)) = files a l :=
    fun l a => zipWith_replicate l _
  have zs : ∀ (l : List String),
      List.zipWith (fun s t => typedArg t s) l (List.replicate l.length .argString) = strings l :=
    fun l => zipWith_replicate l _
  simp only [ioTable, List.mem_cons, Prod.mk.injEq, List.not_mem_nil, or_false] at hm
  rcases hm with ⟨hn, rfl⟩ | ⟨hn, rfl⟩ | ⟨hn, rfl⟩ | ⟨hn, rfl⟩ | ⟨hn, rfl⟩ | ⟨hn, rfl⟩ | ⟨hn, rfl⟩ |
    ⟨hn, rfl⟩ | ⟨hn, rfl⟩ | ⟨hn, rfl⟩ | ⟨hn, rfl⟩ | ⟨hn, rfl⟩ | ⟨hn, rfl⟩ | ⟨hn, rfl⟩ | ⟨hn, rfl⟩ |
    ⟨hn, rfl⟩ | ⟨hn, rfl⟩ | ⟨hn, rfl⟩ | ⟨hn, rfl⟩ | ⟨hn, rfl⟩ | ⟨hn, rfl⟩ | ⟨hn, rfl⟩ | ⟨hn, rfl⟩ |
    ⟨hn, rfl⟩ | ⟨hn, rfl⟩ | ⟨hn, rfl⟩ | ⟨hn, rfl⟩ | ⟨hn, rfl⟩
  · rw [form_std inv ts IOGen.altBigramsAux (by simp)] at hg; cases hg
    exact ⟨_, _, by rw [zf]; exact .both (by simp [hn]), ot _, ot _⟩
  · rw [form_out inv ts IOGen.altBigramAuxReduce (by simp)] at hg; cases hg
    exact ⟨_, _, by rw [zf]; exact .operandsOnly (by simp [hn]), of _, ot _⟩
  · by_cases hh : Has inv "-f"
    · rw [form_awk_f inv ts hh] at hg; cases hg
      exact ⟨_, _, by rw [zf]; exact .awkOption hn hh, oi _ _, ot _⟩
    · cases ho : inv.operandList with
      | nil => rw [form_awk_nil inv ts hh ho] at hg; cases hg
      | cons o os =>
          rw [form_awk_cons inv ts hh ho] at hg; cases hg
          exact ⟨_, _, by rw [List.zipWith_cons_cons, zf]; exact .awkOperand hn hh ho, oi _ _, ot _⟩
  · rw [form_std inv ts IOGen.bigramsAux (by simp)] at hg; cases hg
    exact ⟨_, _, by rw [zf]; exact .both (by simp [hn]), ot _, ot _⟩
  · rw [form_plain inv ts IOGen.cat (by simp)] at hg; cases hg
    exact ⟨_, _, by rw [zf]; exact .filter (by simp [hn]), oi _ _, ot _⟩
  · rw [form_std inv ts IOGen.col (by simp)] at hg; cases hg
    exact ⟨_, _, by rw [zf]; exact .both (by simp [hn]), ot _, ot _⟩
  · by_cases hh : inv.operandList.length = 2
    · rw [form_comm inv ts hh] at hg; cases hg
      match ho : inv.operandList, hh with
      | [o, o'], _ => exact ⟨_, _, by rw [zf]; exact .comm hn ho, of _, ot _⟩
    · rw [form_comm_ne inv ts hh] at hg; cases hg
  · rw [form_sort inv ts IOGen.customSort (by simp)] at hg; cases hg
    exact ⟨_, _, by rw [zf]; exact .sort (by simp [hn]), oi _ _, oi _ _⟩
  · rw [form_strings inv ts IOGen.customTr (by simp)] at hg; cases hg
    exact ⟨_, _, by rw [zs]; exact .stringFilter (by simp [hn]), ot _, ot _⟩
  · rw [form_plain inv ts IOGen.cut (by simp)] at hg; cases hg
    exact ⟨_, _, by rw [zf]; exact .filter (by simp [hn]), oi _ _, ot _⟩
  · rw [form_out inv ts IOGen.diff (by simp)] at hg; cases hg
    exact ⟨_, _, by rw [zf]; exact .operandsOnly (by simp [hn]), of _, ot _⟩
  · by_cases hh : Has inv "-e" ∨ Has inv "-f"
    · rw [form_grep_ef inv ts hh] at hg; cases hg
      exact ⟨_, _, by rw [zf]; exact .grepOption hn hh, oi _ _, oi _ _⟩
    · cases ho : inv.operandList with
      | nil => rw [form_grep_nil inv ts hh ho] at hg; cases hg
      | cons o os =>
          rw [form_grep_cons inv ts hh ho] at hg; cases hg
          exact ⟨_, _, by rw [List.zipWith_cons_cons, zf]; exact .grepOperand hn hh ho, oi _ _, oi _ _⟩
  · rw [form_plain inv ts IOGen.head (by simp)] at hg; cases hg
    exact ⟨_, _, by rw [zf]; exact .filter (by simp [hn]), oi _ _, ot _⟩
  · rw [form_rm inv ts IOGen.mkfifo (by simp)] at hg; cases hg
    exact ⟨_, _, by rw [zf]; exact .remove (by simp [hn]), of stdinStream, of stdoutStream⟩
  · rcases Nat.lt_trichotomy (count inv "-t") 1 with h1 | h1 | h1
    · have h0 : count inv "-t" = 0 := by omega
      by_cases ho : inv.operandList = []
      · rw [form_mv_nil inv ts h0 ho] at hg; cases hg
      · obtain ⟨os, o, hos⟩ := list_snoc _ ho
        rw [form_mv_no inv ts h0 hos] at hg; cases hg
        refine ⟨_, _, ?_, of stdinStream, of stdoutStream⟩
        have := Reads.mvOperand hn h0 hos
        rw [hos, List.zipWith_append (by simp), zf]
        exact this
    · rw [form_mv_t inv ts h1] at hg; cases hg
      exact ⟨_, _, by rw [zf]; exact .mvOption hn h1, of stdinStream, of stdoutStream⟩
    · rw [form_mv_tt inv ts h1] at hg; cases hg
  · rw [form_rm inv ts IOGen.rm (by simp)] at hg; cases hg
    exact ⟨_, _, by rw [zf]; exact .remove (by simp [hn]), of stdinStream, of stdoutStream⟩
  · by_cases hh : Has inv "-e" ∨ Has inv "-f"
    · rw [form_sed_ef inv ts hh] at hg; cases hg
      exact ⟨_, _, by rw [zf]; exact .sedOption hn hh, ot _, ot _⟩
    · cases ho : inv.operandList with
      | nil => rw [form_sed_nil inv ts hh ho] at hg; cases hg
      | cons o os =>
          rw [form_sed_cons inv ts hh ho] at hg; cases hg
          exact ⟨_, _, by rw [List.zipWith_cons_cons, zf]; exact .sedOperand hn hh ho, ot _, ot _⟩
  · by_cases hh : inv.operandList.length = 1
    · rw [form_setDiff inv ts hh] at hg; cases hg
      match ho : inv.operandList, hh with
      | [o], _ => exact ⟨_, _, .setDiff hn ho, ot _, ot _⟩
    · rw [form_setDiff_ne inv ts hh] at hg; cases hg
  · rw [form_seq inv ts] at hg; cases hg
    exact ⟨_, _, by rw [zs]; exact .seq hn, of stdinStream, ot _⟩
  · rw [form_sort inv ts IOGen.sort (by simp)] at hg; cases hg
    exact ⟨_, _, by rw [zf]; exact .sort (by simp [hn]), oi _ _, oi _ _⟩
  · rw [form_plain inv ts IOGen.tail (by simp)] at hg; cases hg
    exact ⟨_, _, by rw [zf]; exact .filter (by simp [hn]), oi _ _, ot _⟩
  · rw [form_tee inv ts] at hg; cases hg
    exact ⟨_, _, by rw [zf]; exact .tee hn, ot _, ot _⟩
  · rw [form_std inv ts IOGen.testOne (by simp)] at hg; cases hg
    exact ⟨_, _, by rw [zf]; exact .both (by simp [hn]), ot _, ot _⟩
  · rw [form_std inv ts IOGen.testTwo (by simp)] at hg; cases hg
    exact ⟨_, _, by rw [zf]; exact .both (by simp [hn]), ot _, ot _⟩
  · rw [form_strings inv ts IOGen.tr (by simp)] at hg; cases hg
    exact ⟨_, _, by rw [zs]; exact .stringFilter (by simp [hn]), ot _, ot _⟩
  · match ho : inv.operandList with
    | [] =>
        rw [form_uniq_0 inv ts ho] at hg; cases hg
        exact ⟨_, _, .uniq0 hn ho, ot _, ot _⟩
    | [o] =>
        rw [form_uniq_1 inv ts ho] at hg; cases hg
        exact ⟨_, _, .uniq1 hn ho, of _, ot _⟩
    | [o, o'] =>
        rw [form_uniq_2 inv ts ho] at hg; cases hg
        exact ⟨_, _, .uniq2 hn ho, of stdinStream, of stdoutStream⟩
    | o :: o' :: o'' :: os => rw [form_uniq_3 inv ts (by simp [ho])] at hg; cases hg
  · by_cases hh : Has inv "--files0-from"
    · rw [form_wc_files0 inv ts hh] at hg; cases hg
    · rw [form_wc inv ts hh] at hg; cases hg
      exact ⟨_, _, by rw [zf]; exact .wc hn hh, oi _ _, ot _⟩
  · rw [form_strings inv ts IOGen.xargs (by simp)] at hg; cases hg
    exact ⟨_, _, by rw [zs]; exact .stringFilter (by simp [hn]), ot _, ot _⟩

/-- The table gives at most one reading. -/
theorem C63_unambiguous (inv : CommandInvocationInitial) (ops ops' : List ArgWithIO) (i o i' o' : Prop)
    (h : Reads inv ops i o) (h' : Reads inv ops' i' o') : ops = ops' ∧ i = i' ∧ o = o' := by
  cases h <;> cases h' <;> simp_all <;> exfalso <;> grind

/-- An invocation whose options are known is read if and only if it is in the table. -/
theorem C63_complete (inv : CommandInvocationInitial) (hk : OptionsKnown inv) :
    (∃ c, Typed inv c) ↔ ∃ ops i o, Reads inv ops i o := by
  constructor
  · rintro ⟨c, h⟩
    obtain ⟨_, _, i, o, h, _⟩ := C63_table inv c h
    exact ⟨_, i, o, h⟩
  · rintro ⟨ops, i, o, h⟩
    have : getInputOutputInfo inv ≠ none := by
      rw [Ne, C19_io_lookup]
      simp only [not_or, Classical.not_not]
      refine ⟨?_, hk, ?_⟩
      · cases h <;> simp_all [ioCommands] <;> grind
      · unfold RefusedUsage
        rintro (⟨hn, h1, h2⟩ | ⟨hn, h1, h2, h3⟩ | ⟨hn, h1, h2, h3⟩ | ⟨hn, h1⟩ | ⟨hn, h1⟩ | ⟨hn, h1⟩ | ⟨hn, h1⟩ |
          ⟨hn, h1⟩) <;> cases h <;> simp_all
    obtain ⟨x, hx⟩ := Option.ne_none_iff_exists'.1 this
    exact ⟨_, x, hx, getIO_apply hx⟩

example : ∃ inv c, parse "comm -3 - b" = .ok inv ∧ Typed inv c ∧
    Reads inv [.io (.std .stdin .streamInput), .io (.file "b" .streamInput)] False True :=
  ⟨⟨"comm", [.flag "-3"], ["-", "b"]⟩, ⟨"comm", [.flag "-3"],
    [.io (.std .stdin .streamInput), .io (.file "b" .streamInput)], none, some stdoutStream⟩, by decide +kernel,
    ⟨⟨[.plainString], [inT, inT], none, some stdoutStream⟩, by decide +kernel, by decide +kernel⟩,
    (Reads.comm rfl rfl : Reads ⟨"comm", [.flag "-3"], ["-", "b"]⟩ (files .streamInput ["-", "b"]) False True)⟩
example : ∃ inv, parse "xargs -n 1 echo" = .ok inv ∧ OptionsKnown inv ∧ Reads inv [.argString "echo"] True True :=
  ⟨⟨"xargs", [.option "-n" "1"], ["echo"]⟩, by decide +kernel, (parse_optionsKnown (s := "xargs -n 1 echo")
    (by decide +kernel)).2, .stringFilter (by simp)⟩

end PashAnn
