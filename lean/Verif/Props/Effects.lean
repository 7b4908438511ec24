import Verif.Lemmas.Effects

/-! C78 to C81: files and standard streams that a command uses are announced. -/

namespace PashAnn
open Spec

/-- C78. Every file that a plain command line reads according to the manual is announced as an input. -/
theorem C78_reads_announced_partial (name : String) (ws : List String) (fs : List FlagOption) (ops : List String)
    (hl : PlainLine name ws fs ops) (inv : CommandInvocationInitial) (c : CommandInvocationWithIO)
    (hp : parse (Shlex.join (name :: ws)) = .ok inv) (ht : Typed inv c) (f : String) (hf : f ≠ "-")
    (h : ManualReads name fs ops f) : AnnouncedInput c f := by
  have hpt := plain_typed hl hp ht
  obtain ⟨tx, _, out, hol, rfl, _⟩ := plain_operands hpt (manual_names hl)
  rcases h with ⟨w, hw, hin⟩ | h
  · obtain ⟨n, t, hmem, hr⟩ := hpt.toTyped w f hw
    have hro := manualRole_read.2 hin
    rcases hr with ⟨rfl, rfl⟩ | ⟨rfl, hr, _⟩ | ⟨hr, _⟩ | ⟨_, a, rfl, ha⟩ | ⟨hr, _⟩
    · exfalso
      have hk := (hpt.key ("wc", ["--files0-from"], ["--files0-from"]) (by simp [keys]) rfl).2 ⟨_, hw, by simp [FlagOption.getName]⟩
      have hn := hpt.hname
      obtain ⟨_, _, ⟨_, _, hr, _⟩, _⟩ := hpt
      generalize c.operandList = ol at hr
      cases hr <;> simp_all
    · exfalso
      have key : ∀ w ∈ ["-S", "--starting-file"], ¬ InList readOptions "diff" w := by decide +kernel
      exact key w hr hin
    · rw [hro] at hr; cases hr
    · refine ⟨a, .inr (.inl ⟨n, ?_⟩), ha⟩
      have : typedArg (.fileStd a) f = .io (.file f a) := congrArg _ (fileOf_file.2 ⟨hf, rfl, rfl⟩).symm
      rwa [this] at hmem
    · rw [hro] at hr; cases hr
  · refine ⟨if name = "mv" then .otherInput else .streamInput, .inl ?_, by split <;> simp⟩
    rw [hol]
    refine List.mem_append_left _ (List.mem_append_right _ (mem_files_file.2 ⟨rfl, ?_, hf⟩))
    unfold rawInputs
    split
    · next hn => subst hn; simp only [readOperands] at h; simp at h; exact h.1
    · split
      · next hn => subst hn; simp [readOperands] at h
      · exact h

/-- C78. Nothing else is announced as an input, except assignments of `awk`, operands of `col` (which takes none) and
the file name at which `diff` starts. -/
theorem C78_announced_read_partial (name : String) (ws : List String) (fs : List FlagOption) (ops : List String)
    (hl : PlainLine name ws fs ops) (inv : CommandInvocationInitial) (c : CommandInvocationWithIO)
    (hp : parse (Shlex.join (name :: ws)) = .ok inv) (ht : Typed inv c) (f : String)
    (hx : name ≠ "col" ∧ ¬ (name = "awk" ∧ '=' ∈ f.toList) ∧ ¬ (name = "diff" ∧ OneOf fs ["-S", "--starting-file"]))
    (h : AnnouncedInput c f) : ManualReads name fs ops f := by
  have hpt := plain_typed hl hp ht
  obtain ⟨tx, _, out, hol, rfl, _⟩ := plain_operands hpt (manual_names hl)
  obtain ⟨a, hm, ha⟩ := h
  rcases plain_mentions hpt hm with hm | ⟨n, hm⟩
  · right
    rw [hol, List.mem_append, List.mem_append] at hm
    rcases hm with (hm | hm) | hm
    · exact absurd hm not_mem_strings
    · have h := (mem_files_file.1 hm).2.1
      unfold rawInputs at h
      split at h
      · next hn =>
          subst hn
          simp only [readOperands]
          simp
          exact ⟨h, fun h' => hx.2.1 ⟨rfl, h'⟩⟩
      · split at h
        · next hn => exact absurd hn hx.1
        · exact h
    · exfalso
      have h := (mem_files_file.1 hm).1
      rw [h] at ha
      split at ha <;> simp at ha
  · left
    obtain ⟨w, arg, t, hw, he, hr⟩ := hpt.ofTyped n _ hm
    rcases hr with ⟨rfl, rfl⟩ | ⟨rfl, hr, _⟩ | ⟨_, rfl⟩ | ⟨hr, a', rfl, _⟩ | ⟨_, a', rfl, ha'⟩
    · have hk := (hpt.key ("wc", ["--files0-from"], ["--files0-from"]) (by simp [keys]) rfl).2
        ⟨_, hw, by simp [FlagOption.getName]⟩
      have hn := hpt.hname
      obtain ⟨_, _, ⟨_, _, hr, _⟩, _⟩ := hpt
      generalize c.operandList = ol at hr
      exfalso
      cases hr <;> simp_all
    · exact absurd ⟨_, hw, hr⟩ fun h => hx.2.2 ⟨rfl, h⟩
    · cases he
    · obtain ⟨_, _, rfl⟩ := fileOf_file.1 (ArgWithIO.io.inj he)
      exact ⟨w, hw, manualRole_read.1 hr⟩
    · obtain ⟨_, rfl, _⟩ := fileOf_file.1 (ArgWithIO.io.inj he)
      exact absurd ha' ha

/-- What is announced as an output. -/
theorem announcedOutput_iff {name ws fs ops} (hl : PlainLine name ws fs ops) {inv : CommandInvocationInitial}
    {c : CommandInvocationWithIO} (hp : parse (Shlex.join (name :: ws)) = .ok inv) (ht : Typed inv c) (f : String) :
    AnnouncedOutput c f ↔ f ≠ "-" ∧ ((∃ w, .option w f ∈ fs ∧ InList writeOptions name w) ∨ f ∈ rawOutputs name fs ops) := by
  have hpt := plain_typed hl hp ht
  obtain ⟨tx, _, out, hol, rfl, hout⟩ := plain_operands hpt (manual_names hl)
  have hx1 : ∀ w, ¬ (name = "diff" ∧ w ∈ ["-S", "--starting-file"] ∧ InList writeOptions name w) := by
    rintro w ⟨rfl, hw, h⟩
    have key : ∀ w ∈ ["-S", "--starting-file"], ¬ InList writeOptions "diff" w := by decide +kernel
    exact key w hw h
  have hx2 : ¬ InList writeOptions "wc" "--files0-from" := by decide +kernel
  constructor
  · rintro ⟨a, hm, ha⟩
    rcases plain_mentions hpt hm with hm | ⟨n, hm⟩
    · rw [hol, List.mem_append, List.mem_append] at hm
      rcases hm with (hm | hm) | hm
      · exact absurd hm not_mem_strings
      · exfalso
        rw [(mem_files_file.1 hm).1] at ha
        split at ha <;> simp at ha
      · obtain ⟨_, h1, h2⟩ := mem_files_file.1 hm
        exact ⟨h2, .inr (hout ▸ h1)⟩
    · obtain ⟨w, arg, t, hw, he, hr⟩ := hpt.ofTyped n _ hm
      rcases hr with ⟨rfl, rfl⟩ | ⟨rfl, hr, a', rfl, ha'⟩ | ⟨_, rfl⟩ | ⟨hr, a', rfl, ha'⟩ | ⟨hr, a', rfl, ha'⟩
      · have hk := (hpt.key ("wc", ["--files0-from"], ["--files0-from"]) (by simp [keys]) rfl).2
          ⟨_, hw, by simp [FlagOption.getName]⟩
        have hn := hpt.hname
        obtain ⟨_, _, ⟨_, _, hr, _⟩, _⟩ := hpt
        generalize c.operandList = ol at hr
        exfalso
        cases hr <;> simp_all
      · obtain ⟨_, rfl, _⟩ := fileOf_file.1 (ArgWithIO.io.inj he)
        exact absurd ha ha'
      · cases he
      · obtain ⟨_, rfl, _⟩ := fileOf_file.1 (ArgWithIO.io.inj he)
        exact absurd ha ha'
      · obtain ⟨h1, _, rfl⟩ := fileOf_file.1 (ArgWithIO.io.inj he)
        exact ⟨h1, .inl ⟨w, hw, manualRole_write.1 hr⟩⟩
  · rintro ⟨hf, ⟨w, hw, hin⟩ | h⟩
    · obtain ⟨n, t, hmem, hr⟩ := hpt.toTyped w f hw
      have hro := manualRole_write.2 hin
      rcases hr with ⟨rfl, rfl⟩ | ⟨rfl, hr, _⟩ | ⟨hr, _⟩ | ⟨hr, _⟩ | ⟨_, a, rfl, ha⟩
      · exact absurd hin hx2
      · exact absurd ⟨rfl, hr, hin⟩ (hx1 w)
      · rw [hro] at hr; cases hr
      · rw [hro] at hr; cases hr
      · refine ⟨a, .inr (.inl ⟨n, ?_⟩), ha⟩
        have : typedArg (.fileStd a) f = .io (.file f a) := congrArg _ (fileOf_file.2 ⟨hf, rfl, rfl⟩).symm
        rwa [this] at hmem
    · refine ⟨if name ∈ ["rm", "mkfifo", "mv"] then .otherOutput else .streamOutput, .inl ?_, by split <;> simp⟩
      rw [hol]
      exact List.mem_append_right _ (mem_files_file.2 ⟨rfl, hout ▸ h, hf⟩)

/-- C79. Every file that a plain command line creates, changes or removes is announced as an output, except the sources
of `mv` and the files that `awk` writes on request. -/
theorem C79_writes_announced_partial (name : String) (ws : List String) (fs : List FlagOption) (ops : List String)
    (hl : PlainLine name ws fs ops) (inv : CommandInvocationInitial) (c : CommandInvocationWithIO)
    (hp : parse (Shlex.join (name :: ws)) = .ok inv) (ht : Typed inv c) (f : String) (hf : f ≠ "-")
    (hmv : name = "mv" → f ∉ readOperands name fs ops)
    (hawk : name = "awk" → ¬ OneOf fs ["-d", "--dump-variables", "-o", "--pretty-print", "-p", "--profile"])
    (h : ManualWrites name fs ops f) : AnnouncedOutput c f := by
  rw [announcedOutput_iff hl hp ht]
  refine ⟨hf, ?_⟩
  rcases h with h | h | ⟨rfl, _, g, hg, h⟩ | ⟨rfl, _, g, hg, h⟩
  · exact .inl h
  · right
    unfold writtenOperands at h
    unfold rawOutputs
    split at h
    · next hn =>
        simp only [List.mem_cons, List.not_mem_nil, or_false] at hn
        rcases hn with rfl | rfl | rfl | rfl
        · simpa using h
        · simpa using h
        · simpa using h
        · have h' := hmv rfl
          simp only [readOperands] at h'
          simp at h' ⊢
          by_cases hg : OneOf fs ["-t", "--target-directory"]
          · simp only [hg, if_true] at h'; exact absurd h h'
          · simp only [hg, if_false] at h'
            refine ⟨hg, ?_⟩
            rcases List.eq_nil_or_concat ops with rfl | ⟨l, x, rfl⟩
            · simp at h
            · simp at h h' ⊢
              exact h.resolve_left h'
    · next hn =>
        simp only [List.mem_cons, List.not_mem_nil, or_false, not_or] at hn
        split at h
        · next hu => subst hu; simpa using h
        · split at h
          · next hs =>
              subst hs
              split at h
              · next hg =>
                  exfalso
                  obtain ⟨g, hg, h⟩ := hg
                  have key : ∀ w ∈ ["-i", "--in-place"], Exceptional "sed" w := by decide +kernel
                  exact (hl.known g hg).1 (key _ h)
              · simp at h
          · simp at h
  · exfalso; exact hawk rfl ⟨g, hg, by revert h; simp; rintro (h | h) <;> simp [h]⟩
  · exfalso; exact hawk rfl ⟨g, hg, by revert h; simp; rintro (h | h | h | h) <;> simp [h]⟩

/-- C79. Nothing else is announced as an output. -/
theorem C79_announced_written (name : String) (ws : List String) (fs : List FlagOption) (ops : List String)
    (hl : PlainLine name ws fs ops) (inv : CommandInvocationInitial) (c : CommandInvocationWithIO)
    (hp : parse (Shlex.join (name :: ws)) = .ok inv) (ht : Typed inv c) (f : String)
    (h : AnnouncedOutput c f) : ManualWrites name fs ops f := by
  rw [announcedOutput_iff hl hp ht] at h
  obtain ⟨_, h | h⟩ := h
  · exact .inl h
  · right; left
    unfold rawOutputs at h
    unfold writtenOperands
    split at h
    · next hn =>
        simp only [List.mem_cons, List.not_mem_nil, or_false] at hn
        rcases hn with rfl | rfl | rfl <;> simpa using h
    · split at h
      · next hu => subst hu; simpa using h
      · split at h
        · next hm =>
            subst hm
            split at h
            · simp at h
            · simpa using List.mem_of_mem_drop h
        · simp at h

/-- C79 is false for the sources of `mv`: they disappear, but are not announced as outputs. -/
theorem C79_mv_false (ws : List String) (fs : List FlagOption) (ops : List String) (hl : PlainLine "mv" ws fs ops)
    (inv : CommandInvocationInitial) (c : CommandInvocationWithIO)
    (hp : parse (Shlex.join ("mv" :: ws)) = .ok inv) (ht : Typed inv c) (f : String) (hf : f ∈ readOperands "mv" fs ops)
    (ht' : OneOf fs ["-t", "--target-directory"] → ∀ w, .option w f ∉ fs)
    (hlast : ¬ OneOf fs ["-t", "--target-directory"] → f ∉ ops.drop (ops.length - 1)) :
    ManualWrites "mv" fs ops f ∧ ¬ AnnouncedOutput c f := by
  refine ⟨.inr (.inl ?_), ?_⟩
  · simp only [readOperands] at hf
    simp only [writtenOperands]
    simp at hf ⊢
    split at hf
    · exact hf
    · exact (List.dropLast_sublist _).subset hf
  · rw [announcedOutput_iff hl hp ht]
    rintro ⟨_, ⟨w, hw, hin⟩ | h⟩
    · refine ht' ⟨_, hw, ?_⟩ w hw
      obtain ⟨p, hp, hn, hw⟩ := hin
      have key : ∀ p ∈ writeOptions, p.1 = "mv" → p.2 = ["-t", "--target-directory"] := by decide +kernel
      rw [key p hp hn] at hw
      exact hw
    · simp [rawOutputs] at h
      exact hlast h.1 h.2

/-- C79 is false for `sed` and `awk`, plainly written or not: they never announce an output file. So neither
`sed --in-place=SUFFIX`, read as an option, nor `awk --dump-variables` announces what it writes. -/
theorem C79_sed_awk_false (inv : CommandInvocationInitial) (c : CommandInvocationWithIO) (ht : Typed inv c)
    (hn : inv.cmdName ∈ ["sed", "awk"]) (f : String) : ¬ AnnouncedOutput c f := by
  rintro ⟨a, hm, ha⟩
  obtain ⟨_, ⟨hlen, hopt⟩, i, o, hr, hi, ho⟩ := C63_table inv c ht
  rcases hm with hm | ⟨n, hm⟩ | hm | hm
  · generalize c.operandList = ol at hr hm
    cases hr <;> simp_all [mem_files_file, not_mem_strings]
    all_goals grind
  · obtain ⟨d, hd⟩ := databaseFor_exists inv.cmdName
    obtain ⟨k, hk, hk'⟩ := List.getElem_of_mem hm
    have hk2 : k < inv.flagOptionList.length := by rw [← hlen]; exact hk
    obtain ⟨t, hcl, hc⟩ := hopt d hd k inv.flagOptionList[k] (by simp [hk2])
    rw [List.getElem?_eq_some_iff.2 ⟨hk, hk'⟩] at hc
    cases hfk : inv.flagOptionList[k] with
    | flag w => rw [hfk] at hc; cases hc
    | option w arg =>
        rw [hfk] at hc hcl
        cases hcl with
        | @option _ _ e _ hoe hcl =>
            have key : ∀ p ∈ Data.table, p.1 ∈ ["sed", "awk"] → ∀ e ∈ p.2.option, roleOf e.arg ≠ .write := by
              decide +kernel
            have hdt : (inv.cmdName, d) ∈ Data.table := by
              have hsl : ∀ n ∈ ["sed", "awk"], '/' ∉ n.toList := by decide +kernel
              rcases databaseFor_plain (hsl _ hn) hd with h | ⟨h, _⟩
              · exact h
              · have : ∀ n ∈ ["sed", "awk"], ∃ p ∈ Data.table, p.1 = n := by decide +kernel
                obtain ⟨⟨n, d'⟩, hp, rfl⟩ := this _ hn
                exact absurd hp (h d')
            have hne := key _ hdt hn e hoe.1
            obtain ⟨h1, h2, _⟩ := argClass_role hcl
            cases hro : roleOf e.arg with
            | text => rw [h1 hro] at hc; cases hc
            | read =>
                obtain ⟨a', rfl, ha'⟩ := h2 hro
                have hc : ArgWithIO.io (.file f a) = .io (fileOf a' arg) := by
                  have := Option.some.inj hc
                  simp only [typedFlagOption, typedArg, FlagOptionWithIO.option.injEq] at this
                  exact this.2
                obtain ⟨_, rfl, _⟩ := fileOf_file.1 (ArgWithIO.io.inj hc)
                exact ha' ha
            | write => exact hne hro
  · rcases hi with ⟨_, hi⟩ | ⟨_, hi⟩ <;> rw [hi] at hm <;> cases hm
  · rcases ho with ⟨_, ho⟩ | ⟨_, ho⟩ <;> rw [ho] at hm <;> cases hm

/-- C80. If a plain command line reads standard input according to the manual, this is announced, except for an `awk`
with assignments for operands. -/
theorem C80_stdin_announced_partial (name : String) (ws : List String) (fs : List FlagOption) (ops : List String)
    (hl : PlainLine name ws fs ops) (inv : CommandInvocationInitial) (c : CommandInvocationWithIO)
    (hp : parse (Shlex.join (name :: ws)) = .ok inv) (ht : Typed inv c)
    (hx : name = "awk" → ∀ o ∈ afterProgram name fs ops, '=' ∉ o.toList)
    (h : ManualReadsStdin name fs ops) : AnnouncedStdin c := by
  refine (plain_std (plain_typed hl hp ht) (manual_names hl)).1.2 ?_
  have hr : ∀ o, o ∈ readOperands name fs ops → o ∈ rawInputs name fs ops := by
    intro o ho
    unfold rawInputs
    split
    · next hn => subst hn; simp only [readOperands] at ho; simp at ho; exact ho.1
    · split
      · next hn => subst hn; simp [readOperands] at ho
      · exact ho
  rcases h with ⟨hn, rfl⟩ | ⟨hn, rfl, hg⟩ | ⟨hn, ho, _⟩ | hn | ⟨rfl, _⟩ | ⟨hn, _⟩ | ⟨w, hw⟩
  · simp only [List.mem_cons, List.not_mem_nil, or_false] at hn
    rcases hn with rfl | rfl | rfl | rfl | rfl <;> simp [rawStdin]
  · simp only [List.mem_cons, List.not_mem_nil, or_false] at hn
    rcases hn with rfl | rfl <;> simp [rawStdin, hg]
  · simp only [List.mem_cons, List.not_mem_nil, or_false] at hn
    rcases hn with rfl | rfl | rfl
    · left; right; right; left
      exact ⟨by simp, ho⟩
    · simp [rawStdin]
    · left; right; right; left
      refine ⟨by simp, ?_⟩
      have h' := hx rfl
      simp only [readOperands] at ho
      simp at ho
      rw [rawInputs, if_pos rfl, List.eq_nil_iff_forall_not_mem]
      exact fun o hm => h' o hm (ho o hm)
  · simp only [List.mem_cons, List.not_mem_nil, or_false] at hn
    rcases hn with rfl | rfl | rfl <;> simp [rawStdin]
  · simp [rawStdin]
  · exact .inr (.inl (hr _ hn))
  · exact .inr (.inr ⟨w, hw⟩)

/-- C80. Standard input is announced only if it is read, except for `sed` with files, `grep -r` without, and
`xargs -a`; a source of `mv` called `-` and the starting file of `diff` are also taken for it. -/
theorem C80_stdin_read_partial (name : String) (ws : List String) (fs : List FlagOption) (ops : List String)
    (hl : PlainLine name ws fs ops) (inv : CommandInvocationInitial) (c : CommandInvocationWithIO)
    (hp : parse (Shlex.join (name :: ws)) = .ok inv) (ht : Typed inv c)
    (hx : name ∉ ["sed", "mv"] ∧ ¬ (name = "xargs" ∧ OneOf fs ["-a", "--arg-file"]) ∧
      ¬ (name = "grep" ∧ OneOf fs ["-r", "--recursive", "-R", "--dereference-recursive"]) ∧
      ¬ (name = "diff" ∧ OneOf fs ["-S", "--starting-file"]))
    (h : AnnouncedStdin c) : ManualReadsStdin name fs ops := by
  have hpt := plain_typed hl hp ht
  have hwc := (plain_streams hpt (manual_names hl)).2.2
  obtain ⟨h1, h2, h3, h4⟩ := hx
  rcases (plain_std hpt (manual_names hl)).1.1 h with h | h | ⟨w, hw, h | ⟨rfl, h⟩⟩
  · rcases h with ⟨hn, rfl⟩ | ⟨rfl, rfl, hg⟩ | ⟨hn, ho⟩ | hn
    · simp only [List.mem_cons, List.not_mem_nil, or_false] at hn
      rcases hn with rfl | rfl | rfl | rfl | rfl | rfl
      · simp [ManualReadsStdin]
      · simp [ManualReadsStdin]
      · simp [ManualReadsStdin]
      · simp [ManualReadsStdin]
      · simp [ManualReadsStdin]
      · exact .inr (.inl ⟨by simp, rfl, hwc rfl⟩)
    · exact .inr (.inl ⟨by simp, rfl, hg⟩)
    · refine .inr (.inr (.inl ?_))
      simp only [List.mem_cons, List.not_mem_nil, or_false] at hn
      rcases hn with rfl | rfl
      · exact ⟨by simp, ho, h3⟩
      · refine ⟨by simp, ?_, by simp⟩
        rw [rawInputs, if_pos rfl] at ho
        simp [readOperands, ho]
    · simp only [List.mem_cons, List.not_mem_nil, or_false] at hn
      rcases hn with rfl | rfl | rfl | rfl | rfl
      · simp at h1
      · simp [ManualReadsStdin]
      · simp [ManualReadsStdin]
      · simp [ManualReadsStdin]
      · exact .inr (.inr (.inr (.inr (.inl ⟨rfl, fun hg => h2 ⟨rfl, hg⟩⟩))))
  · unfold rawInputs at h
    split at h
    · next hn =>
        subst hn
        refine .inr (.inr (.inr (.inr (.inr (.inl ⟨?_, by decide⟩)))))
        simp only [readOperands]
        simp
        exact h
    · split at h
      · next hn => subst hn; simp [ManualReadsStdin]
      · exact .inr (.inr (.inr (.inr (.inr (.inl ⟨h, fun hn => h1 (by simp [hn])⟩)))))
  · exact .inr (.inr (.inr (.inr (.inr (.inr ⟨w, hw, h⟩)))))
  · exact absurd ⟨_, hw, h⟩ fun h => h4 ⟨rfl, h⟩

/-- C81. If a plain command line writes to standard output according to the manual, this is announced, except for what
`mv` and `rm` say with `--verbose` and for help texts. -/
theorem C81_stdout_announced_partial (name : String) (ws : List String) (fs : List FlagOption) (ops : List String)
    (hl : PlainLine name ws fs ops) (inv : CommandInvocationInitial) (c : CommandInvocationWithIO)
    (hp : parse (Shlex.join (name :: ws)) = .ok inv) (ht : Typed inv c)
    (hx : ¬ (name ∈ ["mv", "rm"] ∧ OneOf fs ["-v", "--verbose"]) ∧ ¬ OneOf fs ["--help", "--version"])
    (h : ManualWritesStdout name fs ops) : AnnouncedStdout c := by
  refine (plain_std (plain_typed hl hp ht) (manual_names hl)).2.2 (.inl ?_)
  rcases h with h | h | h | h | h | h
  · exact .inl h
  · exact .inr (.inl h)
  · exact .inr (.inr (.inl h))
  · exact .inr (.inr (.inr h))
  · exact absurd h hx.1
  · exact absurd h hx.2

/-- C81. Standard output is announced only if it is written, unless an output is called `-`, which the programs take for
a file of that name. -/
theorem C81_stdout_written_partial (name : String) (ws : List String) (fs : List FlagOption) (ops : List String)
    (hl : PlainLine name ws fs ops) (inv : CommandInvocationInitial) (c : CommandInvocationWithIO)
    (hp : parse (Shlex.join (name :: ws)) = .ok inv) (ht : Typed inv c) (hx : ¬ ManualWrites name fs ops "-")
    (h : AnnouncedStdout c) : ManualWritesStdout name fs ops := by
  rcases (plain_std (plain_typed hl hp ht) (manual_names hl)).2.1 h with h | h | h
  · rcases h with h | h | h | h
    · exact .inl h
    · exact .inr (.inl h)
    · exact .inr (.inr (.inl h))
    · exact .inr (.inr (.inr (.inl h)))
  · refine absurd (.inr (.inl ?_)) hx
    unfold rawOutputs at h
    unfold writtenOperands
    split at h
    · next hn =>
        simp only [List.mem_cons, List.not_mem_nil, or_false] at hn
        rcases hn with rfl | rfl | rfl <;> simpa using h
    · split at h
      · next hu => subst hu; simpa using h
      · split at h
        · next hm =>
            subst hm
            split at h
            · simp at h
            · simpa using List.mem_of_mem_drop h
        · simp at h
  · exact absurd (.inl h) hx

/-! The exceptions are real. -/

/-- C78 is false for assignments of `awk`: each is announced as an input file. -/
theorem C78_assignment_false (ws : List String) (fs : List FlagOption) (ops : List String)
    (hl : PlainLine "awk" ws fs ops) (inv : CommandInvocationInitial) (c : CommandInvocationWithIO)
    (hp : parse (Shlex.join ("awk" :: ws)) = .ok inv) (ht : Typed inv c) (f : String)
    (hf : f ∈ afterProgram "awk" fs ops) (he : '=' ∈ f.toList) (hno : ∀ w, .option w f ∉ fs) :
    AnnouncedInput c f ∧ ¬ ManualReads "awk" fs ops f := by
  have hpt := plain_typed hl hp ht
  obtain ⟨tx, _, out, hol, rfl, _⟩ := plain_operands hpt (manual_names hl)
  constructor
  · refine ⟨.streamInput, .inl ?_, by simp⟩
    rw [hol]
    refine List.mem_append_left _ (List.mem_append_right _ (mem_files_file.2 ⟨by simp, ?_, ?_⟩))
    · simpa [rawInputs] using hf
    · rintro rfl; revert he; decide +kernel
  · rintro (⟨w, hw, _⟩ | h)
    · exact hno w hw
    · simp only [readOperands] at h
      simp at h
      exact h.2 he

/-- C79 is false for a file called `-`: it is announced as standard output. -/
theorem C79_dash_false (name : String) (ws : List String) (fs : List FlagOption) (ops : List String)
    (hl : PlainLine name ws fs ops) (hn : name ∈ ["tee", "rm", "mkfifo"]) (inv : CommandInvocationInitial)
    (c : CommandInvocationWithIO) (hp : parse (Shlex.join (name :: ws)) = .ok inv) (ht : Typed inv c) (ho : "-" ∈ ops) :
    ManualWrites name fs ops "-" ∧ ¬ AnnouncedOutput c "-" ∧ AnnouncedStdout c := by
  refine ⟨.inr (.inl ?_), fun h => ((announcedOutput_iff hl hp ht _).1 h).1 rfl,
    (plain_std (plain_typed hl hp ht) (manual_names hl)).2.2 (.inr (.inl ?_))⟩
  · simp only [List.mem_cons, List.not_mem_nil, or_false] at hn
    rcases hn with rfl | rfl | rfl <;> simpa [writtenOperands] using ho
  · simp [rawOutputs, hn, ho]

/-- C80 is false for an `awk` that has only assignments for operands: it reads standard input, and this is not
announced. -/
theorem C80_assignment_false (ws : List String) (fs : List FlagOption) (ops : List String)
    (hl : PlainLine "awk" ws fs ops) (inv : CommandInvocationInitial) (c : CommandInvocationWithIO)
    (hp : parse (Shlex.join ("awk" :: ws)) = .ok inv) (ht : Typed inv c)
    (hne : afterProgram "awk" fs ops ≠ []) (he : ∀ o ∈ afterProgram "awk" fs ops, '=' ∈ o.toList)
    (hno : ∀ w, .option w "-" ∉ fs) : ManualReadsStdin "awk" fs ops ∧ ¬ AnnouncedStdin c := by
  constructor
  · refine .inr (.inr (.inl ⟨by simp, ?_, by simp⟩))
    simp only [readOperands]
    simp
    exact he
  · intro h
    rcases (plain_std (plain_typed hl hp ht) (manual_names hl)).1.1 h with h | h | ⟨w, hw, _⟩
    · simp [rawStdin, rawInputs] at h
      exact hne h
    · have := he "-" (by simpa [rawInputs] using h)
      revert this; decide +kernel
    · exact hno w hw

/-- C80 is false for `xargs -a` and for `grep -r` without files: standard input is announced all the same. -/
theorem C80_unread_false (name : String) (ws : List String) (fs : List FlagOption) (ops : List String)
    (hl : PlainLine name ws fs ops) (inv : CommandInvocationInitial) (c : CommandInvocationWithIO)
    (hp : parse (Shlex.join (name :: ws)) = .ok inv) (ht : Typed inv c) (hno : ∀ w, .option w "-" ∉ fs)
    (h : name = "xargs" ∧ OneOf fs ["-a", "--arg-file"] ∨
      name = "grep" ∧ afterProgram name fs ops = [] ∧
        OneOf fs ["-r", "--recursive", "-R", "--dereference-recursive"]) :
    AnnouncedStdin c ∧ ¬ ManualReadsStdin name fs ops := by
  constructor
  · refine (plain_std (plain_typed hl hp ht) (manual_names hl)).1.2 (.inl ?_)
    rcases h with ⟨rfl, _⟩ | ⟨rfl, h, _⟩
    · simp [rawStdin]
    · simp [rawStdin, rawInputs, readOperands, h]
  · rcases h with ⟨rfl, hg⟩ | ⟨rfl, h, hg⟩
    · simp [ManualReadsStdin, readOperands, hg, hno]
    · simp [ManualReadsStdin, readOperands, h, hg, hno]

/-- C81 is false for `mv` and `rm` with `--verbose`. -/
theorem C81_verbose_false (name : String) (ws : List String) (fs : List FlagOption) (ops : List String)
    (hl : PlainLine name ws fs ops) (inv : CommandInvocationInitial) (c : CommandInvocationWithIO)
    (hp : parse (Shlex.join (name :: ws)) = .ok inv) (ht : Typed inv c) (hn : name ∈ ["mv", "rm"])
    (hv : OneOf fs ["-v", "--verbose"]) (hno : "-" ∉ ops ∧ ∀ w, .option w "-" ∉ fs) :
    ManualWritesStdout name fs ops ∧ ¬ AnnouncedStdout c := by
  refine ⟨.inr (.inr (.inr (.inr (.inl ⟨hn, hv⟩)))), fun h => ?_⟩
  rcases (plain_std (plain_typed hl hp ht) (manual_names hl)).2.1 h with h | h | ⟨w, hw, _⟩
  · simp only [List.mem_cons, List.not_mem_nil, or_false] at hn
    rcases hn with rfl | rfl <;> simp [rawStdout] at h
  · simp only [List.mem_cons, List.not_mem_nil, or_false] at hn
    rcases hn with rfl | rfl
    · simp [rawOutputs] at h
      exact hno.1 (List.mem_of_mem_drop h.2)
    · simp [rawOutputs] at h
      exact hno.1 h
  · exact hno.2 w hw

/-! Plain lines that meet the hypotheses. -/

/-- A plain line of the form options, operands. -/
theorem plainLine_of {name : String} {page : List ManualEntry} {ws : List String} {fs : List FlagOption}
    {ops : List String} (hm : manuals.lookup name = some page) (h : ReadByManual page ws fs ops)
    (hk : ∀ f ∈ fs, ¬ Exceptional name f.getName ∧ ¬ (name = "grep" ∧ f.getName = "--regexp")) (hu : name ≠ "uniq") :
    PlainLine name ws fs ops := ⟨⟨page, lookup_mem hm, h⟩, hk, fun h => absurd h hu⟩

/-- `grep -i -f patterns a -` reads `patterns`, `a` and standard input, and this is announced. -/
example : ∃ inv c, PlainLine "grep" ["-i", "-f", "patterns", "a", "-"] [.flag "-i", .option "-f" "patterns"] ["a", "-"] ∧
    parse (Shlex.join ["grep", "-i", "-f", "patterns", "a", "-"]) = .ok inv ∧ Typed inv c ∧
    ManualReads "grep" [.flag "-i", .option "-f" "patterns"] ["a", "-"] "patterns" ∧
    ManualReads "grep" [.flag "-i", .option "-f" "patterns"] ["a", "-"] "a" ∧
    ManualReadsStdin "grep" [.flag "-i", .option "-f" "patterns"] ["a", "-"] := by
  refine ⟨⟨"grep", [.flag "-i", .option "-f" "patterns"], ["a", "-"]⟩, ⟨"grep", [.flag "-i", .option "-f"
    (.io (.file "patterns" .configInput))], [.io (.file "a" .streamInput), .io (.std .stdin .streamInput)], none,
    some stdoutStream⟩, ?_, by decide +kernel, ⟨⟨[.plainString, .fileStd .configInput], [inT, inT], none,
    some stdoutStream⟩, by decide +kernel, by decide +kernel⟩, .inl ⟨"-f", by simp, by decide +kernel⟩,
    .inr (by decide +kernel), .inr (.inr (.inr (.inr (.inr (.inl ⟨by decide +kernel, by decide⟩)))))⟩
  refine plainLine_of (page := (manuals.lookup "grep").getD []) (by decide +kernel) (.flag (a := .none) ?_ (by simp)
    (.option ?_ (.operands ?_))) (by decide +kernel) (by decide)
  · unfold Lists; decide +kernel
  · unfold Lists; decide +kernel
  · unfold OperandWord; decide +kernel

/-- `mv -v a b` removes `a`, writes `b` and says so; only `b` is announced. -/
example : ∃ inv c, PlainLine "mv" ["-v", "a", "b"] [.flag "-v"] ["a", "b"] ∧
    parse (Shlex.join ["mv", "-v", "a", "b"]) = .ok inv ∧ Typed inv c ∧
    ManualWrites "mv" [.flag "-v"] ["a", "b"] "b" ∧ "b" ∉ readOperands "mv" [.flag "-v"] ["a", "b"] ∧
    "a" ∈ readOperands "mv" [.flag "-v"] ["a", "b"] ∧ OneOf [.flag "-v"] ["-v", "--verbose"] := by
  refine ⟨⟨"mv", [.flag "-v"], ["a", "b"]⟩, ⟨"mv", [.flag "-v"], [.io (.file "a" .otherInput),
    .io (.file "b" .otherOutput)], none, none⟩, ?_, by decide +kernel, ⟨⟨[.plainString],
    [.fileStd .otherInput, .fileStd .otherOutput], none, none⟩, by decide +kernel, by decide +kernel⟩,
    .inr (.inl (by decide +kernel)), by decide +kernel, by decide +kernel, by decide +kernel⟩
  refine plainLine_of (page := (manuals.lookup "mv").getD []) (by decide +kernel) (.flag (a := .none) ?_ (by simp)
    (.operands ?_)) (by decide +kernel) (by decide)
  · unfold Lists; decide +kernel
  · unfold OperandWord; decide +kernel

/-- `awk p x=1` reads standard input, and `x=1` is announced instead. -/
example : ∃ inv c, PlainLine "awk" ["p", "x=1"] [] ["p", "x=1"] ∧
    parse (Shlex.join ["awk", "p", "x=1"]) = .ok inv ∧ Typed inv c ∧ "x=1" ∈ afterProgram "awk" [] ["p", "x=1"] ∧
    ∀ o ∈ afterProgram "awk" [] ["p", "x=1"], '=' ∈ o.toList := by
  refine ⟨⟨"awk", [], ["p", "x=1"]⟩, ⟨"awk", [], [.argString "p", .io (.file "x=1" .streamInput)], none,
    some stdoutStream⟩, ?_, by decide +kernel, ⟨⟨[], [.argString, inT], none, some stdoutStream⟩, by decide +kernel,
    by decide +kernel⟩, by decide +kernel, by decide +kernel⟩
  refine plainLine_of (page := (manuals.lookup "awk").getD []) (by decide +kernel) (.operands ?_) (by decide +kernel)
    (by decide)
  unfold OperandWord; decide +kernel

/-- `rm -` removes a file. -/
example : ∃ inv c, PlainLine "rm" ["-"] [] ["-"] ∧ parse (Shlex.join ["rm", "-"]) = .ok inv ∧ Typed inv c := by
  refine ⟨⟨"rm", [], ["-"]⟩, ⟨"rm", [], [.io (.std .stdout .otherOutput)], none, none⟩, ?_, by decide +kernel,
    ⟨⟨[], [.fileStd .otherOutput], none, none⟩, by decide +kernel, by decide +kernel⟩⟩
  refine plainLine_of (page := (manuals.lookup "rm").getD []) (by decide +kernel) (.operands ?_) (by decide +kernel)
    (by decide)
  unfold OperandWord; decide +kernel

/-- `xargs -a list echo` reads `list`. -/
example : ∃ inv c, PlainLine "xargs" ["-a", "list", "echo"] [.option "-a" "list"] ["echo"] ∧
    parse (Shlex.join ["xargs", "-a", "list", "echo"]) = .ok inv ∧ Typed inv c ∧
    OneOf [.option "-a" "list"] ["-a", "--arg-file"] := by
  refine ⟨⟨"xargs", [.option "-a" "list"], ["echo"]⟩, ⟨"xargs", [.option "-a" (.io (.file "list" .otherInput))],
    [.argString "echo"], some stdinStream, some stdoutStream⟩, ?_, by decide +kernel,
    ⟨⟨[.fileStd .otherInput], [.argString], some stdinStream, some stdoutStream⟩, by decide +kernel, by decide +kernel⟩,
    by decide +kernel⟩
  refine plainLine_of (page := (manuals.lookup "xargs").getD []) (by decide +kernel) (.option ?_ (.operands ?_))
    (by decide +kernel) (by decide)
  · unfold Lists; decide +kernel
  · unfold OperandWord; decide +kernel

/-- `awk -d p` writes `awkvars.out`. -/
example : ∃ inv c, parse "awk -d p" = .ok inv ∧ Typed inv c ∧ inv.cmdName ∈ ["sed", "awk"] ∧
    ManualWrites "awk" [.flag "-d"] ["p"] "awkvars.out" :=
  ⟨⟨"awk", [.flag "-d"], ["p"]⟩, ⟨"awk", [.flag "-d"], [.argString "p"], some stdinStream, some stdoutStream⟩,
    by decide +kernel, ⟨⟨[.plainString], [.argString], some stdinStream, some stdoutStream⟩, by decide +kernel,
    by decide +kernel⟩, by decide, .inr (.inr (.inl ⟨rfl, rfl, by decide +kernel⟩))⟩

end PashAnn
