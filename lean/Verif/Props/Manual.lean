import Verif.Lemmas.Manual
import Verif.Props.IOTable

/-! C77: how plainly written command lines are read, compared with the manuals. -/

namespace PashAnn
open Spec

/-- C77. A plainly written command line whose options are not among the exceptions is read as the manual says: the same
flags and options in the same order, with the same arguments, up to spellings of the same option, and the same
operands. (The words `-`, `f`, `s` and `w` are not operands for `uniq`, see C10.) -/
theorem C77_plain_lines_partial (name : String) (page : List ManualEntry) (hm : (name, page) ∈ manuals)
    (ws : List String) (fs : List FlagOption) (ops : List String) (h : ReadByManual page ws fs ops)
    (hx : ∀ f ∈ fs, ¬ Exceptional name f.getName)
    (hu : name = "uniq" → ∀ w ∈ ops.head?, w ∉ ["-", "f", "s", "w"]) :
    ∃ fs', parse (Shlex.join (name :: ws)) = .ok ⟨name, fs', ops⟩ ∧ SameOptions page fs fs' := by
  obtain ⟨_, d, hd, hrow⟩ := manual_database hm
  refine ⟨fs.map (canonOf d), plain_parse hm h hx hu hd, ?_⟩
  have hl := readByManual_listed h
  clear h hu
  induction fs with
  | nil => exact .nil
  | cons f fs ih =>
      refine .cons ?_ (ih (fun g hg => hx g (List.mem_cons_of_mem _ hg)) fun g hg => hl g (List.mem_cons_of_mem _ hg))
      have hne := hx f List.mem_cons_self
      rcases hl f List.mem_cons_self with ⟨w, a, rfl, ha, e, he, hw⟩ | ⟨w, a, rfl, e, he, hw⟩
      · replace hne : ¬ Exceptional name w := hne
        have hr := (hrow e he _ hw).1
        simp only [Exceptional, not_or] at hne
        simp only [manualRow, hne.1, hne.2.1, hne.2.2.1, hne.2.2.2, if_false, if_neg ha, Bool.and_eq_true,
          decide_eq_true_eq, false_or] at hr
        obtain ⟨x, hx1, hx2⟩ := List.mem_map.1 hr.2.2
        exact ⟨e, he, ⟨a, hw⟩, x.2, by rw [← hx2]; exact hx1⟩
      · replace hne : ¬ Exceptional name w := hne
        have hr := (hrow e he _ hw).1
        simp only [Exceptional, not_or] at hne
        simp only [manualRow, hne.1, hne.2.1, hne.2.2.1, hne.2.2.2, if_false, if_true, Bool.and_eq_true,
          decide_eq_true_eq, false_or] at hr
        obtain ⟨x, hx1, hx2⟩ := List.mem_map.1 hr.2.2
        exact ⟨⟨e, he, ⟨_, hw⟩, x.2, by rw [← hx2]; exact hx1⟩, rfl⟩

example : ReadByManual ((manuals.lookup "sort").getD []) ["--reverse", "-k", "2", "f", "-"]
      [.flag "--reverse", .option "-k" "2"] ["f", "-"] ∧
    (∀ f ∈ [FlagOption.flag "--reverse", .option "-k" "2"], ¬ Exceptional "sort" f.getName) ∧
    ("sort", (manuals.lookup "sort").getD []) ∈ manuals ∧
    parse "sort --reverse -k 2 f -" = .ok ⟨"sort", [.flag "-r", .option "-k" "2"], ["f", "-"]⟩ := by
  refine ⟨.flag (a := .none) ?_ (by simp) (.option ?_ (.operands ?_)), by decide +kernel, by decide +kernel, by decide +kernel⟩
  · unfold Lists; decide +kernel
  · unfold Lists; decide +kernel
  · unfold OperandWord; decide +kernel

/-- C77. Two spellings of one option are interchangeable, except for those that are exceptions or read apart. -/
theorem C77_synonyms_partial (name : String) (page : List ManualEntry) (hm : (name, page) ∈ manuals)
    (w w' : String) (h : ManualSynonyms page w w')
    (hx : ¬ Exceptional name w ∧ ¬ Exceptional name w') (ha : ¬ InList apart name w ∧ ¬ InList apart name w')
    (pre post : List String) (arg : String) (hpre : FlagsOnly name pre) :
    parse (Shlex.join (name :: (pre ++ w :: arg :: post))) = parse (Shlex.join (name :: (pre ++ w' :: arg :: post))) := by
  obtain ⟨_, d, hd, _⟩ := manual_database hm
  obtain ⟨hp, fs, hfs⟩ := hpre.loop hd
  obtain ⟨e, he, ⟨a, hw⟩, a', hw'⟩ := h
  have hs := ((manual_row hm hd) e he _ hw).2 _ hw'
  simp only [synonymRow, hx.1, hx.2, ha.1, ha.2, false_or, decide_eq_true_eq] at hs
  have hsh := databaseFor_shipped hd
  rcases hs with ⟨h1, h2, h3⟩ | ⟨h1, h2, h3, h4, h5⟩
  · rw [parse_join hp hd, parse_join hp hd, parseLoop_append hsh hfs, parseLoop_append hsh hfs,
      parseLoop_flag d w _ (shipped_flag_nonempty hsh h1) h1, parseLoop_flag d w' _ (shipped_flag_nonempty hsh h2) h2, h3]
  · rw [parse_join hp hd, parse_join hp hd, parseLoop_append hsh hfs, parseLoop_append hsh hfs,
      parseLoop_option d w arg post (shipped_option_nonempty hsh h3) h1 h3,
      parseLoop_option d w' arg post (shipped_option_nonempty hsh h4) h2 h4, h5]

example : ManualSynonyms ((manuals.lookup "cut").getD []) "--delimiter" "-d" ∧
    (¬ Exceptional "cut" "--delimiter" ∧ ¬ Exceptional "cut" "-d") ∧
    (¬ InList apart "cut" "--delimiter" ∧ ¬ InList apart "cut" "-d") ∧ FlagsOnly "cut" ["-s"] := by
  refine ⟨?_, by decide +kernel, by decide +kernel, ⟨⟨"cut", [.flag "-s"], []⟩, by decide +kernel, rfl⟩⟩
  refine ⟨taking ["-d", "--delimiter"], ?_, ⟨.nextWord, ?_⟩, .nextWord, ?_⟩ <;> decide +kernel

/-- The exceptions are spellings of the manuals. -/
theorem exception_listed : ∀ l ∈ [swallowing, leaving, unknown], ∀ p ∈ l, ∀ w ∈ p.2,
    ∃ q ∈ manuals, q.1 = p.1 ∧ ∃ e ∈ q.2, ∃ x ∈ e, x.1 = w := by decide +kernel

/-- No spelling is an exception in two ways. -/
theorem exceptions_disjoint : (∀ p ∈ swallowing, ∀ w ∈ p.2, ¬ InList unknown p.1 w ∧ ¬ InList leaving p.1 w) ∧
    ∀ p ∈ leaving, ∀ w ∈ p.2, ¬ InList unknown p.1 w := by decide +kernel

/-- C77 is false for the first kind of exception: the next word, whatever it is, is taken as an argument, although the
manual says that it is not one. -/
theorem C77_swallowing_false (name w : String) (h : InList swallowing name w) (pre post : List String) (arg : String)
    (hpre : FlagsOnly name pre) :
    (∃ page a, (name, page) ∈ manuals ∧ Lists page w a ∧ a ≠ .nextWord) ∧
    ∃ fs p rest ops, parse (Shlex.join (name :: pre)) = .ok ⟨name, fs, []⟩ ∧
      parse (Shlex.join (name :: post)) = .ok ⟨name, rest, ops⟩ ∧
      parse (Shlex.join (name :: (pre ++ w :: arg :: post))) = .ok ⟨name, fs ++ .option p arg :: rest, ops⟩ := by
  obtain ⟨p, hp1, rfl, hp2⟩ := h
  obtain ⟨⟨_, page⟩, hm, rfl, e, he, ⟨w, a⟩, hw, rfl⟩ := exception_listed swallowing (by simp) p hp1 w hp2
  obtain ⟨_, d, hd, _⟩ := manual_database hm
  obtain ⟨hp, fs, hfs⟩ := hpre.loop hd
  have hr := ((manual_row hm hd) e he _ hw).1
  have hsh := databaseFor_shipped hd
  obtain ⟨hd1, hd2⟩ := exceptions_disjoint.1 p hp1 _ hp2
  have hin : InList swallowing p.1 w := ⟨p, hp1, rfl, hp2⟩
  simp only [manualRow, hd1, hd2, hin, if_false, if_true, Bool.and_eq_true, decide_eq_true_eq] at hr
  refine ⟨⟨page, a, hm, ⟨e, he, hw⟩, hr.2.1.1⟩, fs, primaryOption d w, (parseLoop d post).1, (parseLoop d post).2,
    by rw [parse_join hp hd, hfs], by rw [parse_join hp hd], ?_⟩
  rw [parse_join hp hd, parseLoop_append hsh hfs, parseLoop_option d w arg post hr.1 hr.2.1.2 hr.2.2]

/-- C77 is false for the second kind: the argument, whatever it is, is read as if it were not one. -/
theorem C77_leaving_false (name w : String) (h : InList leaving name w) (pre post : List String) (arg : String)
    (hpre : FlagsOnly name pre) :
    (∃ page, (name, page) ∈ manuals ∧ Lists page w .nextWord) ∧
    ∃ fs p rest ops, parse (Shlex.join (name :: pre)) = .ok ⟨name, fs, []⟩ ∧
      parse (Shlex.join (name :: arg :: post)) = .ok ⟨name, rest, ops⟩ ∧
      parse (Shlex.join (name :: (pre ++ w :: arg :: post))) = .ok ⟨name, fs ++ .flag p :: rest, ops⟩ := by
  obtain ⟨p, hp1, rfl, hp2⟩ := h
  obtain ⟨⟨_, page⟩, hm, rfl, e, he, ⟨w, a⟩, hw, rfl⟩ := exception_listed leaving (by simp) p hp1 w hp2
  obtain ⟨_, d, hd, _⟩ := manual_database hm
  obtain ⟨hp, fs, hfs⟩ := hpre.loop hd
  have hr := ((manual_row hm hd) e he _ hw).1
  have hsh := databaseFor_shipped hd
  have hd1 := exceptions_disjoint.2 p hp1 _ hp2
  have hin : InList leaving p.1 w := ⟨p, hp1, rfl, hp2⟩
  simp only [manualRow, hd1, hin, if_false, if_true, Bool.and_eq_true, decide_eq_true_eq] at hr
  refine ⟨⟨page, hm, e, he, hr.2.1 ▸ hw⟩, fs, primaryFlag d w, (parseLoop d (arg :: post)).1,
    (parseLoop d (arg :: post)).2, by rw [parse_join hp hd, hfs], by rw [parse_join hp hd], ?_⟩
  rw [parse_join hp hd, parseLoop_append hsh hfs, parseLoop_flag d w _ hr.1 hr.2.2]

/-- C77 is false for the third kind: the option and everything after it become operands. -/
theorem C77_unknown_false (name w : String) (h : InList unknown name w) (pre post : List String)
    (hpre : FlagsOnly name pre) :
    (∃ page a, (name, page) ∈ manuals ∧ Lists page w a) ∧
    ∃ fs, parse (Shlex.join (name :: pre)) = .ok ⟨name, fs, []⟩ ∧
      parse (Shlex.join (name :: (pre ++ w :: post))) = .ok ⟨name, fs, w :: post⟩ := by
  obtain ⟨p, hp1, rfl, hp2⟩ := h
  obtain ⟨⟨_, page⟩, hm, rfl, e, he, ⟨w, a⟩, hw, rfl⟩ := exception_listed unknown (by simp) p hp1 w hp2
  obtain ⟨_, d, hd, _⟩ := manual_database hm
  obtain ⟨hp, fs, hfs⟩ := hpre.loop hd
  have hr := ((manual_row hm hd) e he _ hw).1
  have hsh := databaseFor_shipped hd
  have hin : InList unknown p.1 w := ⟨p, hp1, rfl, hp2⟩
  rw [manualRow, if_pos hin] at hr
  simp only [Bool.and_eq_true, decide_eq_true_eq] at hr
  refine ⟨⟨page, a, hm, e, he, hw⟩, fs, by rw [parse_join hp hd, hfs], ?_⟩
  obtain ⟨hne, ⟨hf, ho⟩, hc⟩ := hr
  have hs : StartsOperands d w post := by
    refine .inr ⟨hf, fun h => ho h.1, fun l hl => ?_⟩
    obtain ⟨c, cs, hcs⟩ := exists_cons hne
    rw [hcs] at hc
    have hl1 := hl.1
    rw [hcs] at hl1
    obtain ⟨rfl, rfl⟩ := List.cons.inj hl1
    have := (clusterOf_iff d w '-' cs hcs).2 hl
    simp [this] at hc
  rw [parse_join hp hd, parseLoop_append hsh hfs, parseLoop_operands d w post hs, List.append_nil]

example : InList swallowing "grep" "--color" ∧ InList leaving "tail" "-n" ∧ InList unknown "awk" "-v" ∧
    FlagsOnly "grep" ["-i"] ∧ FlagsOnly "tail" [] ∧ FlagsOnly "awk" [] := by
  refine ⟨by decide +kernel, by decide +kernel, by decide +kernel, ⟨⟨"grep", [.flag "-i"], []⟩, ?_, rfl⟩,
    ⟨⟨"tail", [], []⟩, ?_, rfl⟩, ⟨⟨"awk", [], []⟩, ?_, rfl⟩⟩ <;> decide +kernel

/-- What is said about an invocation in the table. -/
theorem typed_of_reads {s : String} {inv : CommandInvocationInitial} {ops : List ArgWithIO} {i o : Prop}
    (hp : parse s = .ok inv) (h : Reads inv ops i o) : ∃ c, Typed inv c ∧ c.operandList = ops ∧
      (i → c.implicitInput = some stdinStream) ∧ (o → c.implicitOutput = some stdoutStream) := by
  obtain ⟨c, hc⟩ := (C63_complete inv (parse_optionsKnown hp).2).2 ⟨ops, i, o, h⟩
  obtain ⟨_, _, i', o', hr, h1, h2⟩ := C63_table inv c hc
  obtain ⟨rfl, rfl, rfl⟩ := C63_unambiguous inv _ _ _ _ _ _ h hr
  exact ⟨c, hc, rfl, fun hi => (h1.resolve_right fun h => h.1 hi).2, fun ho => (h2.resolve_right fun h => h.1 ho).2⟩

/-- What comes of it: `grep --color PATTERN FILE` and `grep --regexp PATTERN FILE` search standard input for FILE. -/
theorem C77_grep_false (w pat file : String) (hw : w ∈ ["--color", "--colour", "--regexp"])
    (hf : file.toList.head? ≠ some '-') :
    ∃ inv c, parse (Shlex.join ["grep", w, pat, file]) = .ok inv ∧ Typed inv c ∧
      c.operandList = [.argString file] ∧ c.implicitInput = some stdinStream := by
  obtain ⟨d, hd⟩ := databaseFor_exists "grep"
  have hs := startsOperands_of_head hd (rest := []) hf (.inl (by decide +kernel))
  have hrow : ∀ w ∈ ["--color", "--colour", "--regexp"], ∀ p ∈ Data.table, p.1 = "grep" →
      w ≠ "" ∧ ¬ Declared (flagGroups p.2) w ∧ Declared (optionGroups p.2) w ∧ primaryOption p.2 w ≠ "-e" ∧
      primaryOption p.2 w ≠ "-f" := by decide +kernel
  have hd' : ("grep", d) ∈ Data.table := by
    rcases databaseFor_plain (by decide +kernel) hd with h | ⟨h, _⟩
    · exact h
    · have : ∃ p ∈ Data.table, p.1 = "grep" := by decide +kernel
      obtain ⟨⟨_, d'⟩, hp, rfl⟩ := this
      exact absurd hp (h d')
  obtain ⟨h1, h2, h3, h4, h5⟩ := hrow w hw _ hd' rfl
  have hp : parse (Shlex.join ["grep", w, pat, file]) = .ok ⟨"grep", [.option (primaryOption d w) pat], [file]⟩ := by
    rw [parse_join (by decide +kernel) hd, parseLoop_option d w pat _ h1 h2 h3, parseLoop_operands d file [] hs]
  have hne : ∀ n, n ≠ primaryOption d w → ¬ Has ⟨"grep", [.option (primaryOption d w) pat], [file]⟩ n := by
    intro n hn hh
    simp [Has] at hh
    exact hn hh
  obtain ⟨c, hc, ho, hi, _⟩ := typed_of_reads hp (.grepOperand rfl
    (fun h => h.elim (hne _ (Ne.symm h4)) (hne _ (Ne.symm h5))) rfl)
  exact ⟨_, c, hp, hc, ho, hi rfl⟩

example : ("my file".toList.head? ≠ some '-') ∧
    parse "grep --color pat 'my file'" = .ok ⟨"grep", [.option "--color" "pat"], ["my file"]⟩ := by decide +kernel

/-- `uniq --group FILE` and `uniq --all-repeated FILE` are said to read standard input instead of FILE. -/
theorem C77_uniq_false (w file : String) (hw : w ∈ ["--group", "--all-repeated"]) :
    ∃ inv c, parse (Shlex.join ["uniq", w, file]) = .ok inv ∧ Typed inv c ∧ c.operandList = [] ∧
      c.implicitInput = some stdinStream := by
  obtain ⟨_, fs, p, rest, ops, h1, h2, h3⟩ := C77_swallowing_false "uniq" w
    (by revert w; decide +kernel) [] [] file ⟨⟨"uniq", [], []⟩, by decide +kernel, rfl⟩
  have h0 : parse (Shlex.join ["uniq"]) = .ok ⟨"uniq", [], []⟩ := by decide +kernel
  rw [h0] at h1 h2
  cases h1; cases h2
  obtain ⟨c, hc, ho, hi, _⟩ := typed_of_reads h3 (.uniq0 rfl rfl)
  exact ⟨_, c, h3, hc, ho, hi trivial⟩

/-- `sed -i SCRIPT FILE…` is said to run the script `-i` on the files SCRIPT, FILE…, and to change none of them. -/
theorem C77_sed_false (script : String) (fs : List String) :
    ∃ inv c, parse (Shlex.join ("sed" :: "-i" :: script :: fs)) = .ok inv ∧ Typed inv c ∧
      c.operandList = .argString "-i" :: files .streamInput (script :: fs) := by
  obtain ⟨_, _, h1, h2⟩ := C77_unknown_false "sed" "-i" (by decide +kernel) [] (script :: fs)
    ⟨⟨"sed", [], []⟩, by decide +kernel, rfl⟩
  have h0 : parse (Shlex.join ["sed"]) = .ok ⟨"sed", [], []⟩ := by decide +kernel
  rw [h0] at h1
  cases h1
  obtain ⟨c, hc, ho, _⟩ := typed_of_reads h2 (.sedOperand rfl (by simp [Has]) rfl)
  exact ⟨_, c, h2, hc, ho⟩

/-- `awk -v NAME=VALUE PROGRAM FILE…` is said to run the program `-v` on all that follows. -/
theorem C77_awk_false (assignment : String) (rest : List String) :
    ∃ inv c, parse (Shlex.join ("awk" :: "-v" :: assignment :: rest)) = .ok inv ∧ Typed inv c ∧
      c.operandList = .argString "-v" :: files .streamInput (assignment :: rest) := by
  obtain ⟨_, _, h1, h2⟩ := C77_unknown_false "awk" "-v" (by decide +kernel) [] (assignment :: rest)
    ⟨⟨"awk", [], []⟩, by decide +kernel, rfl⟩
  have h0 : parse (Shlex.join ["awk"]) = .ok ⟨"awk", [], []⟩ := by decide +kernel
  rw [h0] at h1
  cases h1
  obtain ⟨c, hc, ho, _⟩ := typed_of_reads h2 (.awkOperand rfl (by simp [Has]) rfl)
  exact ⟨_, c, h2, hc, ho⟩

/-- `tail -n COUNT FILE…` is said to read a file named COUNT too. -/
theorem C77_tail_false (n : String) (fs : List String) (hn : n.toList.head? ≠ some '-') :
    ∃ inv c, parse (Shlex.join ("tail" :: "-n" :: n :: fs)) = .ok inv ∧ Typed inv c ∧
      c.operandList = files .streamInput (n :: fs) := by
  obtain ⟨_, _, p, rest, ops, h1, h2, h3⟩ := C77_leaving_false "tail" "-n" (by decide +kernel) [] fs n
    ⟨⟨"tail", [], []⟩, by decide +kernel, rfl⟩
  have h0 : parse (Shlex.join ["tail"]) = .ok ⟨"tail", [], []⟩ := by decide +kernel
  rw [h0] at h1
  cases h1
  obtain ⟨d, hd⟩ := databaseFor_exists "tail"
  rw [parse_join (by decide +kernel) hd, parseLoop_operands d n fs (startsOperands_of_head hd hn (.inl (by decide +kernel)))] at h2
  cases h2
  obtain ⟨c, hc, ho, _⟩ := typed_of_reads h3 (.filter (by simp))
  exact ⟨_, c, h3, hc, ho⟩

example : parse "tail -n 5 log" = .ok ⟨"tail", [.flag "-n"], ["5", "log"]⟩ ∧ "5".toList.head? ≠ some '-' := by
  decide +kernel

end PashAnn
