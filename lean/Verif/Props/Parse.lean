import Verif.Lemmas.Table

/-! Properties C03 to C12: the command line parser. Specification: `Spec/Grammar.lean`. -/

namespace PashAnn
open Spec

/-- C03. The operands are the remaining words, and the flags and options spell the words before them. -/
theorem C03_nothing_lost (s : String) (inv : CommandInvocationInitial) (h : parse s = .ok inv) :
    ∃ args d consumed, Lexes s.toList ((inv.cmdName :: args).map String.toList) ∧
      DatabaseFor inv.cmdName d ∧ args = consumed ++ inv.operandList ∧
      Spelled d inv.flagOptionList consumed := by
  obtain ⟨name, ws, d, hs, hp, hd, rfl⟩ := parse_ok h
  obtain ⟨c, hc, hsp⟩ := derives_suffix (derives_parseLoop d ws)
  exact ⟨ws, d, c, (Shlex.split_iff s _).1 hs, hd, hc, hsp⟩

example : parse "grep --count -vi -m 3 pat 'a b'" =
    .ok ⟨"grep", [.flag "-c", .flag "-v", .flag "-i", .option "-m" "3"], ["pat", "a b"]⟩ := by decide +kernel

/-- C04. `parse` returns an invocation exactly if the grammar derives it from the words of the text. -/
theorem C04_parse_iff_grammar (s : String) (inv : CommandInvocationInitial) :
    parse s = .ok inv ↔ Readable inv.cmdName ∧ ∃ args d,
      Lexes s.toList ((inv.cmdName :: args).map String.toList) ∧ DatabaseFor inv.cmdName d ∧
      Derives d args inv.flagOptionList inv.operandList := by
  constructor
  · intro h
    obtain ⟨name, ws, d, hs, hp, hd, rfl⟩ := parse_ok h
    exact ⟨hp, ws, d, (Shlex.split_iff s _).1 hs, hd, derives_parseLoop d ws⟩
  · rintro ⟨hp, args, d, hl, hd, hder⟩
    rw [parse_of_split ((Shlex.split_iff s _).2 hl) hp hd, derives_functional hder]

/-- C04, for every database, shipped or not: the grammar derives exactly one result from every word list,
and it is the one computed. -/
theorem C04_grammar_deterministic (d : JsonData) (ws : List String) :
    ∃ fs ops, Derives d ws fs ops ∧ parseLoop d ws = (fs, ops) ∧
      ∀ fs' ops', Derives d ws fs' ops' → fs' = fs ∧ ops' = ops := by
  refine ⟨_, _, derives_parseLoop d ws, rfl, fun fs' ops' h => ?_⟩
  have := derives_functional h
  rw [this]; exact ⟨rfl, rfl⟩

example : Derives Data.d_sort ["--reverse", "-k", "2", "-nu", "f"]
    [.flag "-r", .option "-k" "2", .flag "-n", .flag "-u"] ["f"] := by
  rw [derives_iff]; decide +kernel

/-- C05. If there is an operand, everything after it is an operand, and words appended later become operands
without affecting anything else, unless the only operand is an option name waiting for its argument. -/
theorem C05_after_first_operand (name : String) (args more : List String) (inv : CommandInvocationInitial)
    (h : parse (Shlex.join (name :: args)) = .ok inv) (o : String) (os : List String)
    (ho : inv.operandList = o :: os)
    (hx : os ≠ [] ∨ ∀ d, DatabaseFor name d → ¬ Declared (optionGroups d) o) :
    (∃ consumed, args = consumed ++ o :: os) ∧
    parse (Shlex.join (name :: (args ++ more))) =
      .ok ⟨name, inv.flagOptionList, inv.operandList ++ more⟩ := by
  obtain ⟨name', ws, d, hs, hp, hd, rfl⟩ := parse_ok h
  rw [Shlex.split_join] at hs
  obtain ⟨rfl, rfl⟩ := List.cons.inj (Except.ok.inj hs)
  obtain ⟨c, hc, _⟩ := derives_suffix (derives_parseLoop d args)
  simp only at ho
  refine ⟨⟨c, by rw [← ho]; exact hc⟩, ?_⟩
  rw [parse_join hp hd, derives_functional (derives_extend (derives_parseLoop d args) ho
    (hx.imp id (fun h => h d hd)) more)]

/-- The exception in C05 is real: a trailing option name is an operand until its argument arrives. -/
theorem C05_trailing_option_exception :
    parse "head -n" = .ok ⟨"head", [], ["-n"]⟩ ∧ parse "head -n 3" = .ok ⟨"head", [.option "-n" "3"], []⟩ := by
  decide +kernel

example : parse "sort -r f" = .ok ⟨"sort", [.flag "-r"], ["f"]⟩ ∧
    parse "sort -r f -u g" = .ok ⟨"sort", [.flag "-r"], ["f", "-u", "g"]⟩ := by decide +kernel

/-- `pre` is read completely as flags and options of the command, so a flag may follow it. -/
def FlagsOnly (name : String) (pre : List String) : Prop :=
  ∃ inv, parse (Shlex.join (name :: pre)) = .ok inv ∧ inv.operandList = []

theorem FlagsOnly.loop {name pre d} (h : FlagsOnly name pre) (hd : DatabaseFor name d) :
    Readable name ∧ ∃ fs, parseLoop d pre = (fs, []) := by
  obtain ⟨inv, h, ho⟩ := h
  obtain ⟨name', ws, d', hs, hp, hd', rfl⟩ := parse_ok h
  rw [Shlex.split_join] at hs
  obtain ⟨rfl, rfl⟩ := List.cons.inj (Except.ok.inj hs)
  have : d' = d := by
    have h1 := (databaseFor_iff _ _ hp).2 hd
    rw [(databaseFor_iff _ _ hp).2 hd'] at h1
    exact Except.ok.inj h1
  subst this
  exact ⟨hp, (parseLoop d' pre).1, by rw [← ho]⟩

/-- C06. Spellings declared for the same flag are interchangeable wherever flags are read. -/
theorem C06_flag_synonyms (name : String) (d : JsonData) (hd : DatabaseFor name d) (pre post : List String)
    (hpre : FlagsOnly name pre) (g : List String) (hg : g ∈ flagGroups d) (f f' : String) (hf : f ∈ g)
    (hf' : f' ∈ g) :
    parse (Shlex.join (name :: (pre ++ f :: post))) = parse (Shlex.join (name :: (pre ++ f' :: post))) := by
  obtain ⟨hp, fs, hfs⟩ := hpre.loop hd
  have hsh := databaseFor_shipped hd
  rw [parse_join hp hd, parse_join hp hd, parseLoop_append hsh hfs, parseLoop_append hsh hfs,
    parseLoop_flag d f post (shipped_flag_nonempty hsh ⟨g, hg, hf⟩) ⟨g, hg, hf⟩,
    parseLoop_flag d f' post (shipped_flag_nonempty hsh ⟨g, hg, hf'⟩) ⟨g, hg, hf'⟩,
    shipped_flag_synonyms hsh hg hf hf']

example : DatabaseFor "grep" Data.d_grep ∧ FlagsOnly "grep" ["-m", "1"] ∧
    ["-v", "--invert-match"] ∈ flagGroups Data.d_grep :=
  ⟨databaseFor_table (by simp [Data.table]), ⟨⟨"grep", [.option "-m" "1"], []⟩, by decide +kernel, rfl⟩, by decide +kernel⟩

/-- C07. Spellings declared for the same option are interchangeable wherever options are read. -/
theorem C07_option_synonyms (name : String) (d : JsonData) (hd : DatabaseFor name d) (pre post : List String)
    (hpre : FlagsOnly name pre) (g : List String) (hg : g ∈ optionGroups d) (o o' : String) (ho : o ∈ g)
    (ho' : o' ∈ g) (arg : String) :
    parse (Shlex.join (name :: (pre ++ o :: arg :: post))) =
      parse (Shlex.join (name :: (pre ++ o' :: arg :: post))) := by
  obtain ⟨hp, fs, hfs⟩ := hpre.loop hd
  have hsh := databaseFor_shipped hd
  rcases shipped_option_synonyms hsh hg ho ho' with rfl | ⟨he, hn, hn'⟩
  · rfl
  · rw [parse_join hp hd, parse_join hp hd, parseLoop_append hsh hfs, parseLoop_append hsh hfs,
      parseLoop_option d o arg post (shipped_option_nonempty hsh ⟨g, hg, ho⟩) hn ⟨g, hg, ho⟩,
      parseLoop_option d o' arg post (shipped_option_nonempty hsh ⟨g, hg, ho'⟩) hn' ⟨g, hg, ho'⟩, he]

/-- C07, the synonyms are really read as options there (with the one exception of `mv --backup`, which is
also declared as a flag). -/
theorem C07_option_recognised (name : String) (d : JsonData) (hd : DatabaseFor name d) (pre post : List String)
    (hpre : FlagsOnly name pre) (o : String) (ho : Declared (optionGroups d) o)
    (hf : ¬ Declared (flagGroups d) o) (arg : String) :
    ∃ fs p rest ops, Canonical (optionGroups d) o p ∧ parse (Shlex.join (name :: (pre ++ o :: arg :: post))) =
      .ok ⟨name, fs ++ .option p arg :: rest, ops⟩ ∧ parse (Shlex.join (name :: pre)) = .ok ⟨name, fs, []⟩ ∧
      parse (Shlex.join (name :: post)) = .ok ⟨name, rest, ops⟩ := by
  obtain ⟨hp, fs, hfs⟩ := hpre.loop hd
  have hsh := databaseFor_shipped hd
  refine ⟨fs, primaryOption d o, (parseLoop d post).1, (parseLoop d post).2, primaryOption_canonical d o, ?_, ?_, ?_⟩
  · rw [parse_join hp hd, parseLoop_append hsh hfs,
      parseLoop_option d o arg post (shipped_option_nonempty hsh ho) hf ho]
  · rw [parse_join hp hd, hfs]
  · rw [parse_join hp hd]

example : DatabaseFor "sort" Data.d_sort ∧ FlagsOnly "sort" ["-rn"] ∧
    ["-k", "--key"] ∈ optionGroups Data.d_sort :=
  ⟨databaseFor_table (by simp [Data.table]), ⟨⟨"sort", [.flag "-r", .flag "-n"], []⟩, by decide +kernel, rfl⟩, by decide +kernel⟩

/-- C08 is false: letters of a cluster are not replaced by their canonical spelling. -/
theorem C08_cluster_not_separate :
    ¬ ∀ (name : String) (a b : Char) (post : List String),
      (∀ d, DatabaseFor name d → Declared (flagGroups d) (String.ofList ['-', a]) ∧
        Declared (flagGroups d) (String.ofList ['-', b])) →
      parse (Shlex.join (name :: String.ofList ['-', a, b] :: post)) =
        parse (Shlex.join (name :: String.ofList ['-', a] :: String.ofList ['-', b] :: post)) := by
  intro h
  have hd : ∀ d, DatabaseFor "tr" d → d = Data.d_tr := by
    intro d hd
    have h1 := (databaseFor_iff "tr" d (by decide +kernel)).2 hd
    have h2 : getJsonData "tr" = .ok Data.d_tr := by decide +kernel
    rw [h2] at h1; exact (Except.ok.inj h1).symm
  have := h "tr" 'C' 'd' ["x"] (by
    intro d hd'
    rw [hd d hd', ← mem_setOfAllFlags, ← mem_setOfAllFlags]
    decide +kernel)
  revert this
  decide +kernel

/-- C08, what holds: a cluster that is not itself a declared name parses like the separate flags if each of
them is its own canonical spelling. -/
theorem C08_cluster_partial (name : String) (d : JsonData) (hd : DatabaseFor name d) (pre post : List String)
    (hpre : FlagsOnly name pre) (letters : List Char) (hl : letters ≠ [])
    (hdecl : ∀ c ∈ letters, Declared (flagGroups d) (String.ofList ['-', c]))
    (hcanon : ∀ c ∈ letters, Canonical (flagGroups d) (String.ofList ['-', c]) (String.ofList ['-', c]))
    (hnf : ¬ Declared (flagGroups d) (String.ofList ('-' :: letters)))
    (hno : ¬ Declared (optionGroups d) (String.ofList ('-' :: letters))) :
    parse (Shlex.join (name :: (pre ++ String.ofList ('-' :: letters) :: post))) =
      parse (Shlex.join (name :: (pre ++ (letters.map (fun c => String.ofList ['-', c]) ++ post)))) := by
  obtain ⟨hp, fs, hfs⟩ := hpre.loop hd
  have hsh := databaseFor_shipped hd
  have hmap : letters.map (fun c => FlagOption.flag (primaryFlag d (String.ofList ['-', c]))) =
      letters.map (fun c => .flag (String.ofList ['-', c])) := by
    apply List.map_congr_left
    intro c hc
    rw [canonical_unique (primaryFlag_canonical d _) (hcanon c hc)]
  rw [parse_join hp hd, parse_join hp hd, parseLoop_append hsh hfs, parseLoop_append hsh hfs,
    parseLoop_cluster d _ post letters hnf (fun h => hno h.1) ⟨String.toList_ofList, hl, hdecl⟩,
    derives_functional (ofDashed_derives hdecl (derives_parseLoop d post)), hmap]

/-- C08, in general: cluster and separate flags differ only in that the letters of the cluster keep their
spelling while the separate flags get the canonical one. -/
theorem C08_cluster_spelling (name : String) (d : JsonData) (hd : DatabaseFor name d) (pre post : List String)
    (hpre : FlagsOnly name pre) (letters : List Char) (hl : letters ≠ [])
    (hdecl : ∀ c ∈ letters, Declared (flagGroups d) (String.ofList ['-', c]))
    (hnf : ¬ Declared (flagGroups d) (String.ofList ('-' :: letters)))
    (hno : ¬ Declared (optionGroups d) (String.ofList ('-' :: letters))) :
    ∃ (before : List FlagOption) (canon : Char → String) (after : List FlagOption) (ops : List String),
      parse (Shlex.join (name :: (pre ++ String.ofList ('-' :: letters) :: post))) =
        .ok ⟨name, before ++ letters.map (fun c => .flag (String.ofList ['-', c])) ++ after, ops⟩ ∧
      parse (Shlex.join (name :: (pre ++ (letters.map (fun c => String.ofList ['-', c]) ++ post)))) =
        .ok ⟨name, before ++ letters.map (fun c => .flag (canon c)) ++ after, ops⟩ ∧
      ∀ c ∈ letters, Canonical (flagGroups d) (String.ofList ['-', c]) (canon c) := by
  obtain ⟨hp, fs, hfs⟩ := hpre.loop hd
  have hsh := databaseFor_shipped hd
  refine ⟨fs, fun c => primaryFlag d (String.ofList ['-', c]), (parseLoop d post).1, (parseLoop d post).2, ?_, ?_,
    fun c _ => primaryFlag_canonical d _⟩
  · rw [parse_join hp hd, parseLoop_append hsh hfs,
      parseLoop_cluster d _ post letters hnf (fun h => hno h.1) ⟨String.toList_ofList, hl, hdecl⟩,
      List.append_assoc]
  · rw [parse_join hp hd, parseLoop_append hsh hfs,
      derives_functional (ofDashed_derives hdecl (derives_parseLoop d post)), List.append_assoc]

/-- C08, exactly: a cluster and the separate flags give the same result if and only if every letter of the cluster
is its own canonical spelling. -/
theorem C08_cluster_exact (name : String) (d : JsonData) (hd : DatabaseFor name d) (pre post : List String)
    (hpre : FlagsOnly name pre) (letters : List Char) (hl : letters ≠ [])
    (hdecl : ∀ c ∈ letters, Declared (flagGroups d) (String.ofList ['-', c]))
    (hnf : ¬ Declared (flagGroups d) (String.ofList ('-' :: letters)))
    (hno : ¬ Declared (optionGroups d) (String.ofList ('-' :: letters))) :
    parse (Shlex.join (name :: (pre ++ String.ofList ('-' :: letters) :: post))) =
      parse (Shlex.join (name :: (pre ++ (letters.map (fun c => String.ofList ['-', c]) ++ post)))) ↔
    ∀ c ∈ letters, Canonical (flagGroups d) (String.ofList ['-', c]) (String.ofList ['-', c]) := by
  refine ⟨fun h => ?_, fun h => C08_cluster_partial name d hd pre post hpre letters hl hdecl h hnf hno⟩
  obtain ⟨before, canon, after, ops, h1, h2, h3⟩ := C08_cluster_spelling name d hd pre post hpre letters hl hdecl hnf hno
  rw [h1, h2] at h
  have h := Except.ok.inj h
  simp only [CommandInvocationInitial.mk.injEq, true_and, and_true] at h
  have h := List.append_cancel_left (List.append_cancel_right h)
  have key : ∀ c ∈ letters, String.ofList ['-', c] = canon c := by
    intro c hc
    have := (List.map_inj_left.1 h) c hc
    exact FlagOption.flag.inj this
  intro c hc
  have := h3 c hc
  rwa [← key c hc] at this

example : DatabaseFor "grep" Data.d_grep ∧ FlagsOnly "grep" [] ∧
    (∀ c ∈ ['y', 'v'], Declared (flagGroups Data.d_grep) (String.ofList ['-', c])) ∧
    ¬ Declared (flagGroups Data.d_grep) "-yv" ∧ ¬ Declared (optionGroups Data.d_grep) "-yv" ∧
    parse "grep -yv" ≠ parse "grep -y -v" := by
  refine ⟨databaseFor_table (by simp [Data.table]), ⟨⟨"grep", [], []⟩, by decide +kernel, rfl⟩, ?_, ?_, ?_, by decide +kernel⟩
  · intro c hc; rw [← mem_setOfAllFlags]; revert c; decide +kernel
  · rw [← mem_setOfAllFlags]; decide +kernel
  · rw [← mem_setOfAllOptions]; decide +kernel

example : parse "grep -vi x" = parse "grep -v -i x" ∧
    parse "grep -vi x" = .ok ⟨"grep", [.flag "-v", .flag "-i"], ["x"]⟩ := by decide +kernel

/-- C09. A prefix without operands does not interfere with the rest. -/
theorem C09_compositional (name : String) (pre post : List String) (fs : List FlagOption)
    (inv : CommandInvocationInitial) (hpre : parse (Shlex.join (name :: pre)) = .ok ⟨name, fs, []⟩)
    (hpost : parse (Shlex.join (name :: post)) = .ok inv) :
    parse (Shlex.join (name :: (pre ++ post))) = .ok ⟨name, fs ++ inv.flagOptionList, inv.operandList⟩ := by
  obtain ⟨d, hd⟩ := databaseFor_exists name
  obtain ⟨hp, fs', hfs⟩ := FlagsOnly.loop ⟨_, hpre, rfl⟩ hd
  rw [parse_join hp hd] at hpre hpost
  rw [hfs] at hpre
  cases hpre; cases hpost
  rw [parse_join hp hd, parseLoop_append (databaseFor_shipped hd) hfs]

example : parse "cut -d , -f 1" = .ok ⟨"cut", [.option "-d" ",", .option "-f" "1"], []⟩ ∧
    parse "cut -z in" = .ok ⟨"cut", [.flag "-z"], ["in"]⟩ ∧
    parse "cut -d , -f 1 -z in" = .ok ⟨"cut", [.option "-d" ",", .option "-f" "1", .flag "-z"], ["in"]⟩ := by
  decide +kernel

/-- C10 is false for `uniq`: its file name `f` is read as a flag, because the database entry is a bare string. -/
theorem C10_uniq_file_name_is_flag :
    parse "uniq f" = .ok ⟨"uniq", [.flag "-"], []⟩ ∧ parse "uniq w" = .ok ⟨"uniq", [.flag "-"], []⟩ ∧
    parse "uniq s" = .ok ⟨"uniq", [.flag "-"], []⟩ := by decide +kernel

theorem startsOperands_of_head {name : String} {d : JsonData} (hd : DatabaseFor name d) {w : String}
    {rest : List String} (hw : w.toList.head? ≠ some '-') (hu : ¬ Names name "uniq" ∨ w ∉ ["f", "s", "w"]) :
    StartsOperands d w rest := by
  have key : ∀ x ∈ setOfAllFlags d ++ setOfAllOptions d, x ≠ w := by
    rintro x hx rfl
    rcases hd with ⟨b, hb, hm⟩ | ⟨_, rfl⟩
    · rcases table_dash _ hm x hx with h | ⟨h1, h2⟩
      · exact hw h
      · rcases hu with hu | hu
        · exact hu ((show b = "uniq" from h1) ▸ hb)
        · exact hu h2
    · simp [Data.d_default_data_for_commands, setOfAllFlags, setOfAllOptions] at hx
  refine .inr ⟨fun h => ?_, fun h => ?_, fun l h => ?_⟩
  · exact key w (List.mem_append.2 (.inl ((mem_setOfAllFlags d w).2 h))) rfl
  · exact key w (List.mem_append.2 (.inr ((mem_setOfAllOptions d w).2 h.1))) rfl
  · exact hw (by rw [h.1]; rfl)

/-- C10 is false for `uniq` wherever the file name is: after any flags and before any words, the file names `f`, `s`
and `w` disappear from the operands and `-` is recorded as a flag. -/
theorem C10_uniq_false (pre post : List String) (hpre : FlagsOnly "uniq" pre) (w : String) (hw : w ∈ ["f", "s", "w"]) :
    ∃ fs rest ops, parse (Shlex.join ("uniq" :: pre)) = .ok ⟨"uniq", fs, []⟩ ∧
      parse (Shlex.join ("uniq" :: post)) = .ok ⟨"uniq", rest, ops⟩ ∧
      parse (Shlex.join ("uniq" :: (pre ++ w :: post))) = .ok ⟨"uniq", fs ++ .flag "-" :: rest, ops⟩ := by
  have hd : DatabaseFor "uniq" Data.d_uniq := databaseFor_table (by simp [Data.table])
  obtain ⟨hp, fs, hfs⟩ := hpre.loop hd
  have key : ∀ w ∈ ["f", "s", "w"], w ≠ "" ∧ w ∈ setOfAllFlags Data.d_uniq ∧ primaryFlag Data.d_uniq w = "-" := by
    decide +kernel
  obtain ⟨h1, h2, h3⟩ := key w hw
  refine ⟨fs, (parseLoop Data.d_uniq post).1, (parseLoop Data.d_uniq post).2, by rw [parse_join hp hd, hfs],
    by rw [parse_join hp hd], ?_⟩
  rw [parse_join hp hd, parseLoop_append (databaseFor_shipped hd) hfs,
    parseLoop_flag Data.d_uniq w post h1 ((mem_setOfAllFlags _ _).1 h2), h3]

example : FlagsOnly "uniq" ["-c"] ∧ "s" ∈ ["f", "s", "w"] :=
  ⟨⟨⟨"uniq", [.flag "-c"], []⟩, by decide +kernel, rfl⟩, by simp⟩

/-- C10, what holds: a word without leading dash starts the operands, except the words `f`, `s`, `w` of `uniq`. -/
theorem C10_no_dash_operand_partial (name : String) (pre post : List String) (hpre : FlagsOnly name pre)
    (w : String) (hw : w.toList.head? ≠ some '-') (hu : ¬ Names name "uniq" ∨ w ∉ ["f", "s", "w"]) :
    ∃ fs, parse (Shlex.join (name :: pre)) = .ok ⟨name, fs, []⟩ ∧
      parse (Shlex.join (name :: (pre ++ w :: post))) = .ok ⟨name, fs, w :: post⟩ := by
  obtain ⟨d, hd⟩ := databaseFor_exists name
  obtain ⟨hp, fs, hfs⟩ := hpre.loop hd
  refine ⟨fs, by rw [parse_join hp hd, hfs], ?_⟩
  rw [parse_join hp hd, parseLoop_append (databaseFor_shipped hd) hfs,
    parseLoop_operands d w post (startsOperands_of_head hd hw hu), List.append_nil]

example : FlagsOnly "uniq" ["-c"] ∧ "file".toList.head? ≠ some '-' ∧ "file" ∉ ["f", "s", "w"] :=
  ⟨⟨⟨"uniq", [.flag "-c"], []⟩, by decide +kernel, rfl⟩, by decide +kernel, by decide +kernel⟩

/-- C11. `--` and every word containing `=` start the operands. -/
theorem C11_dashdash_and_equals (name : String) (pre post : List String) (hpre : FlagsOnly name pre)
    (w : String) (hw : w = "--" ∨ '=' ∈ w.toList) :
    ∃ fs, parse (Shlex.join (name :: pre)) = .ok ⟨name, fs, []⟩ ∧
      parse (Shlex.join (name :: (pre ++ w :: post))) = .ok ⟨name, fs, w :: post⟩ := by
  obtain ⟨d, hd⟩ := databaseFor_exists name
  obtain ⟨hp, fs, hfs⟩ := hpre.loop hd
  refine ⟨fs, by rw [parse_join hp hd, hfs], ?_⟩
  have key : ∀ x, x ∈ setOfAllFlags d ++ setOfAllOptions d → '=' ∉ x.toList ∧ x ≠ "--" := by
    intro x hx
    rcases hd with ⟨_, _, hm⟩ | ⟨_, rfl⟩
    · exact table_equals _ hm x hx
    · simp [Data.d_default_data_for_commands, setOfAllFlags, setOfAllOptions] at hx
  have hs : StartsOperands d w post := by
    refine .inr ⟨fun h => ?_, fun h => ?_, fun l h => ?_⟩
    · have := key w (List.mem_append.2 (.inl ((mem_setOfAllFlags d w).2 h)))
      exact hw.elim this.2 this.1
    · have := key w (List.mem_append.2 (.inr ((mem_setOfAllOptions d w).2 h.1)))
      exact hw.elim this.2 this.1
    · have hmem : ∀ c ∈ l, '=' ∉ (String.ofList ['-', c]).toList ∧ String.ofList ['-', c] ≠ "--" := fun c hc =>
        key _ (List.mem_append.2 (.inl ((mem_setOfAllFlags d _).2 (h.2.2 c hc))))
      rcases hw with rfl | hw
      · have : l = ['-'] := (List.cons.inj h.1).2.symm
        exact (hmem '-' (by simp [this])).2 rfl
      · rw [h.1] at hw
        rcases List.mem_cons.1 hw with hw | hw
        · cases hw
        · have := (hmem '=' hw).1
          rw [String.toList_ofList] at this
          exact this (by simp)
  rw [parse_join hp hd, parseLoop_append (databaseFor_shipped hd) hfs, parseLoop_operands d w post hs,
    List.append_nil]

/-- C11: the README's claim that words are split at equal signs does not hold. -/
theorem C11_equals_not_split : parse "sort --key=2 f" = .ok ⟨"sort", [], ["--key=2", "f"]⟩ ∧
    parse "sort --key 2 f" = .ok ⟨"sort", [.option "-k" "2"], ["f"]⟩ := by decide +kernel

example : FlagsOnly "sort" ["-r"] ∧ '=' ∈ "--key=2".toList :=
  ⟨⟨⟨"sort", [.flag "-r"], []⟩, by decide +kernel, rfl⟩, by decide +kernel⟩

/-- C12 is false: after `grep -yv` the result `-y`, `-v` is re-read as `-i`, `-v`. -/
theorem C12_reparse_false :
    ¬ ∀ (s : String) (inv : CommandInvocationInitial), parse s = .ok inv →
      parse (Shlex.join (inv.cmdName :: (renderWords inv.flagOptionList ++ inv.operandList))) = .ok inv := by
  intro h
  have := h "grep -yv x" ⟨"grep", [.flag "-y", .flag "-v"], ["x"]⟩ (by decide +kernel)
  revert this
  decide +kernel

theorem canonFlags_id {d : JsonData} {fs : List FlagOption}
    (h : ∀ n, .flag n ∈ fs → Canonical (flagGroups d) n n) : canonFlags d fs = fs := by
  induction fs with
  | nil => rfl
  | cons x fs ih =>
      have ih' := ih (fun n hn => h n (List.mem_cons_of_mem _ hn))
      cases x with
      | flag n =>
          have := canonical_unique (primaryFlag_canonical d n) (h n (by simp))
          simp only [canonFlags, List.map_cons, this] at ih' ⊢
          rw [ih']
      | option n a =>
          simp only [canonFlags, List.map_cons] at ih' ⊢
          rw [ih']

/-- C12, what holds: a result whose flags all have their canonical spelling is reproduced. -/
theorem C12_reparse_partial (s : String) (inv : CommandInvocationInitial) (h : parse s = .ok inv)
    (hc : ∀ d n, DatabaseFor inv.cmdName d → .flag n ∈ inv.flagOptionList → Canonical (flagGroups d) n n) :
    parse (Shlex.join (inv.cmdName :: (renderWords inv.flagOptionList ++ inv.operandList))) = .ok inv := by
  obtain ⟨name, ws, d, hs, hp, hd, rfl⟩ := parse_ok h
  have := derives_functional (derives_render (shipped_tidy (databaseFor_shipped hd)) (derives_parseLoop d ws))
  rw [parse_join hp hd, this, canonFlags_id (fun n hn => hc d n hd hn)]

/-- C12, exactly: a result is reproduced if and only if all its flags have their canonical spelling. -/
theorem C12_reparse_exact (s : String) (inv : CommandInvocationInitial) (h : parse s = .ok inv) :
    parse (Shlex.join (inv.cmdName :: (renderWords inv.flagOptionList ++ inv.operandList))) = .ok inv ↔
    ∀ d n, DatabaseFor inv.cmdName d → .flag n ∈ inv.flagOptionList → Canonical (flagGroups d) n n := by
  refine ⟨fun he d' n hd' hn => ?_, C12_reparse_partial s inv h⟩
  obtain ⟨name, ws, d, hs, hp, hd, rfl⟩ := parse_ok h
  have : d' = d := by
    have h1 := (databaseFor_iff _ _ hp).2 hd
    rw [(databaseFor_iff _ _ hp).2 hd'] at h1
    exact Except.ok.inj h1
  subst this
  have hr := derives_functional (derives_render (shipped_tidy (databaseFor_shipped hd)) (derives_parseLoop d' ws))
  rw [parse_join hp hd, hr] at he
  have he := Except.ok.inj he
  simp only [CommandInvocationInitial.mk.injEq, true_and, and_true] at he
  have key : ∀ fs : List FlagOption, canonFlags d' fs = fs → ∀ n, .flag n ∈ fs → primaryFlag d' n = n := by
    intro fs
    induction fs with
    | nil => intro _ n hn; cases hn
    | cons x fs ih =>
        intro hfs n hn
        simp only [canonFlags, List.map_cons, List.cons.injEq] at hfs
        rcases List.mem_cons.1 hn with rfl | hn
        · exact FlagOption.flag.inj hfs.1
        · exact ih hfs.2 n hn
  have hc := primaryFlag_canonical d' n
  rwa [key _ he n hn] at hc

/-- C12, in general: re-reading only replaces flag spellings by canonical ones, and a second re-reading
changes nothing. -/
theorem C12_reparse_stable (s : String) (inv : CommandInvocationInitial) (h : parse s = .ok inv) :
    ∃ canon : String → String, ∃ inv' : CommandInvocationInitial,
      parse (Shlex.join (inv.cmdName :: (renderWords inv.flagOptionList ++ inv.operandList))) = .ok inv' ∧
      parse (Shlex.join (inv'.cmdName :: (renderWords inv'.flagOptionList ++ inv'.operandList))) = .ok inv' ∧
      inv'.cmdName = inv.cmdName ∧ inv'.operandList = inv.operandList ∧
      inv'.flagOptionList = inv.flagOptionList.map (fun
        | .flag n => .flag (canon n)
        | .option n a => .option n a) ∧
      ∀ d n, DatabaseFor inv.cmdName d → Canonical (flagGroups d) n (canon n) := by
  obtain ⟨name, ws, d, hs, hp, hd, rfl⟩ := parse_ok h
  have ht := shipped_tidy (databaseFor_shipped hd)
  have hder := derives_parseLoop d ws
  have h1 : parse (Shlex.join (name :: (renderWords (parseLoop d ws).1 ++ (parseLoop d ws).2))) =
      .ok ⟨name, canonFlags d (parseLoop d ws).1, (parseLoop d ws).2⟩ := by
    rw [parse_join hp hd, derives_functional (derives_render ht hder)]
  refine ⟨primaryFlag d, _, h1, ?_, rfl, rfl, rfl, ?_⟩
  · refine C12_reparse_partial _ _ h1 ?_
    intro d' n hd' hn
    have : d' = d := by
      have h1 := (databaseFor_iff _ _ hp).2 hd
      rw [(databaseFor_iff _ _ hp).2 hd'] at h1
      exact Except.ok.inj h1
    subst this
    obtain ⟨x, hx, he⟩ := List.mem_map.1 hn
    cases x with
    | option => simp at he
    | flag m =>
        simp only [FlagOption.flag.injEq] at he
        have hidem := ht.flagIdem m ((mem_setOfAllFlags d' m).2 (derives_flag_declared hder m hx))
        have := primaryFlag_canonical d' n
        rw [← he, hidem] at this
        rw [← he]; exact this
  · intro d' n hd'
    have : d' = d := by
      have h1 := (databaseFor_iff _ _ hp).2 hd
      rw [(databaseFor_iff _ _ hp).2 hd'] at h1
      exact Except.ok.inj h1
    subst this
    exact primaryFlag_canonical d' n

example : parse "sort --reverse -k 2 'a b'" = .ok ⟨"sort", [.flag "-r", .option "-k" "2"], ["a b"]⟩ ∧
    parse "sort -r -k 2 'a b'" = .ok ⟨"sort", [.flag "-r", .option "-k" "2"], ["a b"]⟩ := by decide +kernel

end PashAnn
