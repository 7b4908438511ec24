import Verif.Lemmas.DataFiles

/-!
C100: data files, whatever is in them (README.md, "Adding new annotations"). A file that lists flags and options means what it
lists (`C100_means`), whatever else is in it; a file that is something else is rejected on every command line or on none
(`C100_all_or_none`), and `C100_fits` says which ones; other commands are not affected (`C100_other_commands`); the types of
arguments are as listed (`C100_types`); the laws of synonyms, clusters and prefixes hold exactly for lists without clashes; and
the shipped files are a case of this (`C100_shipped`).
-/

namespace PashAnn
open Spec DataFiles

/-- A file that lists flags and options means what it lists, for every command line. -/
theorem C100_means (dir : Dir) (name : String) (hn : PlainName name) (j : Json) (hj : dir.lookup name = some (some j))
    (d : JsonData) (h : FileLists j d) (args : List String) :
    (∃ fs ops, parseIn dir (Shlex.join (name :: args)) = .ok ⟨name, anyNames fs, ops⟩) ∧
    ∀ fs ops, parseIn dir (Shlex.join (name :: args)) = .ok ⟨name, anyNames fs, ops⟩ ↔ Derives d args fs ops := by
  have hp := parseIn_lists hn hj h args
  refine ⟨⟨_, _, hp⟩, fun fs ops => ?_⟩
  rw [hp, derives_iff]
  constructor
  · intro he
    simp only [Except.ok.injEq, AnyInvocation.mk.injEq, true_and] at he
    rw [← he.2, ← anyNames_inj he.1]
  · intro he
    rw [he]

/-- A file for a command `zip` that lists a flag and an option, with something else in it. -/
def sampleFile : Json :=
  .obj [("description", .str "a new command"), ("flag", .arr [.arr [.str "-v", .str "--verbose"]]),
    ("option", .arr [.arr [.str "-o", .str "--output", .arr [.str "FILE", .str "OTHER_OUTPUT"]]])]

/-- What it lists. -/
def sampleData : JsonData :=
  ⟨[.group ["-v", "--verbose"]], [⟨["-o", "--output"], .withAccess "FILE" "OTHER_OUTPUT"⟩]⟩

/-- The sample beside the default file. -/
def sampleDir : Dir :=
  [("_default_data_for_commands", some (.obj [("flag", .arr []), ("option", .arr [])])), ("zip", some sampleFile)]

example : PlainName "zip" ∧ sampleDir.lookup "zip" = some (some sampleFile) ∧ FileLists sampleFile sampleData ∧
    Derives sampleData ["--verbose", "--output", "x", "-v", "a", "-v"] [.flag "-v", .option "-o" "x", .flag "-v"] ["a", "-v"] :=
  ⟨⟨by decide +kernel, by decide +kernel, by decide +kernel⟩, rfl, ⟨_, rfl, rfl, rfl⟩,
    (derives_iff _ _ _ _).2 (by decide +kernel)⟩

/-- Which files are not rejected. -/
theorem C100_fits (dir : Dir) (name : String) (hn : PlainName name) (f : Option Json) (hj : dir.lookup name = some f)
    (args : List String) :
    (∃ inv, parseIn dir (Shlex.join (name :: args)) = .ok inv) ↔ ∃ j, f = some j ∧ Fits j := by
  rw [parseIn_join, getJson_plain dir hn, hj]
  cases f with
  | none => simp [loads, bind, Except.bind]
  | some j =>
      simp only [loads, bind, Except.bind, Option.some.injEq, exists_eq_left']
      rw [← readWords_isOk j args]
      cases readWords j args <;> simp

/-- Numbers and texts are tolerated, and so is an option that is nothing but its argument. -/
example : Fits (.obj [("option", .arr [.str "abc", .arr [.arr []]]), ("flag", .arr [.arr [.null, .num "1", .str "-a"], .str "-b"])]) := by
  refine ⟨_, _, _, _, _, rfl, rfl, rfl, .list _, ?_, .list _, ?_⟩ <;> intro e he <;>
    rcases List.mem_cons.1 he with rfl | he
  · exact .inl ⟨_, rfl, by simp [Simple]⟩
  · rw [List.mem_singleton.1 he]
    exact .inr (.inl ⟨_, rfl⟩)
  · exact .inr ⟨_, rfl⟩
  · rw [List.mem_singleton.1 he]
    exact .inl ⟨_, rfl, by simp⟩

/-- A list of lists of lists is not. -/
example : ¬ Fits (.obj [("flag", .arr [.arr [.arr [.str "-a"]]]), ("option", .arr [])]) := by
  rintro ⟨_, _, _, _, _, he, hf, -, hl, hff, -⟩
  cases he; cases hf; cases hl
  rcases hff (.arr [.arr [.str "-a"]]) (by simp) with ⟨_, h, hs⟩ | ⟨_, h⟩ | ⟨_, h, _⟩
  · cases h
    exact hs (.arr [.str "-a"]) (by simp)
  · cases h
  · cases h

/-- A data file is rejected on every command line or on none, and with the same exception. -/
theorem C100_all_or_none (dir : Dir) (name : String) (args args' : List String) (e : PyErr)
    (h : parseIn dir (Shlex.join (name :: args)) = .error e) : parseIn dir (Shlex.join (name :: args')) = .error e := by
  rw [parseIn_join] at h ⊢
  cases hj : getJson dir name with
  | error x => rw [hj] at h; exact h
  | ok j =>
      rw [hj] at h
      simp only [bind, Except.bind] at h ⊢
      cases hr : readWords j args with
      | error x =>
          rw [hr] at h
          rw [readWords_error j args args' x hr]
          exact h
      | ok r => rw [hr] at h; cases h

example : parseIn [("zip", some (.obj [("flag", .arr [])]))] (Shlex.join ["zip", "a"]) = .error .keyError ∧
    parseIn [("zip", none)] (Shlex.join ["zip"]) = .error (.valueError "JSONDecodeError") := by
  constructor <;> rw [parseIn_join] <;> rfl

/-- A command that is not called `n` does not notice what is in the file for `n`. -/
theorem C100_other_commands (n : String) (dir dir' : Dir) (hd : DifferOnlyIn n dir dir')
    (hdef : n ≠ "_default_data_for_commands") (s : String)
    (hs : ∀ name args, Lexes s.toList ((name :: args).map String.toList) → ¬ Names name n ∧ ¬ GoesThrough name (n ++ ".json")) :
    parseIn dir s = parseIn dir' s := by
  cases hsp : Shlex.split s with
  | error e => simp only [parseIn, hsp, bind, Except.bind]
  | ok l =>
      cases l with
      | nil => simp only [parseIn, hsp, bind, Except.bind]
      | cons name args =>
          rw [parseIn_split dir hsp, parseIn_split dir' hsp]
          obtain ⟨h1, h2⟩ := hs name args ((Shlex.split_iff s _).1 hsp)
          have hdd : defaultData dir = defaultData dir' := by
            unfold defaultData
            rw [hd _ (Ne.symm hdef)]
          have : getJson dir name = getJson dir' name := by
            unfold getJson
            rw [hdd]
            have hp : (dirParts name, basePart name) = pathParts name.toList := by
              simp [dirParts, basePart, pathParts]
            cases hdp : dirParts name with
            | nil =>
                have : basePart name ≠ n := by
                  intro he
                  refine h1 ((names_iff name n).2 ?_)
                  rw [← hp, hdp, he]
                simp only [hd _ this]
            | cons x xs =>
                have hx : x ≠ n ++ ".json" := by
                  intro he
                  refine h2 ((goesThrough_iff name _).2 ?_)
                  rw [← hp, hdp, he]
                  rfl
                have hany : dir.any (fun e => e.1 ++ ".json" == x) = dir'.any (fun e => e.1 ++ ".json" == x) := by
                  have key : ∀ D : Dir, D.any (fun e => e.1 ++ ".json" == x) = true ↔
                      ∃ m, m ++ ".json" = x ∧ D.lookup m ≠ none := by
                    intro D
                    rw [List.any_eq_true]
                    constructor
                    · rintro ⟨e, he, hx⟩
                      refine ⟨e.1, by simpa using hx, fun hnone => ?_⟩
                      rw [List.lookup_eq_none_iff] at hnone
                      simpa using hnone e he
                    · rintro ⟨m, hm, hne⟩
                      cases hl : D.lookup m with
                      | none => exact absurd hl hne
                      | some v => exact ⟨(m, v), lookup_mem hl, by simpa using hm⟩
                  rw [Bool.eq_iff_iff, key, key]
                  refine exists_congr fun m => and_congr_right fun hm => ?_
                  rw [hd m]
                  rintro rfl
                  exact hx hm.symm
                simp only [hany]
          rw [this]

example : ¬ Names "sort" "zip" ∧ ¬ GoesThrough "sort" ("zip" ++ ".json") := by
  rw [names_iff, goesThrough_iff]
  exact ⟨by decide +kernel, by decide +kernel⟩

/-! Types of arguments. -/

/-- The generators of a command can be made for every command line or for none: exactly if every argument is listed as it should
be. Then flags are plain, and the argument of an option is as listed by the last entry with this first spelling. -/
theorem C100_types (dir : Dir) (name : String) (hn : PlainName name) (j : Json) (hj : dir.lookup name = some (some j))
    (d : JsonData) (h : FileLists j d) (hne : ∀ e ∈ d.option, e.names ≠ []) (args : List String) (fs : List FlagOption)
    (ops : List String) (hp : parseIn dir (Shlex.join (name :: args)) = .ok ⟨name, anyNames fs, ops⟩) :
    ((∃ i, initialInfoIn dir ⟨name, fs, ops⟩ = .ok i) ↔ ∀ e ∈ d.option, ∃ t, ArgMeans e.arg t) ∧
    ∀ i, initialInfoIn dir ⟨name, fs, ops⟩ = .ok i →
      i.flagoptionListTyper.length = fs.length ∧ i.operandListTyper = ops.map (fun _ => .fileStd .streamInput) ∧
      i.implicitInput = none ∧ i.implicitOutput = none ∧
      (∀ (k : Nat) n t, fs[k]? = some (.flag n) → i.flagoptionListTyper[k]? = some t → t = .plainString) ∧
      (∀ (k : Nat) n a t, fs[k]? = some (.option n a) → i.flagoptionListTyper[k]? = some t → OptionMeans d n t) := by
  have hder : Derives d args fs ops := ((C100_means dir name hn j hj d h args).2 fs ops).1 hp
  have hg : getJson dir name = .ok j := by rw [getJson_plain dir hn, hj]; rfl
  have hi : initialInfoIn dir ⟨name, fs, ops⟩ = (do
      let dict ← PashAnn.dictOptionToClassForArg d
      let typers ← fs.mapM (typerOfFlagOption dict)
      .ok (InputOutputInfo.init typers ops.length)) := by
    simp only [initialInfoIn, hg, bind, Except.bind, dictClass_lists h hne]
    cases PashAnn.dictOptionToClassForArg d with
    | error x => rfl
    | ok dict =>
        simp only [Except.map]
        have : typerOf (dict.map strKey) = typerOfFlagOption dict := funext fun x => typerOf_strKey dict x
        rw [this]
  rw [hi, dictClass_eq]
  have hok := dictClass_isOk d.option hne
  have hget : ∀ dict, d.option.mapM classOf = .ok dict → ∀ n a t, typerOfFlagOption dict (.option n a) = .ok t ↔ OptionMeans d n t := by
    intro dict hd n a t
    rw [show OptionMeans d n t ↔ _ from (dictClass_lookup d.option dict hd n t).symm]
    simp only [typerOfFlagOption, dictGet?]
    cases dict.reverse.lookup n <;> simp
  constructor
  · rw [← hok]
    constructor
    · rintro ⟨i, hi⟩
      cases hd : d.option.mapM classOf with
      | error x => rw [hd] at hi; cases hi
      | ok dict => exact ⟨dict, rfl⟩
    · rintro ⟨dict, hd⟩
      have : ∃ r, fs.mapM (typerOfFlagOption dict) = .ok r := by
        rw [mapM_isOk_iff]
        intro x hx
        cases x with
        | flag n => exact ⟨_, rfl⟩
        | option n a =>
            obtain ⟨e, he, hh⟩ := derives_option_first hder hx
            obtain ⟨q, hq, hqe⟩ := mapM_ok_mem classOf d.option dict hd e he
            have h1 := ((classOf_ok e q).1 hqe).1
            rw [hh] at h1
            simp only [Option.some.injEq] at h1
            simp only [typerOfFlagOption, dictGet?]
            cases hl : dict.reverse.lookup n with
            | some t => exact ⟨t, rfl⟩
            | none =>
                rw [List.lookup_eq_none_iff] at hl
                have := hl q (by simpa using hq)
                simp [h1] at this
      obtain ⟨r, hr⟩ := this
      exact ⟨InputOutputInfo.init r ops.length, by simp only [hd, hr, bind, Except.bind]⟩
  · intro i hi
    cases hd : d.option.mapM classOf with
    | error x => rw [hd] at hi; cases hi
    | ok dict =>
        rw [hd] at hi
        simp only [bind, Except.bind] at hi
        cases hr : fs.mapM (typerOfFlagOption dict) with
        | error x => rw [hr] at hi; cases hi
        | ok r =>
            rw [hr] at hi
            cases hi
            refine ⟨mapM_ok_length _ _ _ hr, List.map_const'.symm, rfl, rfl, ?_, ?_⟩
            · intro k n t hx ht
              obtain ⟨t', ht', hf⟩ := mapM_ok_get _ _ _ hr k _ hx
              simp only [InputOutputInfo.init] at ht
              rw [ht] at ht'
              cases ht'
              exact (Except.ok.inj hf).symm
            · intro k n a t hx ht
              obtain ⟨t', ht', hf⟩ := mapM_ok_get _ _ _ hr k _ hx
              simp only [InputOutputInfo.init] at ht
              rw [ht] at ht'
              cases ht'
              exact (hget dict hd n a t).1 hf

example : OptionMeans sampleData "-o" (.fileStd .otherOutput) ∧
    (initialInfoIn sampleDir ⟨"zip", [.flag "-v", .option "-o" "x"], ["a"]⟩ =
      .ok ⟨[.plainString, .fileStd .otherOutput], [.fileStd .streamInput], none, none⟩) := by
  refine ⟨⟨[], _, [], rfl, rfl, .file (by decide) (by decide), by simp⟩, by decide +kernel⟩

/-- A file name without an access is a mistake that makes all annotations of the command fail. -/
example : ¬ ∃ t, ArgMeans (.word "FILE") t := by
  rintro ⟨t, h⟩
  cases h with
  | word h => exact h (by decide)

/-! Laws for any list of flags and options. -/

/-- Two spellings of flags are interchangeable exactly if they have the same canonical spelling. -/
theorem C100_flag_synonyms (dir : Dir) (name : String) (hn : PlainName name) (j : Json) (hj : dir.lookup name = some (some j))
    (d : JsonData) (h : FileLists j d) (f f' : String) (hf : Declared (flagGroups d) f) (hf' : Declared (flagGroups d) f')
    (he : f ≠ "") (he' : f' ≠ "") :
    (∀ post, parseIn dir (Shlex.join (name :: f :: post)) = parseIn dir (Shlex.join (name :: f' :: post))) ↔
      ∃ p, Canonical (flagGroups d) f p ∧ Canonical (flagGroups d) f' p := by
  have hc := primaryFlag_canonical d f
  have hc' := primaryFlag_canonical d f'
  have hx : ∀ g post, Declared (flagGroups d) g → g ≠ "" → parseIn dir (Shlex.join (name :: g :: post)) =
      .ok ⟨name, anyNames (.flag (primaryFlag d g) :: (parseLoop d post).1), (parseLoop d post).2⟩ := by
    intro g post hg hge
    rw [parseIn_lists hn hj h, parseLoop_flag d g post hge hg]
  constructor
  · intro hall
    have := hall []
    rw [hx f [] hf he, hx f' [] hf' he'] at this
    simp only [Except.ok.injEq, AnyInvocation.mk.injEq, true_and] at this
    have := (List.cons.inj (anyNames_inj this.1)).1
    rw [FlagOption.flag.injEq] at this
    exact ⟨_, hc, this ▸ hc'⟩
  · rintro ⟨p, h1, h2⟩ post
    rw [hx f post hf he, hx f' post hf' he', canonical_unique hc h1, canonical_unique hc' h2]

/-- So are two spellings of options. -/
theorem C100_option_synonyms (dir : Dir) (name : String) (hn : PlainName name) (j : Json) (hj : dir.lookup name = some (some j))
    (d : JsonData) (h : FileLists j d) (o o' : String) (ho : Declared (optionGroups d) o) (ho' : Declared (optionGroups d) o')
    (hf : ¬ Declared (flagGroups d) o) (hf' : ¬ Declared (flagGroups d) o') (he : o ≠ "") (he' : o' ≠ "") :
    (∀ arg post, parseIn dir (Shlex.join (name :: o :: arg :: post)) = parseIn dir (Shlex.join (name :: o' :: arg :: post))) ↔
      ∃ p, Canonical (optionGroups d) o p ∧ Canonical (optionGroups d) o' p := by
  have hc := primaryOption_canonical d o
  have hc' := primaryOption_canonical d o'
  have hx : ∀ g arg post, Declared (optionGroups d) g → ¬ Declared (flagGroups d) g → g ≠ "" →
      parseIn dir (Shlex.join (name :: g :: arg :: post)) =
      .ok ⟨name, anyNames (.option (primaryOption d g) arg :: (parseLoop d post).1), (parseLoop d post).2⟩ := by
    intro g arg post hg hnf hge
    rw [parseIn_lists hn hj h, parseLoop_option d g arg post hge hnf hg]
  constructor
  · intro hall
    have := hall "" []
    rw [hx o _ _ ho hf he, hx o' _ _ ho' hf' he'] at this
    simp only [Except.ok.injEq, AnyInvocation.mk.injEq, true_and] at this
    have := (List.cons.inj (anyNames_inj this.1)).1
    rw [FlagOption.option.injEq] at this
    exact ⟨_, hc, this.1 ▸ hc'⟩
  · rintro ⟨p, h1, h2⟩ arg post
    rw [hx o _ _ ho hf he, hx o' _ _ ho' hf' he', canonical_unique hc h1, canonical_unique hc' h2]

/-- A spelling that is listed twice belongs to the second entry only: `-a` and `--all` of the first entry differ. -/
theorem C100_listed_twice_false :
    ¬ ∀ (d : JsonData) (g : List String), g ∈ flagGroups d → ∀ f ∈ g, ∀ f' ∈ g,
      ∃ p, Canonical (flagGroups d) f p ∧ Canonical (flagGroups d) f' p := by
  intro hall
  obtain ⟨p, h1, h2⟩ := hall ⟨[.group ["-a", "--all"], .group ["-b", "--all"]], []⟩ ["-a", "--all"] (by simp [flagGroups, flagSpellings])
    "-a" (by simp) "--all" (by simp)
  have e1 := canonical_unique h1 (primaryFlag_canonical _ _)
  have e2 := canonical_unique h2 (primaryFlag_canonical _ _)
  rw [e1] at e2
  revert e2
  decide +kernel

/-- Without such clashes the spellings of one entry have the same canonical spelling. -/
theorem C100_one_entry (groups before after : List (List String)) (x : List String)
    (hg : groups = before ++ x :: after) (hb : ∀ y ∈ before ++ after, ∀ w ∈ x, w ∉ y) (f f' : String) (hf : f ∈ x)
    (hf' : f' ∈ x) : ∃ p, Canonical groups f p ∧ Canonical groups f' p := by
  cases x with
  | nil => simp at hf
  | cons p syns =>
      have key : ∀ w ∈ p :: syns, Canonical groups w p := by
        intro w hw
        by_cases hs : w ∈ syns
        · exact .inl ⟨before, p, syns, after, hg, hs, rfl,
            fun y hy hwy => hb y (by simp [hy]) w hw (List.mem_of_mem_tail hwy)⟩
        · rcases List.mem_cons.1 hw with rfl | h
          · refine .inr ⟨fun y hy hwy => ?_, rfl⟩
            rw [hg] at hy
            rcases List.mem_append.1 hy with h | h
            · exact hb y (by simp [h]) w hw (List.mem_of_mem_tail hwy)
            · rcases List.mem_cons.1 h with rfl | h
              · exact hs hwy
              · exact hb y (by simp [h]) w hw (List.mem_of_mem_tail hwy)
          · exact absurd h hs
      exact ⟨p, key f hf, key f' hf'⟩

example : ∃ p, Canonical (flagGroups Data.d_cat) "-n" p ∧ Canonical (flagGroups Data.d_cat) "--number" p :=
  C100_one_entry _ ((flagGroups Data.d_cat).take 4) ((flagGroups Data.d_cat).drop 5) ["-n", "--number"] (by decide +kernel)
    (by decide +kernel) _ _ (by decide) (by decide)

/-- Flags and options can be read a part at a time exactly if no option that is not a flag looks like a cluster of flags. -/
theorem C100_compositional (dir : Dir) (name : String) (hn : PlainName name) (j : Json) (hj : dir.lookup name = some (some j))
    (d : JsonData) (h : FileLists j d) :
    (∀ pre post fs fs' ops, parseIn dir (Shlex.join (name :: pre)) = .ok ⟨name, anyNames fs, []⟩ →
      parseIn dir (Shlex.join (name :: post)) = .ok ⟨name, anyNames fs', ops⟩ →
      parseIn dir (Shlex.join (name :: (pre ++ post))) = .ok ⟨name, anyNames (fs ++ fs'), ops⟩) ↔
    ∀ o, Declared (optionGroups d) o → ¬ Declared (flagGroups d) o → ∀ letters, ¬ ClusterOf d o letters := by
  have hm : ∀ ws fs ops, parseIn dir (Shlex.join (name :: ws)) = .ok ⟨name, anyNames fs, ops⟩ ↔ Derives d ws fs ops :=
    fun ws => (C100_means dir name hn j hj d h ws).2
  simp only [hm]
  constructor
  · intro hall o ho hf letters hc
    have hne : o ≠ "" := by
      rintro rfl
      simp [ClusterOf] at hc
    have h1 : Derives d [o] (letters.map (fun c => .flag (String.ofList ['-', c])) ++ []) [] :=
      .cluster hf (fun hx => hx.2 rfl) hc .done
    have h2 : Derives d ["", ""] [] ["", ""] := .operands (.inl rfl)
    have h3 := hall _ _ _ _ _ h1 h2
    obtain ⟨p, hp⟩ := canonical_exists (optionGroups d) o
    have h4 : Derives d ([o] ++ ["", ""]) [.option p ""] [""] :=
      .option hne hf ho hp (.operands (.inl rfl))
    have h5 := derives_functional h3
    rw [derives_functional h4] at h5
    have := (Prod.mk.inj h5).2
    simp at this
  · intro hno pre post fs fs' ops h1 h2
    generalize h0 : ([] : List String) = ops₀ at h1
    induction h1 with
    | done => exact h2
    | operands => simp at h0
    | flag a1 a2 a3 _ ih => exact .flag a1 a2 a3 (ih h0)
    | option a1 a2 a3 a4 _ ih => exact .option a1 a2 a3 a4 (ih h0)
    | cluster a1 a2 a3 _ ih =>
        rw [List.append_assoc]
        exact .cluster a1 (fun hx => hno _ hx.1 a1 _ a3) a3 (ih h0)

/-- With an option `-ab` and flags `-a` and `-b`, the word `-ab` is a cluster at the end and an option before other words. -/
example : parseLoop ⟨[.group ["-a"], .group ["-b"]], [⟨["-ab"], .word "N"⟩]⟩ ["-ab"] = ([.flag "-a", .flag "-b"], []) ∧
    parseLoop ⟨[.group ["-a"], .group ["-b"]], [⟨["-ab"], .word "N"⟩]⟩ ["-ab", "x"] = ([.option "-ab" "x"], []) := by
  decide +kernel

/-- A cluster is the same as its flags exactly if each of them is its own canonical spelling. -/
theorem C100_clusters (dir : Dir) (name : String) (hn : PlainName name) (j : Json) (hj : dir.lookup name = some (some j))
    (d : JsonData) (h : FileLists j d) (letters : List Char) (w : String) (hc : ClusterOf d w letters)
    (hf : ¬ Declared (flagGroups d) w) (ho : ¬ Declared (optionGroups d) w) (post : List String) :
    parseIn dir (Shlex.join (name :: w :: post)) =
        parseIn dir (Shlex.join (name :: (letters.map (fun c => String.ofList ['-', c]) ++ post))) ↔
      ∀ c ∈ letters, Canonical (flagGroups d) (String.ofList ['-', c]) (String.ofList ['-', c]) := by
  rw [parseIn_lists hn hj h, parseIn_lists hn hj h]
  have h1 : parseLoop d (w :: post) =
      (letters.map (fun c => .flag (String.ofList ['-', c])) ++ (parseLoop d post).1, (parseLoop d post).2) :=
    derives_functional (.cluster hf (fun hx => ho hx.1) hc (derives_parseLoop d post))
  have h2 : ∀ ls : List Char, (∀ c ∈ ls, Declared (flagGroups d) (String.ofList ['-', c])) →
      parseLoop d (ls.map (fun c => String.ofList ['-', c]) ++ post) =
      (ls.map (fun c => .flag (primaryFlag d (String.ofList ['-', c]))) ++ (parseLoop d post).1, (parseLoop d post).2) := by
    intro ls hls
    induction ls with
    | nil => rfl
    | cons c ls ih =>
        rw [List.map_cons, List.cons_append, parseLoop_flag d _ _ (dashed_ne c) (hls c (by simp)),
          ih fun c hc => hls c (by simp [hc])]
        rfl
  rw [h1, h2 letters hc.2.2]
  simp only [Except.ok.injEq, AnyInvocation.mk.injEq, true_and, and_true]
  constructor
  · intro he c hcm
    have he := List.append_cancel_right (anyNames_inj he)
    have := (List.map_inj_left.1 he) c hcm
    rw [FlagOption.flag.injEq] at this
    have hx := primaryFlag_canonical d (String.ofList ['-', c])
    rw [← this] at hx
    exact hx
  · intro hall
    congr 2
    refine List.map_congr_left fun c hcm => ?_
    rw [canonical_unique (primaryFlag_canonical d _) (hall c hcm)]

/-! The shipped files. -/

theorem lookup_map_snd {α β : Type} (F : α → β) (l : List (String × α)) (k : String) :
    (l.map fun e => (e.1, F e.2)).lookup k = (l.lookup k).map F := by
  induction l with
  | nil => rfl
  | cons a l ih =>
      rw [List.map_cons, List.lookup_cons, List.lookup_cons, ih]
      cases k == a.1 <;> rfl

/-- A shipped file. -/
def shippedText (d : JsonData) : Json := .obj [("flag", .arr (d.flag.map flagText)), ("option", .arr (d.option.map optionText))]

theorem shippedText_lists (d : JsonData) : FileLists (shippedText d) d := ⟨_, rfl, rfl, rfl⟩

theorem getJson_shipped (name : String) : getJson shippedDir name = (getJsonData name).map shippedText := by
  have hl : ∀ k, shippedDir.lookup k = (Data.table.lookup k).map fun d => some (shippedText d) :=
    fun k => lookup_map_snd (fun d => some (shippedText d)) Data.table k
  have hd : defaultData shippedDir = .ok (shippedText Data.d_default_data_for_commands) := by
    have : Data.table.lookup "_default_data_for_commands" = some Data.d_default_data_for_commands := by decide +kernel
    simp only [defaultData, hl, this, Option.map_some, loads]
  have ha : ∀ x, shippedDir.any (fun e => e.1 ++ ".json" == x) = Data.table.any (fun e => e.1 ++ ".json" == x) := by
    intro x
    simp only [shippedDir, List.any_map]
    rfl
  unfold getJson getJsonData
  simp only [hd, ha, hl]
  split
  · rfl
  split
  · rfl
  cases dirParts name with
  | nil => cases Data.table.lookup (basePart name) <;> rfl
  | cons dir dirs =>
      simp only
      split
      · rfl
      split <;> rfl

/-- With the shipped files this is the parser of the other properties, on every text. -/
theorem C100_shipped (s : String) :
    parseIn shippedDir s = (parse s).map fun c => ⟨c.cmdName, anyNames c.flagOptionList, c.operandList⟩ := by
  cases hs : Shlex.split s with
  | error e => simp only [parseIn, parse, hs, bind, Except.bind, Except.map]
  | ok l =>
      cases l with
      | nil => simp only [parseIn, parse, hs, bind, Except.bind, parseTokens, Except.map]
      | cons name ws =>
          rw [parseIn_split _ hs, getJson_shipped]
          simp only [parse, hs, bind, Except.bind, parseTokens]
          cases getJsonData name with
          | error e => rfl
          | ok d => simp only [Except.map, readWords_lists (shippedText_lists d)]

theorem table_names_ne : ∀ p ∈ Data.table, ∀ e ∈ p.2.option, e.names ≠ [] := by decide +kernel

/-- And the generators are made as for the other properties, for every invocation. -/
theorem C100_shipped_types (c : CommandInvocationInitial) : initialInfoIn shippedDir c = initialInfo c := by
  simp only [initialInfoIn, initialInfo, flagoptionListTyper, getJson_shipped]
  cases hj : getJsonData c.cmdName with
  | error e => rfl
  | ok d =>
      have hsh : ∀ e ∈ d.option, e.names ≠ [] := by
        have hr : Readable c.cmdName := (readable_iff _).2 ⟨d, hj⟩
        rcases databaseFor_shipped ((databaseFor_iff _ _ hr).1 hj) with ⟨n, hm⟩ | rfl
        · exact table_names_ne _ hm
        · intro e he
          simp [Data.d_default_data_for_commands] at he
      simp only [bind, Except.bind, Except.map, dictClass_lists (shippedText_lists d) hsh]
      cases PashAnn.dictOptionToClassForArg d with
      | error x => rfl
      | ok dict =>
          have : typerOf (dict.map strKey) = typerOfFlagOption dict := funext fun x => typerOf_strKey dict x
          simp only [this]

end PashAnn
