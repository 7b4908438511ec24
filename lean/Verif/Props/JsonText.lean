import Verif.Lemmas.JsonSound
import Verif.Lemmas.JsonDecode
import Verif.Props.ManPage

/-!
C101: data files as texts. A text is read as the value it writes, in any layout, and rejected if it writes none (`C101_reads`);
what the library prints is read back (`C101_printed`) and needs no more than ASCII (`C101_ascii`); hence a data file given as a
text means what it lists (`C101_file`), also if it is the output of the script for manual pages (`C101_generated`), for which
`C101_generated_types` says when it can be used without a change; and the shipped texts are the tables that all other properties
speak of (`C101_shipped`).
-/

namespace PashAnn
open Spec DataFiles
open Spec.JsonText (Writes Plain Written)

/-- A text is read as a value exactly if it is a way to write it. -/
theorem C101_reads (text : List Char) (j : Json) : Json.loads text = some j ↔ Writes text j := Json.loads_iff text j

/-- Hence every text writes at most one value, and is rejected if it writes none. -/
theorem C101_one_value (text : List Char) :
    (∀ j j', Writes text j → Writes text j' → j = j') ∧ (Json.loads text = none ↔ ¬ ∃ j, Writes text j) := by
  constructor
  · intro j j' h h'
    rw [← Json.loads_iff] at h h'
    exact Option.some.inj (h.symm.trans h')
  · constructor
    · rintro h ⟨j, hj⟩
      rw [← Json.loads_iff, h] at hj
      cases hj
    · intro h
      cases hl : Json.loads text with
      | none => rfl
      | some j => exact absurd ⟨j, (Json.loads_iff text j).1 hl⟩ h

/-- Two layouts of one value, and a text that is not JSON. -/
example : (Json.loads "[ \"-a\" ,\n\t\"\\u002Db\"]".toList).bind Json.flagEntry? = some (.group ["-a", "-b"]) ∧
    (Json.loads "[\"-a\",\"-b\"]\n".toList).bind Json.flagEntry? = some (.group ["-a", "-b"]) ∧
    (Json.loads "[\"-a\",]".toList).isNone := by decide +kernel

/-- What is printed is read back. -/
theorem C101_printed (j : Json) (h : Plain j) : Json.loads (Json.dumps j) = some j ∧ Writes (Json.dumps j) j := by
  have hw : Writes (Json.dumps j) j :=
    ⟨[], Json.dumps j, [], Json.blanks_nil, Json.text_written h 0, Json.blanks_nil, by simp⟩
  exact ⟨(Json.loads_iff _ _).2 hw, hw⟩

example : Plain (.obj [("flag", .arr [.arr [.str "-a", .str "--ä\n"]]), ("option", .arr [])]) ∧
    String.ofList (Json.dumps (.obj [("flag", .arr [.arr [.str "-a", .str "--ä\n"]]), ("option", .arr [])])) =
      "{\n    \"flag\": [\n        [\n            \"-a\",\n            \"--\\u00e4\\n\"\n        ]\n    ],\n    \"option\": []\n}" := by
  refine ⟨.obj _ (by decide +kernel) ?_, by decide +kernel⟩
  intro e he
  simp only [List.mem_cons, List.not_mem_nil, or_false] at he
  rcases he with rfl | rfl
  · refine .arr _ fun v hv => ?_
    simp only [List.mem_cons, List.not_mem_nil, or_false] at hv
    subst hv
    refine .arr _ fun v hv => ?_
    simp only [List.mem_cons, List.not_mem_nil, or_false] at hv
    rcases hv with rfl | rfl <;> exact .str _
  · exact .arr _ (by simp)

/-- A printable character of ASCII, or a line end. -/
def AsciiText (cs : List Char) : Prop := ∀ c ∈ cs, c = '\n' ∨ (32 ≤ c.toNat ∧ c.toNat ≤ 126)

theorem ascii_append {a b : List Char} (ha : AsciiText a) (hb : AsciiText b) : AsciiText (a ++ b) :=
  fun c hc => (List.mem_append.1 hc).elim (ha c) (hb c)

theorem ascii_cons {c : Char} {b : List Char} (hc : 32 ≤ c.toNat ∧ c.toNat ≤ 126) (hb : AsciiText b) : AsciiText (c :: b) :=
  fun x hx => (List.mem_cons.1 hx).elim (fun h => .inr (h ▸ hc)) (hb x)

theorem ascii_hexDigit (n : Nat) (h : n < 16) : 32 ≤ (Json.hexDigit n).toNat ∧ (Json.hexDigit n).toNat ≤ 126 := by
  have key : ∀ n ∈ List.range 16, 32 ≤ (Json.hexDigit n).toNat ∧ (Json.hexDigit n).toNat ≤ 126 := by decide +kernel
  exact key n (List.mem_range.2 h)

theorem ascii_nil : AsciiText [] := nofun

theorem ascii_uText (n : Nat) : AsciiText (Json.uText n) :=
  ascii_cons (by decide) (ascii_cons (by decide) (ascii_cons (ascii_hexDigit _ (by omega)) (ascii_cons (ascii_hexDigit _ (by omega))
    (ascii_cons (ascii_hexDigit _ (by omega)) (ascii_cons (ascii_hexDigit _ (by omega)) ascii_nil)))))

theorem ascii_charText (c : Char) : AsciiText (Json.charText c) := by
  unfold Json.charText
  repeat' split
  all_goals first
    | exact ascii_cons (by decide) (ascii_cons (by decide) ascii_nil)
    | exact ascii_uText _
    | exact ascii_append (ascii_uText _) (ascii_uText _)
    | skip
  rename_i h
  simp only [Bool.and_eq_true, decide_eq_true_eq] at h
  exact ascii_cons h ascii_nil

theorem ascii_strText (s : String) : AsciiText (Json.strText s) := by
  refine ascii_append (ascii_cons (by decide) ?_) (ascii_cons (by decide) ascii_nil)
  intro c hc
  obtain ⟨x, _, hx⟩ := List.mem_flatMap.1 hc
  exact ascii_charText x c hx

theorem ascii_newLine (level : Nat) : AsciiText (Json.newLine level) := by
  intro c hc
  simp only [Json.newLine, List.mem_cons, List.mem_replicate] at hc
  rcases hc with rfl | ⟨_, rfl⟩
  · exact .inl rfl
  · exact .inr (by decide)

theorem ascii_rest (level : Nat) (l : List Json) (h : ∀ v ∈ l, AsciiText (Json.text level v)) : AsciiText (Json.textRest level l) := by
  induction l with
  | nil => exact ascii_nil
  | cons v l ih =>
    simp only [Json.textRest]
    exact ascii_append (ascii_append (ascii_cons (by decide) (ascii_newLine _)) (h v (by simp))) (ih fun w hw => h w (by simp [hw]))

theorem ascii_members (level : Nat) (l : List (String × Json)) (h : ∀ e ∈ l, AsciiText (Json.text level e.2)) :
    AsciiText (Json.textMembers level l) := by
  induction l with
  | nil => exact ascii_nil
  | cons e l ih =>
    obtain ⟨k, v⟩ := e
    simp only [Json.textMembers]
    exact ascii_append (ascii_append (ascii_append (ascii_append (ascii_cons (by decide) (ascii_newLine _)) (ascii_strText k))
      (ascii_cons (by decide) (ascii_cons (by decide) ascii_nil))) (h (k, v) (by simp))) (ih fun w hw => h w (by simp [hw]))

theorem ascii_text {j : Json} (h : Plain j) (level : Nat) : AsciiText (Json.text level j) := by
  induction h generalizing level with
  | null => unfold AsciiText; simp only [Json.text]; decide
  | bool b => cases b <;> (unfold AsciiText; simp only [Json.text]; decide)
  | str s => exact ascii_strText s
  | arr l _ ih =>
    cases l with
    | nil => unfold AsciiText; simp only [Json.text]; decide
    | cons v l =>
      simp only [Json.text]
      exact ascii_append (ascii_append (ascii_append (ascii_append (ascii_cons (by decide) (ascii_newLine _)) (ih v (by simp) _))
        (ascii_rest _ l fun w hw => ih w (by simp [hw]) _)) (ascii_newLine _)) (ascii_cons (by decide) ascii_nil)
  | obj l _ _ ih =>
    cases l with
    | nil => unfold AsciiText; simp only [Json.text]; decide
    | cons e l =>
      obtain ⟨k, v⟩ := e
      simp only [Json.text]
      exact ascii_append (ascii_append (ascii_append (ascii_append (ascii_append (ascii_append
        (ascii_cons (by decide) (ascii_newLine _)) (ascii_strText k)) (ascii_cons (by decide) (ascii_cons (by decide) ascii_nil)))
        (ih (k, v) (by simp) _)) (ascii_members _ l fun w hw => ih w (by simp [hw]) _)) (ascii_newLine _))
        (ascii_cons (by decide) ascii_nil)

/-- Nothing but printable ASCII and line ends is printed, so the encoding of the file does not matter. -/
theorem C101_ascii (j : Json) (h : Plain j) : ∀ c ∈ Json.dumps j, c = '\n' ∨ (32 ≤ c.toNat ∧ c.toNat ≤ 126) := ascii_text h 0

theorem lookup_ofTexts (files : List (String × List Char)) (name : String) :
    (ofTexts files).lookup name = (files.lookup name).map Json.loads := lookup_map_snd Json.loads files name

/-- A data file given as a text means what it lists, in any layout. -/
theorem C101_file (files : List (String × List Char)) (name : String) (hn : PlainName name) (text : List Char)
    (hf : files.lookup name = some text) (j : Json) (hw : Writes text j) (d : JsonData) (h : FileLists j d) (args : List String) :
    (∃ fs ops, parseIn (ofTexts files) (Shlex.join (name :: args)) = .ok ⟨name, anyNames fs, ops⟩) ∧
    ∀ fs ops, parseIn (ofTexts files) (Shlex.join (name :: args)) = .ok ⟨name, anyNames fs, ops⟩ ↔ Derives d args fs ops :=
  C100_means (ofTexts files) name hn j (by rw [lookup_ofTexts, hf, Option.map_some, (Json.loads_iff text j).2 hw]) d h args

/-- A file with a text that is not JSON, or writes a value of another shape, is of no use for any arguments. -/
theorem C101_file_accepted (files : List (String × List Char)) (name : String) (hn : PlainName name) (text : List Char)
    (hf : files.lookup name = some text) (args : List String) :
    (∃ inv, parseIn (ofTexts files) (Shlex.join (name :: args)) = .ok inv) ↔ ∃ j, Writes text j ∧ Fits j := by
  rw [C100_fits (ofTexts files) name hn (Json.loads text) (by rw [lookup_ofTexts, hf, Option.map_some]) args]
  exact exists_congr fun j => and_congr_left fun _ => Json.loads_iff text j

/-- A file that somebody wrote by hand. -/
def sampleText : List Char :=
  DataTexts.join ["{\"comment\": \"a new command\", \"level\": 1.5e3,", " \"flag\": [[\"-v\" , \"--verbose\"]],",
    " \"option\": [[\"-o\", \"--output\",", "              [\"FILE\", \"OTHER_OUTPUT\"]]]}", ""]

example : ∃ j, Writes sampleText j ∧ FileLists j sampleData := by
  have h : (Json.loads sampleText).bind Json.decode = some sampleData := by decide +kernel
  obtain ⟨j, hj, hd⟩ := Option.bind_eq_some_iff.1 h
  exact ⟨j, (Json.loads_iff _ _).1 hj, Json.decode_lists hd⟩

/-! The script for manual pages. -/

theorem argsDict_eq (d : JsonData) : ManPage.argsDict d = shippedText d := by
  have h1 : ∀ l : List FlagEntry, (l.map fun
      | .group names => Json.arr (names.map Json.str)
      | .bare s => .str s) = l.map flagText := fun l => List.map_congr_left fun e _ => by cases e <;> rfl
  have h2 : ∀ l : List OptionEntry, (l.map fun e => Json.arr (e.names.map Json.str ++ [match e.arg with
      | .word kind => .str kind
      | .withAccess kind access => .arr [.str kind, .str access]])) = l.map optionText :=
    fun l => List.map_congr_left fun e _ => by obtain ⟨n, a⟩ := e; cases a <;> rfl
  unfold ManPage.argsDict shippedText
  rw [← h1, ← h2]
  rfl

theorem plain_spellings (l : List String) : ∀ v ∈ spellings l, Plain v := by
  intro v hv
  obtain ⟨s, _, rfl⟩ := List.mem_map.1 hv
  exact .str s

theorem shippedText_plain (d : JsonData) : Plain (shippedText d) := by
  refine .obj _ (by show ["flag", "option"].Nodup; decide) ?_
  intro e he
  simp only [List.mem_cons, List.not_mem_nil, or_false] at he
  rcases he with rfl | rfl
  · refine .arr _ fun v hv => ?_
    obtain ⟨e, _, rfl⟩ := List.mem_map.1 hv
    cases e with
    | group names => exact .arr _ (plain_spellings names)
    | bare s => exact .str s
  · refine .arr _ fun v hv => ?_
    obtain ⟨e, _, rfl⟩ := List.mem_map.1 hv
    refine .arr _ fun v hv => ?_
    rcases List.mem_append.1 hv with hv | hv
    · exact plain_spellings _ v hv
    · rw [List.mem_singleton] at hv
      subst hv
      cases e.arg with
      | word k => exact .str k
      | withAccess k a =>
        refine .arr _ fun v hv => ?_
        simp only [List.mem_cons, List.not_mem_nil, or_false] at hv
        rcases hv with rfl | rfl <;> exact .str _

theorem printed_writes (lines : List (List Char)) : Writes (ManPage.printed lines) (shippedText (ManPage.skeleton lines)) :=
  ⟨[], _, ['\n'], Json.blanks_nil, Json.text_written (shippedText_plain _) 0, by intro c hc; simp_all, by
    simp [ManPage.printed, argsDict_eq, Json.dumps]⟩

/-- What the scripts print for a manual page, used as the data file of a command, is read as the flags and options they
found on the page. -/
theorem C101_generated (files : List (String × List Char)) (name : String) (hn : PlainName name) (page : List String)
    (hf : files.lookup name = some (ManPage.printed (ManPage.pageLines (page.map String.toList)))) (args : List String) :
    (∃ fs ops, parseIn (ofTexts files) (Shlex.join (name :: args)) = .ok ⟨name, anyNames fs, ops⟩) ∧
    ∀ fs ops, parseIn (ofTexts files) (Shlex.join (name :: args)) = .ok ⟨name, anyNames fs, ops⟩ ↔
      Derives (pageData page) args fs ops :=
  C101_file files name hn _ hf _ (printed_writes _) _ (shippedText_lists _) args

theorem addMixed_word (d : JsonData) (a : ManPage.PageArg) (h : ∀ e ∈ d.option, ∃ k, e.arg = .word k ∧ e.names ≠ []) :
    ∀ e ∈ (ManPage.addMixed d a).option, ∃ k, e.arg = .word k ∧ e.names ≠ [] := by
  cases a with
  | name n => exact h
  | withArg n a =>
    intro e he
    simp only [ManPage.addMixed, List.mem_append, List.mem_singleton] at he
    rcases he with he | rfl
    · exact h e he
    · exact ⟨_, rfl, by simp⟩

theorem skeleton_word (lines : List (List Char)) : ∀ e ∈ (ManPage.skeleton lines).option, ∃ k, e.arg = .word k ∧ e.names ≠ [] := by
  have key : ∀ (args : List (List ManPage.PageArg)) (d : JsonData), (∀ e ∈ d.option, ∃ k, e.arg = .word k ∧ e.names ≠ []) →
      ∀ e ∈ (args.foldl ManPage.addLine d).option, ∃ k, e.arg = .word k ∧ e.names ≠ [] := by
    intro args
    induction args with
    | nil => intro d h; exact h
    | cons l args ih =>
      intro d h
      refine ih _ ?_
      unfold ManPage.addLine
      split
      · exact h
      · have : ∀ (l : List ManPage.PageArg) (d : JsonData), (∀ e ∈ d.option, ∃ k, e.arg = .word k ∧ e.names ≠ []) →
            ∀ e ∈ (l.foldl ManPage.addMixed d).option, ∃ k, e.arg = .word k ∧ e.names ≠ [] := by
          intro l
          induction l with
          | nil => intro d h; exact h
          | cons a l ih => intro d h; exact ih _ (addMixed_word d a h)
        exact this l d h
  exact key _ ⟨[], []⟩ (by simp)

/-- The file can be used for the types of arguments as it is exactly if no option on the page has an argument that is called
like a file or a directory; then all option arguments are strings. -/
theorem C101_generated_types (files : List (String × List Char)) (name : String) (hn : PlainName name) (page : List String)
    (hf : files.lookup name = some (ManPage.printed (ManPage.pageLines (page.map String.toList)))) (args : List String)
    (fs : List FlagOption) (ops : List String)
    (hp : parseIn (ofTexts files) (Shlex.join (name :: args)) = .ok ⟨name, anyNames fs, ops⟩) :
    ((∃ i, initialInfoIn (ofTexts files) ⟨name, fs, ops⟩ = .ok i) ↔
      ∀ e ∈ (pageData page).option, ∀ k, e.arg = .word k → k ∉ ["FILE", "DIR", "DIRECTORY"]) ∧
    ∀ i, initialInfoIn (ofTexts files) ⟨name, fs, ops⟩ = .ok i →
      ∀ (k : Nat) n a, fs[k]? = some (.option n a) → i.flagoptionListTyper[k]? = some .argString := by
  have hj : (ofTexts files).lookup name = some (some (shippedText (pageData page))) := by
    rw [lookup_ofTexts, hf, Option.map_some, (Json.loads_iff _ _).2 (printed_writes _)]; rfl
  have hword := skeleton_word (ManPage.pageLines (page.map String.toList))
  obtain ⟨h1, h2⟩ := C100_types (ofTexts files) name hn _ hj (pageData page) (shippedText_lists _)
    (fun e he => (hword e he).elim fun k hk => hk.2) args fs ops hp
  have hm : ∀ e ∈ (pageData page).option, ∀ t, ArgMeans e.arg t ↔
      t = .argString ∧ ∀ k, e.arg = .word k → k ∉ ["FILE", "DIR", "DIRECTORY"] := by
    intro e he t
    obtain ⟨k, hk, _⟩ := hword e he
    rw [hk]
    constructor
    · intro h
      cases h with
      | word h => exact ⟨rfl, fun k' hk' => by cases hk'; exact h⟩
    · rintro ⟨rfl, h⟩
      exact .word (h k rfl)
  constructor
  · rw [h1]
    constructor
    · intro h e he
      obtain ⟨t, ht⟩ := h e he
      exact ((hm e he t).1 ht).2
    · intro h e he
      exact ⟨.argString, (hm e he _).2 ⟨rfl, h e he⟩⟩
  · intro i hi k n a hk
    obtain ⟨hl, _, _, _, _, hopt⟩ := h2 i hi
    have hlt : k < i.flagoptionListTyper.length := by
      rw [hl]
      exact (List.getElem?_eq_some_iff.1 hk).1
    obtain ⟨before, e, after, ho, _, ht, _⟩ := hopt k n a _ hk (List.getElem?_eq_getElem hlt)
    rw [List.getElem?_eq_getElem hlt, ((hm e (by rw [ho]; simp) _).1 ht).1]

/-- The manual page of a command with two flags and two options. -/
def samplePage : List String :=
  ["NAME", "       zip - a new command", "       -v, --verbose", "              say more", "       --level=N", "       -o FILE"]

example : PlainName "zip" ∧ pageData samplePage =
    ⟨[.group ["-v", "--verbose"]], [⟨["--level"], .word "N"⟩, ⟨["-o"], .word "FILE"⟩]⟩ ∧
    Derives (pageData samplePage) ["--verbose", "--level", "9", "a"] [.flag "-v", .option "--level" "9"] ["a"] :=
  ⟨⟨by decide +kernel, by decide +kernel, by decide +kernel⟩, by decide +kernel, (derives_iff _ _ _ _).2 (by decide +kernel)⟩

/-! The shipped files. -/

/-- The shipped data directory, by the texts of its files. -/
def shippedTexts : List (String × List Char) := DataTexts.table.map fun e => (e.1, DataTexts.join e.2)

theorem shippedTexts_lookup (k : String) :
    ((ofTexts shippedTexts).lookup k = none ∧ Data.table.lookup k = none) ∨
    ∃ j d, (ofTexts shippedTexts).lookup k = some (some j) ∧ Data.table.lookup k = some d ∧ FileLists j d := by
  have hl : (ofTexts shippedTexts).lookup k = (DataTexts.table.lookup k).map fun t => Json.loads (DataTexts.join t) := by
    rw [lookup_ofTexts, shippedTexts, lookup_map_snd DataTexts.join, Option.map_map]
    rfl
  rw [hl]
  cases hk : DataTexts.table.lookup k with
  | none =>
    refine .inl ⟨rfl, ?_⟩
    have h1 : k ∉ DataTexts.table.map Prod.fst := by
      intro hm
      obtain ⟨e, he, rfl⟩ := List.mem_map.1 hm
      exact absurd hk (by rw [List.lookup_eq_none_iff]; intro h; simpa using h e he)
    rw [Json.texts_names] at h1
    rw [List.lookup_eq_none_iff]
    intro e he
    simp only [bne_iff_ne, ne_eq]
    rintro rfl
    exact h1 (List.mem_map_of_mem he)
  | some t =>
    refine .inr ?_
    have hmem : (k, t) ∈ DataTexts.table := by
      obtain ⟨l1, l2, h, _⟩ := List.lookup_eq_some_iff.1 hk
      rw [h]; simp
    have hd := Json.texts_decode (k, t) hmem
    have hsome : (Data.table.lookup k).isSome := by
      have h1 : k ∈ Data.table.map Prod.fst := by
        rw [← Json.texts_names]
        exact List.mem_map_of_mem hmem
      obtain ⟨e, he, rfl⟩ := List.mem_map.1 h1
      rw [Option.isSome_iff_ne_none]
      intro hn
      rw [List.lookup_eq_none_iff] at hn
      simpa using hn e he
    obtain ⟨d, hdd⟩ := Option.isSome_iff_exists.1 hsome
    simp only [hdd] at hd
    obtain ⟨j, hj, hdec⟩ := Option.bind_eq_some_iff.1 hd
    exact ⟨j, d, by rw [Option.map_some, hj], hdd, Json.decode_lists hdec⟩

theorem getJson_texts (name : String) :
    (∃ e, getJson (ofTexts shippedTexts) name = .error e ∧ getJsonData name = .error e) ∨
    ∃ j d, getJson (ofTexts shippedTexts) name = .ok j ∧ getJsonData name = .ok d ∧ FileLists j d := by
  have hdef : ∃ j, defaultData (ofTexts shippedTexts) = .ok j ∧ FileLists j Data.d_default_data_for_commands := by
    rcases shippedTexts_lookup "_default_data_for_commands" with ⟨_, h⟩ | ⟨j, d, h1, h2, h3⟩
    · exact absurd h (by decide +kernel)
    · have : Data.table.lookup "_default_data_for_commands" = some Data.d_default_data_for_commands := by decide +kernel
      rw [this, Option.some.injEq] at h2
      subst h2
      exact ⟨j, by simp only [defaultData, h1, loads], h3⟩
  obtain ⟨jd, hjd, hld⟩ := hdef
  have ha : ∀ x, (ofTexts shippedTexts).any (fun e => e.1 ++ ".json" == x) = Data.table.any (fun e => e.1 ++ ".json" == x) := by
    intro x
    have e1 : (ofTexts shippedTexts).any (fun e => e.1 ++ ".json" == x) = (DataTexts.table.map Prod.fst).any (fun n => n ++ ".json" == x) := by
      simp only [ofTexts, shippedTexts, List.any_map]
      rfl
    have e2 : Data.table.any (fun e => e.1 ++ ".json" == x) = (Data.table.map Prod.fst).any (fun n => n ++ ".json" == x) := by
      simp only [List.any_map]
      rfl
    rw [e1, e2, Json.texts_names]
  unfold getJson getJsonData
  simp only [hjd, ha]
  split
  · exact .inl ⟨_, rfl, rfl⟩
  split
  · exact .inl ⟨_, rfl, rfl⟩
  cases dirParts name with
  | nil =>
    rcases shippedTexts_lookup (basePart name) with ⟨h1, h2⟩ | ⟨j, d, h1, h2, h3⟩
    · rw [h1, h2]
      exact .inr ⟨jd, _, rfl, rfl, hld⟩
    · rw [h1, h2]
      exact .inr ⟨j, d, rfl, rfl, h3⟩
  | cons dir dirs =>
    simp only
    split
    · exact .inl ⟨_, rfl, rfl⟩
    split
    · exact .inl ⟨_, rfl, rfl⟩
    · exact .inr ⟨jd, _, rfl, rfl, hld⟩

/-- With the texts of the shipped files this is the parser of the other properties, on every text. -/
theorem C101_shipped (s : String) :
    parseIn (ofTexts shippedTexts) s = (parse s).map fun c => ⟨c.cmdName, anyNames c.flagOptionList, c.operandList⟩ := by
  cases hs : Shlex.split s with
  | error e => simp only [parseIn, parse, hs, bind, Except.bind, Except.map]
  | ok l =>
    cases l with
    | nil => simp only [parseIn, parse, hs, bind, Except.bind, parseTokens, Except.map]
    | cons name ws =>
      rw [parseIn_split _ hs]
      simp only [parse, hs, bind, Except.bind, parseTokens]
      rcases getJson_texts name with ⟨e, h1, h2⟩ | ⟨j, d, h1, h2, h3⟩
      · rw [h1, h2]; rfl
      · rw [h1, h2]
        simp only [Except.map, readWords_lists h3]

/-- And the generators are made as for the other properties, for every invocation. -/
theorem C101_shipped_types (c : CommandInvocationInitial) : initialInfoIn (ofTexts shippedTexts) c = initialInfo c := by
  rw [← C100_shipped_types]
  simp only [initialInfoIn, getJson_shipped]
  rcases getJson_texts c.cmdName with ⟨e, h1, h2⟩ | ⟨j, d, h1, h2, h3⟩
  · rw [h1, h2]; rfl
  · rw [h1, h2]
    have hsh : ∀ e ∈ d.option, e.names ≠ [] := by
      have hr : Readable c.cmdName := (readable_iff _).2 ⟨d, h2⟩
      rcases databaseFor_shipped ((databaseFor_iff _ _ hr).1 h2) with ⟨n, hm⟩ | rfl
      · exact table_names_ne _ hm
      · intro e he
        simp [Data.d_default_data_for_commands] at he
    simp only [bind, Except.bind, Except.map, dictClass_lists h3 hsh, dictClass_lists (shippedText_lists d) hsh]

end PashAnn
