import Verif.Lemmas.Files
import Verif.Props.JsonBytes

/-!
Property C102: which file describes a command, on any machine. Specification: `Spec/Files.lean`. The file that is opened is the
one to which the path leads (`C102_opened`, `C102_consulted`, `C102_raises`). One would like only files of the library to be opened; a name of a
command with `..` can lead to every file on the machine (`C102_own_files_false`). Names that do not leave the data
directory depend on nothing outside it, wherever the library is installed (`C102_place`), and with the files of the other
properties in it everything is as said there (`C102_installed`, `C102_shipped`). A name that is too long for a file is an error
(`C102_long`).
-/

namespace PashAnn
open Spec Spec.Files Files
open Spec.JsonText (Writes)
open Spec.Encodings (Holds Encoding mark)

/-- Opening the data file for a command ends as the path says. -/
theorem C102_opened (m : Machine) (name : String) (r : Except FileErr (List UInt8)) :
    getData m (resourceOf name.toList) = r ↔ Opens m name r := getData_iff m name r

/-- A command is described by `j` exactly if its data file holds `j`, in any encoding, or if there is no such file and the default
file holds `j`. -/
theorem C102_consulted (m : Machine) (name : String) (j : Json) :
    Files.getJson m name = .ok j ↔ Char.ofNat 0 ∉ name.toList ∧ ∃ bytes, Holds bytes j ∧
      (Opens m name (.ok bytes) ∨
        (Opens m name (.error .noEntry) ∧ Opens m "_default_data_for_commands" (.ok bytes))) := by
  have hloads : ∀ bytes, Bytes.loads bytes = .ok j ↔ Holds bytes j := fun bytes => C105_encodings bytes j
  simp only [← C102_opened]
  by_cases h0 : Char.ofNat 0 ∈ name.toList
  · simp [Files.getJson, h0]
  · have h0' : name.toList.contains (Char.ofNat 0) = false := by simpa using h0
    unfold Files.getJson
    rw [h0', if_neg (by simp)]
    simp only [h0, not_false_eq_true, true_and]
    rcases h1 : getData m (resourceOf name.toList) with e | text
    · have hno : ∀ t, Except.error e ≠ (Except.ok t : Except FileErr (List UInt8)) := by intro t h; cases h
      cases e with
      | noEntry =>
          simp only [hno, false_or, true_and]
          rcases h2 : getData m (resourceOf "_default_data_for_commands".toList) with e | text
          · cases e <;> simp
          · simp [hloads, and_comm]
      | _ => simp
    · simp [hloads, and_comm]

/-- A command has no description exactly for these reasons: a null byte in the name, a file that holds no value, neither
its file nor the default file, or another error when one of them is opened. Which error it is for a file that holds no value is said
by `C105_one_value` and `C105_utf8`. -/
theorem C102_raises (m : Machine) (name : String) (e : PyErr) :
    Files.getJson m name = .error e ↔
      (Char.ofNat 0 ∈ name.toList ∧ e = .valueError "embedded null byte") ∨
      (Char.ofNat 0 ∉ name.toList ∧
        ((∃ bytes, (∀ j, ¬ Holds bytes j) ∧ Bytes.loads bytes = .error e ∧
            (Opens m name (.ok bytes) ∨
              (Opens m name (.error .noEntry) ∧ Opens m "_default_data_for_commands" (.ok bytes)))) ∨
          (Opens m name (.error .noEntry) ∧ Opens m "_default_data_for_commands" (.error .noEntry) ∧
            e = .exception "json-File for default values not found.") ∨
          ∃ f, Raised f e ∧
            (Opens m name (.error f) ∨
              (Opens m name (.error .noEntry) ∧ Opens m "_default_data_for_commands" (.error f))))) := by
  have hloads : ∀ bytes, ((∀ j, ¬ Holds bytes j) ∧ Bytes.loads bytes = .error e) ↔ Bytes.loads bytes = .error e := by
    intro bytes
    simp only [← C105_encodings]
    cases Bytes.loads bytes <;> simp
  simp only [← and_assoc, hloads]
  simp only [and_assoc]
  have hraised : ∀ f, f ≠ .noEntry → (Files.raised f = e ↔ Raised f e) := by
    intro f hf
    constructor
    · rintro rfl
      cases f <;> first | exact absurd rfl hf | constructor
    · rintro ⟨⟩ <;> rfl
  have hno : ¬ Raised .noEntry e := by rintro ⟨⟩
  simp only [← C102_opened]
  by_cases h0 : Char.ofNat 0 ∈ name.toList
  · simp [Files.getJson, h0, eq_comm]
  have h0' : name.toList.contains (Char.ofNat 0) = false := by simpa using h0
  unfold Files.getJson
  rw [h0', if_neg (by simp)]
  simp only [h0, not_false_eq_true, true_and, false_and, false_or]
  rcases h1 : getData m (resourceOf name.toList) with f | text
  · by_cases hf : f = .noEntry
    · subst hf
      rcases h2 : getData m (resourceOf "_default_data_for_commands".toList) with f | text
      · by_cases hf : f = .noEntry
        · subst hf
          simp [hno, eq_comm]
        · have := hraised f hf
          cases f <;> simp_all <;>
            exact ⟨fun h => ⟨_, h, .inr rfl⟩, by rintro ⟨f, h, rfl | rfl⟩ <;> first | exact absurd h hno | exact h⟩
      · simp [hno]
    · have := hraised f hf
      cases f <;> simp_all
  · simp

/-- One would like only the files of the library to be opened. But every file on the machine whose name ends in `.json` is read
as the description of a command with a suitable name, and if it has the form of a data file then all words are read as it says,
whatever the machine and wherever the library is installed, if names and paths are not too long. -/
theorem C102_own_files_false (m : Machine) (pos : List String) (es : Entries) (hd : DataDirectory m pos es)
    (dirs : List String) (base : String) (bytes : List UInt8) (hf : At m.root (dirs ++ [base ++ ".json"]) (.file bytes))
    (hn : ∀ p ∈ dirs ++ [base ++ ".json"], Name m.nameMax p ∧ '/' ∉ p.toList ∧ Char.ofNat 0 ∉ p.toList)
    (k : Nat) (hk : pos.length ≤ k)
    (hs : Short m (m.package ++ (["command_flag_option_info", "data"] ++ (List.replicate k ".." ++ (dirs ++ [base ++ ".json"]))))) :
    ∃ name, Parts name.toList (List.replicate k ".." ++ (dirs ++ [base])) ∧ Files.getJson m name = Bytes.loads bytes ∧
      ∀ j d, Holds bytes j → FileLists j d → ∀ args fs ops,
        Files.parse m (Shlex.join (name :: args)) = .ok ⟨name, anyNames fs, ops⟩ ↔ Derives d args fs ops := by
  have hdots : ∀ q ∈ List.replicate k "..", q = ".." := fun q hq => (List.mem_replicate.1 hq).2
  have hbase : '/' ∉ base.toList ∧ Char.ofNat 0 ∉ base.toList := by
    have := hn _ (List.mem_append_right _ (List.mem_singleton.2 rfl))
    rw [String.toList_append] at this
    exact ⟨fun h => this.2.1 (by simp [h]), fun h => this.2.2 (by simp [h])⟩
  obtain ⟨name, hparts⟩ := parts_of (qs := List.replicate k ".." ++ (dirs ++ [base])) (by simp) (by
    intro q hq
    rcases List.mem_append.1 hq with hq | hq
    · rw [hdots q hq]; decide
    · rcases List.mem_append.1 hq with hq | hq
      · exact (hn q (by simp [hq])).2.1
      · rw [List.mem_singleton.1 hq]; exact hbase.1)
  have h0 : Char.ofNat 0 ∉ name.toList := by
    intro hc
    rcases parts_chars hparts hc with h | ⟨q, hq, h⟩
    · revert h; decide
    · rcases List.mem_append.1 hq with hq | hq
      · rw [hdots q hq] at h; revert h; decide
      · rcases List.mem_append.1 hq with hq | hq
        · exact (hn q (by simp [hq])).2.2 h
        · rw [List.mem_singleton.1 hq] at h; exact hbase.2 h
  have hp : Parts (name.toList ++ ".json".toList) (List.replicate k ".." ++ (dirs ++ [base ++ ".json"])) := by
    have := parts_suffix (qs := List.replicate k ".." ++ dirs) (b := base) (by simpa using hparts) ".json" (by decide)
    simpa using this
  have hfil : (List.replicate k ".." ++ (dirs ++ [base ++ ".json"])).filter (· ≠ "") =
      List.replicate k ".." ++ (dirs ++ [base ++ ".json"]) := by
    rw [List.filter_eq_self]
    intro q hq
    rcases List.mem_append.1 hq with hq | hq
    · rw [hdots q hq]; decide
    · have := (hn q hq).1.1
      simp only [List.mem_cons, not_or] at this
      simp [this.1]
  obtain ⟨n, up, hst, hget⟩ := getData_below hd
  have hdp : DataPath m name (m.package ++ (["command_flag_option_info", "data"] ++
      (List.replicate k ".." ++ (dirs ++ [base ++ ".json"])))) := ⟨_, hp, by rw [hfil]⟩
  have hlead : Leads m.root m.nameMax n pos (List.replicate k ".." ++ (dirs ++ [base ++ ".json"])) n dirs [base ++ ".json"] :=
    leads_trans (leads_ups m.root m.nameMax n k pos _ hk) (leads_down n [] dirs (base ++ ".json") hf (fun p hp => (hn p (by simp [hp])).1))
  obtain ⟨cur', up', hs', he⟩ := leads_open hlead hst
  have hdata : getData m (resourceOf name.toList) = .ok bytes := by
    rw [hget name _ _ hdp hs hp, hfil, he]
    exact ends_open (.file (hn _ (by simp)).1 hf) hs'
  have hjson : Files.getJson m name = Bytes.loads bytes := by
    have h0' : name.toList.contains (Char.ofNat 0) = false := by simpa using h0
    unfold Files.getJson
    rw [h0', if_neg (by simp), hdata]
  refine ⟨name, hparts, hjson, fun j d hw hl args fs ops => ?_⟩
  rw [Files.parse_join, hjson, (C105_encodings bytes j).2 hw]
  simp only [bind, Except.bind, DataFiles.readWords_lists hl]
  rw [derives_iff]
  constructor
  · intro he
    simp only [Except.ok.injEq, DataFiles.AnyInvocation.mk.injEq, true_and] at he
    rw [← he.2, ← DataFiles.anyNames_inj he.1]
  · intro he
    rw [he]

/-- A file that lists one flag. -/
def sampleQuiet : Json := .obj [("flag", .arr [.arr [.str "-q"]]), ("option", .arr [])]

/-- A machine with the library in `/lib/p`, known as `/usr/lib/p`, and with another file in `/tmp`, in UTF-16 with a mark. -/
def sampleMachine (es : Entries) : Machine where
  root := [("lib", .dir [("p", .dir [("command_flag_option_info", .dir [("data", .dir es)])])]),
    ("tmp", .dir [("x.json", .file ((Encoding.utf16 .little).encode (mark :: Json.dumps sampleQuiet)))]),
    ("usr", .link "/".toList)]
  package := ["usr", "lib", "p"]
  nameMax := 255
  pathMax := 4096
  linkMax := 40

theorem sampleMachine_data (es : Entries) :
    DataDirectory (sampleMachine es) ["lib", "p", "command_flag_option_info", "data"] es := by
  refine ⟨⟨39, ?_⟩, .inside rfl (.inside rfl (.inside rfl (.here rfl)))⟩
  have hn : ∀ p ∈ (["usr", "lib", "p", "command_flag_option_info", "data"] : List String), Name (sampleMachine es).nameMax p := by
    show ∀ p ∈ (["usr", "lib", "p", "command_flag_option_info", "data"] : List String), Name 255 p
    decide +kernel
  refine .absolute (hn _ (by simp)) (.here rfl) rfl ((parts_iff _ _).2 rfl) ?_
  refine .stay (by decide +kernel) (.stay (by decide +kernel) ?_)
  exact .down (hn _ (by simp)) (.here rfl) (.down (hn _ (by simp)) (.inside rfl (.here rfl))
    (.down (hn _ (by simp)) (.inside rfl (.inside rfl (.here rfl)))
      (.down (hn _ (by simp)) (.inside rfl (.inside rfl (.inside rfl (.here rfl)))) .here)))

/-- The file in `/tmp` describes the command `../../../../tmp/x`. -/
example (es : Entries) : ∃ name, Parts name.toList ["..", "..", "..", "..", "tmp", "x"] ∧
    ∀ args fs ops, Files.parse (sampleMachine es) (Shlex.join (name :: args)) = .ok ⟨name, anyNames fs, ops⟩ ↔
      Derives ⟨[.group ["-q"]], []⟩ args fs ops := by
  obtain ⟨name, h1, _, h2⟩ := C102_own_files_false (sampleMachine es) _ _ (sampleMachine_data es) ["tmp"] "x"
    ((Encoding.utf16 .little).encode (mark :: Json.dumps sampleQuiet)) (.inside rfl (.here rfl)) (by
      show ∀ p ∈ (["tmp"] ++ ["x" ++ ".json"] : List String), Name 255 p ∧ '/' ∉ p.toList ∧ Char.ofNat 0 ∉ p.toList
      decide +kernel) 4 (by decide) (by
      show (((["usr", "lib", "p"] : List String) ++ (["command_flag_option_info", "data"] ++
        (List.replicate 4 ".." ++ (["tmp"] ++ ["x" ++ ".json"])))).map fun p => p.utf8ByteSize + 1).sum < 4096
      decide +kernel)
  refine ⟨name, h1, h2 sampleQuiet _ ⟨_, _, (C101_printed _ (.obj _ (by decide +kernel) ?_)).2, .inr rfl⟩ ⟨_, rfl, rfl, rfl⟩⟩
  intro e he
  simp only [List.mem_cons, List.not_mem_nil, or_false] at he
  rcases he with rfl | rfl
  · refine .arr _ fun v hv => ?_
    rw [List.mem_singleton.1 hv]
    refine .arr _ fun v hv => ?_
    rw [List.mem_singleton.1 hv]
    exact .str _
  · exact .arr _ (by simp)

/-- A directory with the name of a data file is an error, not a missing file. -/
example (es : Entries) : Files.getJson (sampleMachine (("d.json", .dir es) :: es)) "d" = .error (.osError "Is a directory") := by
  refine (C102_raises _ _ _).2 (.inr ⟨by decide, .inr (.inr ⟨_, .isDirectory, .inl ?_⟩)⟩)
  exact (C102_opened _ _ _).1 rfl

/-- A data file that may not be read is an error, not a missing file; so is anything in a directory that may not be searched. -/
example (es : Entries) : Files.getJson (sampleMachine (("d.json", .unreadable) :: ("e", .closed) :: es)) "d" = .error (.osError "Permission denied") ∧
    Files.getJson (sampleMachine (("d.json", .unreadable) :: ("e", .closed) :: es)) "e/../x" = .error (.osError "Permission denied") := by
  constructor
  · refine (C102_raises _ _ _).2 (.inr ⟨by decide, .inr (.inr ⟨_, .denied, .inl ?_⟩)⟩)
    exact (C102_opened _ _ _).1 rfl
  · refine (C102_raises _ _ _).2 (.inr ⟨by decide, .inr (.inr ⟨_, .denied, .inl ?_⟩)⟩)
    exact (C102_opened _ _ _).1 rfl

/-- Names that stay below the data directory, which has no symbolic links, mean the same on all machines with the same data
directory and the same limit for names, wherever the library is installed and whatever else is there. -/
theorem C102_place (m m' : Machine) (pos pos' : List String) (es : Entries) (hd : DataDirectory m pos es)
    (hd' : DataDirectory m' pos' es) (hl : NoLinks es) (hmax : m.nameMax = m'.nameMax) (name : String) (qs : List String)
    (hq : Parts (name.toList ++ ".json".toList) qs) (hst : StaysBelow 0 qs)
    (hs : ∀ x ∈ [name, "_default_data_for_commands"], ∀ path, DataPath m x path → Short m path)
    (hs' : ∀ x ∈ [name, "_default_data_for_commands"], ∀ path, DataPath m' x path → Short m' path) :
    Files.getJson m name = Files.getJson m' name ∧
    (∀ args, Files.parse m (Shlex.join (name :: args)) = Files.parse m' (Shlex.join (name :: args))) ∧
    ∀ c : CommandInvocationInitial, c.cmdName = name → Files.initialInfo m c = Files.initialInfo m' c := by
  obtain ⟨n, up, _, hget⟩ := getData_below hd
  obtain ⟨n', up', _, hget'⟩ := getData_below hd'
  have key : ∀ x ∈ [name, "_default_data_for_commands"], ∀ qs, Parts (x.toList ++ ".json".toList) qs → StaysBelow 0 qs →
      getData m (resourceOf x.toList) = getData m' (resourceOf x.toList) := by
    intro x hx qs hq hst
    obtain ⟨path, hp⟩ := dataPath_exists m x
    obtain ⟨path', hp'⟩ := dataPath_exists m' x
    rw [hget x path qs hp (hs x hx path hp) hq, hget' x path' qs hp' (hs' x hx path' hp') hq, hmax]
    exact openFile_stays m.root m'.root m'.nameMax n n' _ (staysBelow_filter hst) (ins := []) rfl hl (by simp) up up'
  have hj : Files.getJson m name = Files.getJson m' name := by
    unfold Files.getJson
    rw [key name (by simp) qs hq hst, key "_default_data_for_commands" (by simp) ["_default_data_for_commands.json"]
      (.last (s := "_default_data_for_commands.json") (by decide +kernel)) (by simp [StaysBelow])]
  refine ⟨hj, fun args => by rw [Files.parse_join, Files.parse_join, hj], ?_⟩
  rintro c rfl
  unfold Files.initialInfo
  rw [hj]

/-- With the files of `Model/DataFiles.lean` in the data directory, in UTF-8, without null characters and marks, every command line is read as there, except for the names that
are left open there. -/
theorem C102_installed (m : Machine) (pos : List String) (texts : List (String × List Char))
    (hd : DataDirectory m pos (filesOf texts)) (ht : ∀ e ∈ texts, Char.ofNat 0 ∉ e.2 ∧ e.2.head? ≠ some mark) (hmax : 255 ≤ m.nameMax)
    (hs : (m.package.map fun p => p.utf8ByteSize + 1).sum + 300 ≤ m.pathMax) :
    (∀ s, DataFiles.parseIn (DataFiles.ofTexts texts) s ≠ .error .outsideModel →
      Files.parse m s = DataFiles.parseIn (DataFiles.ofTexts texts) s) ∧
    ∀ c, DataFiles.getJson (DataFiles.ofTexts texts) c.cmdName ≠ .error .outsideModel →
      Files.initialInfo m c = DataFiles.initialInfoIn (DataFiles.ofTexts texts) c := by
  have key : ∀ name, DataFiles.getJson (DataFiles.ofTexts texts) name ≠ .error .outsideModel →
      Files.getJson m name = DataFiles.getJson (DataFiles.ofTexts texts) name := by
    intro name hne
    by_cases h0 : Char.ofNat 0 ∈ name.toList
    · simp [Files.getJson, DataFiles.getJson, h0]
    have h0' : name.toList.contains (Char.ofNat 0) = false := by simpa using h0
    unfold Files.getJson
    unfold DataFiles.getJson at hne ⊢
    rw [h0', if_neg (by simp)] at hne
    rw [h0', if_neg (by simp), if_neg (by simp)]
    by_cases h1 : 250 < name.utf8ByteSize
    · rw [if_pos h1] at hne; exact absurd rfl hne
    rw [if_neg h1] at hne ⊢
    obtain ⟨n, up, _, hget⟩ := getData_below hd
    -- opening by name
    have hopen : ∀ x : String, x.utf8ByteSize ≤ 250 → ∀ qs b, Parts x.toList (qs ++ [b]) →
        match qs.filter (fun p => p != "" && p != ".") with
        | [] => getData m (resourceOf x.toList) =
            match (filesOf texts).lookup (b ++ ".json") with
            | some (.file text) => .ok text
            | _ => .error .noEntry
        | d :: _ => d ≠ ".." → getData m (resourceOf x.toList) =
            if texts.any (fun e => e.1 ++ ".json" == d) then .error .notDirectory else .error .noEntry := by
      intro x hx qs b hp
      have hp' := parts_suffix hp ".json" (by decide)
      obtain ⟨path, hpath⟩ := dataPath_exists m x
      have hsum := parts_size hp'
      have hsz : (String.ofList (x.toList ++ ".json".toList)).utf8ByteSize = x.utf8ByteSize + 5 := by
        rw [String.ofList_append, String.utf8ByteSize_append, String.ofList_toList, String.ofList_toList]
        rfl
      have hle : ∀ q ∈ qs ++ [b ++ ".json"], q.utf8ByteSize ≤ 255 := by
        intro q hq
        have := le_sum_of_mem (fun p : String => p.utf8ByteSize + 1) hq
        omega
      have hbn : b ++ ".json" ∉ ["", ".", ".."] := by
        have h5 : (b ++ ".json").utf8ByteSize = b.utf8ByteSize + 5 := by rw [String.utf8ByteSize_append]; rfl
        intro hm
        simp only [List.mem_cons, List.not_mem_nil, or_false] at hm
        rcases hm with h | h | h <;> rw [h] at h5 <;>
          simp only [show "".utf8ByteSize = 0 from rfl, show ".".utf8ByteSize = 1 from rfl, show "..".utf8ByteSize = 2 from rfl] at h5 <;> omega
      have hname : Name m.nameMax (b ++ ".json") := ⟨hbn, by have := hle (b ++ ".json") (by simp); omega⟩
      have hshort : Short m path := by
        obtain ⟨qs', hq', rfl⟩ := hpath
        have e : qs' = qs ++ [b ++ ".json"] := by rw [← (parts_iff _ _).1 hp', ← (parts_iff _ _).1 hq']
        subst e
        have := filter_sum_le (fun p : String => p.utf8ByteSize + 1) (· ≠ "") (qs ++ [b ++ ".json"])
        have h30 : ((["command_flag_option_info", "data"] : List String).map fun p => p.utf8ByteSize + 1).sum = 30 := by decide +kernel
        unfold Short
        rw [List.map_append, List.sum_append, List.map_append, List.sum_append, h30]
        omega
      have hfil : (qs ++ [b ++ ".json"]).filter (· ≠ "") = qs.filter (· ≠ "") ++ [b ++ ".json"] := by
        rw [List.filter_append]
        congr 1
        simp only [List.mem_cons, not_or] at hbn
        simp [hbn.1]
      rw [hget x path _ hpath hshort hp', hfil]
      have := open_files m.root m.nameMax n texts up (qs.filter (· ≠ "")) (b ++ ".json") hname
        (fun q hq => by have := hle q (by simp [(List.mem_filter.1 hq).1]); omega)
      rw [List.filter_filter] at this
      have hff : qs.filter (fun a => (a != "" && a != ".") && decide (a ≠ "")) = qs.filter (fun p => p != "" && p != ".") := by
        congr 1
        funext a
        by_cases h : a = "" <;> simp [h]
      rw [hff] at this
      exact this
    -- the default file
    have hload : ∀ k t, texts.lookup k = some t → DataFiles.loads (Json.loads t) = Bytes.loads (Encoding.utf8.encode t) := by
      intro k t hk
      obtain ⟨h0, hm⟩ := ht (k, t) (lookup_mem hk)
      rw [Bytes.loads_utf8 t (fun c hc h => h0 (by rw [← h, Char.ofNat_toNat]; exact hc)) hm]
      unfold DataFiles.loads
      cases Json.loads t <;> rfl
    have hlk : ∀ k, (DataFiles.ofTexts texts).lookup k = (texts.lookup k).map Json.loads :=
      fun k => lookup_map_snd Json.loads texts k
    have hdef := hopen "_default_data_for_commands" (by decide +kernel) [] "_default_data_for_commands"
      (.last (by decide +kernel))
    simp only [List.filter_nil, filesOf_lookup] at hdef
    have hdefault : (match getData m (resourceOf "_default_data_for_commands".toList) with
        | .ok bytes => Bytes.loads bytes
        | .error .noEntry => .error (.exception "json-File for default values not found.")
        | .error e => .error (raised e)) = DataFiles.defaultData (DataFiles.ofTexts texts) := by
      rw [hdef]
      unfold DataFiles.defaultData
      rw [hlk]
      cases hk : texts.lookup "_default_data_for_commands" with
      | none => rfl
      | some t => exact (hload _ t hk).symm
    -- the file itself
    have hparts : Parts name.toList ((splitSlash name.toList).map String.ofList) := (parts_iff _ _).2 rfl
    obtain ⟨qs, b, hqs⟩ := parts_snoc hparts
    have hdir : dirParts name = qs.filter (fun p => p != "" && p != ".") := by
      unfold dirParts
      rw [List.map_dropLast, hqs, List.dropLast_concat]
    have hbase : basePart name = b := by
      unfold basePart
      have h1 := congrArg List.getLast? hqs
      rw [List.getLast?_map, List.getLast?_concat] at h1
      cases h2 : (splitSlash name.toList).getLast? with
      | none => rw [h2] at h1; cases h1
      | some w =>
          rw [h2] at h1
          rw [List.getLastD_eq_getLast?, h2]
          exact Option.some.inj h1
    rw [hqs] at hparts
    have hmain := hopen name (by omega) qs b hparts
    rw [← hdir] at hmain
    rw [hbase] at hne ⊢
    cases hdp : dirParts name with
    | nil =>
        rw [hdp] at hmain
        simp only [filesOf_lookup] at hmain
        simp only [hmain, hlk]
        cases hk : texts.lookup b with
        | none => exact hdefault
        | some t => exact (hload b t hk).symm
    | cons d ds =>
        rw [hdp] at hmain hne
        by_cases hdd : d = ".."
        · subst hdd
          exact absurd rfl hne
        · have hmain := hmain hdd
          have hany : (DataFiles.ofTexts texts).any (fun e => e.1 ++ ".json" == d) = texts.any (fun e => e.1 ++ ".json" == d) := by
            unfold DataFiles.ofTexts
            rw [List.any_map]
            rfl
          simp only [hmain, hany, beq_iff_eq, hdd, if_false]
          cases texts.any (fun e => e.1 ++ ".json" == d) with
          | true => rfl
          | false => exact hdefault
  refine ⟨fun s hne => ?_, fun c hne => ?_⟩
  · cases hsp : Shlex.split s with
    | error e => simp only [Files.parse, DataFiles.parseIn, hsp, bind, Except.bind]
    | ok l =>
        cases l with
        | nil => simp only [Files.parse, DataFiles.parseIn, hsp, bind, Except.bind]
        | cons name ws =>
            rw [Files.parse_split m hsp, DataFiles.parseIn_split _ hsp, key]
            intro he
            rw [DataFiles.parseIn_split _ hsp, he] at hne
            exact hne rfl
  · unfold Files.initialInfo DataFiles.initialInfoIn
    rw [key _ hne]

/-- No links among files. -/
example (texts : List (String × List Char)) : NoLinks (filesOf texts) := by
  intro pos target h
  cases h with
  | @here _ p _ hl =>
      have := filesOf_any texts p
      rw [hl] at this
      obtain ⟨t, h⟩ := this.1
      cases h
  | @inside _ p _ _ _ hl _ =>
      have := filesOf_any texts p
      rw [hl] at this
      obtain ⟨t, h⟩ := this.1
      cases h

/-- With the shipped files in the data directory, wherever it is and whatever else is on the machine, command lines are read and
generators are made as for the other properties, unless the name of the command is too long or goes up. -/
theorem C102_shipped (m : Machine) (pos : List String) (hd : DataDirectory m pos (filesOf shippedTexts)) (hmax : 255 ≤ m.nameMax)
    (hs : (m.package.map fun p => p.utf8ByteSize + 1).sum + 300 ≤ m.pathMax) :
    (∀ s, PashAnn.parse s ≠ .error .outsideModel →
      Files.parse m s = (PashAnn.parse s).map fun c => ⟨c.cmdName, anyNames c.flagOptionList, c.operandList⟩) ∧
    ∀ c, Readable c.cmdName → Files.initialInfo m c = PashAnn.initialInfo c := by
  obtain ⟨h1, h2⟩ := C102_installed m pos shippedTexts hd shippedTexts_plain hmax hs
  constructor
  · intro s hne
    rw [← C101_shipped]
    refine h1 s ?_
    rw [C101_shipped]
    intro he
    cases hp : PashAnn.parse s with
    | error e => rw [hp] at he hne; cases he; exact hne rfl
    | ok c => rw [hp] at he; cases he
  · intro c hr
    rw [← C101_shipped_types]
    refine h2 c ?_
    rcases getJson_texts c.cmdName with ⟨e, g1, g2⟩ | ⟨j, d, g1, g2, g3⟩
    · obtain ⟨d, hd⟩ := (readable_iff _).1 hr
      rw [hd] at g2; cases g2
    · rw [g1]; intro he; cases he

example : ∃ m pos, DataDirectory m pos (filesOf shippedTexts) ∧ 255 ≤ m.nameMax ∧
    (m.package.map fun p => p.utf8ByteSize + 1).sum + 300 ≤ m.pathMax :=
  ⟨sampleMachine (filesOf shippedTexts), _, sampleMachine_data _, Nat.le_refl 255, by
    show (((["usr", "lib", "p"] : List String).map fun p => p.utf8ByteSize + 1).sum + 300 ≤ 4096)
    decide +kernel⟩

/-- A name that is too long for a file is an error, whatever the words are: it is not read like other names that are unknown. -/
theorem C102_long (m : Machine) (pos : List String) (es : Entries) (hd : DataDirectory m pos es) (name : String)
    (h : '/' ∉ name.toList) (h0 : Char.ofNat 0 ∉ name.toList) (hl : m.nameMax < name.utf8ByteSize + 5) (args : List String) :
    Files.parse m (Shlex.join (name :: args)) = .error (.osError "File name too long") := by
  have hp : Parts (name.toList ++ ".json".toList) [name ++ ".json"] := by
    rw [← String.toList_append]
    exact .last (by rw [String.toList_append]; simp [h])
  have h5 : (name ++ ".json").utf8ByteSize = name.utf8ByteSize + 5 := by rw [String.utf8ByteSize_append]; rfl
  have hbn : name ++ ".json" ∉ ["", ".", ".."] := by
    intro hm
    simp only [List.mem_cons, List.not_mem_nil, or_false] at hm
    rcases hm with h | h | h <;> rw [h] at h5 <;>
      simp only [show "".utf8ByteSize = 0 from rfl, show ".".utf8ByteSize = 1 from rfl, show "..".utf8ByteSize = 2 from rfl] at h5 <;> omega
  have hdata : getData m (resourceOf name.toList) = .error .nameTooLong := by
    obtain ⟨path, hpath⟩ := dataPath_exists m name
    by_cases hs : Short m path
    · obtain ⟨n, up, hst, hget⟩ := getData_below hd
      rw [hget name path _ hpath hs hp, List.filter_eq_self.2 (by
        simp only [List.mem_cons, not_or] at hbn
        simp [hbn.1])]
      exact ends_open (.long (by omega) hbn) hst
    · rw [C102_opened]
      exact ⟨path, hpath, .inr ⟨hs, rfl⟩⟩
  have h0' : name.toList.contains (Char.ofNat 0) = false := by simpa using h0
  rw [Files.parse_join]
  unfold Files.getJson
  rw [h0', if_neg (by simp), hdata]
  rfl

example (es : Entries) : ∃ name : String, '/' ∉ name.toList ∧ Char.ofNat 0 ∉ name.toList ∧
    (sampleMachine es).nameMax < name.utf8ByteSize + 5 ∧
    DataDirectory (sampleMachine es) ["lib", "p", "command_flag_option_info", "data"] es := by
  refine ⟨String.ofList (List.replicate 251 'a'), by rw [String.toList_ofList]; decide +kernel, by rw [String.toList_ofList]; decide +kernel,
    ?_, sampleMachine_data es⟩
  show 255 < _
  decide +kernel

/-- Whatever the encoding of the file that is consulted, it means what it lists. -/
theorem C105_described (m : Machine) (name : String) (h0 : Char.ofNat 0 ∉ name.toList) (bytes : List UInt8)
    (ho : Opens m name (.ok bytes) ∨ (Opens m name (.error .noEntry) ∧ Opens m "_default_data_for_commands" (.ok bytes)))
    (j : Json) (hj : Holds bytes j) (d : JsonData) (hd : FileLists j d) (args : List String) (fs : List FlagOption) (ops : List String) :
    Files.parse m (Shlex.join (name :: args)) = .ok ⟨name, anyNames fs, ops⟩ ↔ Derives d args fs ops := by
  rw [Files.parse_join, (C102_consulted m name j).2 ⟨h0, bytes, hj, ho⟩]
  simp only [bind, Except.bind, DataFiles.readWords_lists hd]
  rw [derives_iff]
  constructor
  · intro he
    simp only [Except.ok.injEq, DataFiles.AnyInvocation.mk.injEq, true_and] at he
    rw [← he.2, ← DataFiles.anyNames_inj he.1]
  · intro he
    rw [he]

/-- A data file in UTF-16, and its command. -/
example : Opens (sampleMachine [("q.json", .file ((Encoding.utf16 .big).encode (Json.dumps sampleQuiet)))]) "q"
      (.ok ((Encoding.utf16 .big).encode (Json.dumps sampleQuiet))) ∧
    FileLists sampleQuiet ⟨[.group ["-q"]], []⟩ ∧ Derives ⟨[.group ["-q"]], []⟩ ["-q", "x"] [.flag "-q"] ["x"] :=
  ⟨(C102_opened _ _ _).1 rfl, ⟨_, rfl, rfl, rfl⟩, (derives_iff _ _ _ _).2 (by decide +kernel)⟩

end PashAnn
