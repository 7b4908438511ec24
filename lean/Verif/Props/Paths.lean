import Verif.Lemmas.Typed
import Verif.Lemmas.Par

/-! Property C91: commands given by a path. Specification: `Names`, `GoesThrough`, `DataFile` and `Readable` of
`Spec/Grammar.lean`. -/

namespace PashAnn
open Spec

theorem parseLoop_default (ws : List String) : parseLoop Data.d_default_data_for_commands ws = ([], ws) := by
  cases ws with
  | nil => rfl
  | cons w rest =>
      refine parseLoop_operands _ w rest ?_
      have hk : setOfAllFlags Data.d_default_data_for_commands = [] ∧
        setOfAllOptions Data.d_default_data_for_commands = [] := by decide +kernel
      refine .inr ⟨fun h => ?_, fun h => ?_, fun l h => ?_⟩
      · rw [← mem_setOfAllFlags, hk.1] at h; cases h
      · have := h.1; rw [← mem_setOfAllOptions, hk.2] at this; cases this
      · obtain ⟨_, h1, h2⟩ := h
        cases l with
        | nil => exact h1 rfl
        | cons c l =>
            have := h2 c List.mem_cons_self
            rw [← mem_setOfAllFlags, hk.1] at this; cases this

/-- C91. Every command name is, in exactly one way, the name of a command with at most slashes and dots before it, or a
path through a directory. -/
theorem C91_names (name : String) :
    ((∃ base, Names name base ∧ ∀ b, Names name b → b = base) ∧ ∀ dir, ¬ GoesThrough name dir) ∨
    ((∃ dir, GoesThrough name dir ∧ ∀ d, GoesThrough name d → d = dir) ∧ ∀ base, ¬ Names name base) := by
  cases h : (pathParts name.toList).1 with
  | nil =>
      refine .inl ⟨⟨(pathParts name.toList).2, (names_iff _ _).2 (Prod.ext h rfl), fun b hb => ?_⟩, fun dir hd => ?_⟩
      · rw [(names_iff _ _).1 hb]
      · rw [goesThrough_iff, h] at hd; cases hd
  | cons dir rest =>
      refine .inr ⟨⟨dir, (goesThrough_iff _ _).2 (by rw [h]; rfl), fun d hd => ?_⟩, fun b hb => ?_⟩
      · rw [goesThrough_iff, h] at hd; exact (Option.some.inj hd).symm
      · rw [names_iff] at hb; rw [hb] at h; cases h

/-- C91. If a command is given by a path through a directory then all its words are operands, whatever they look like:
the library does not look at the last part of the path. -/
theorem C91_elsewhere (name dir : String) (args : List String) (hg : GoesThrough name dir) (hr : Readable name) :
    parse (Shlex.join (name :: args)) = .ok ⟨name, [], args⟩ := by
  have hd : DatabaseFor name Data.d_default_data_for_commands := by
    rcases C91_names name with ⟨_, h⟩ | ⟨_, h⟩
    · exact absurd hg (h dir)
    · exact .inr ⟨fun b _ hb => absurd hb (h b), rfl⟩
  rw [parse_join hr hd, parseLoop_default]

example : GoesThrough "/usr/bin/grep" "usr" ∧ Readable "/usr/bin/grep" ∧
    parse "/usr/bin/grep -v a f" = .ok ⟨"/usr/bin/grep", [], ["-v", "a", "f"]⟩ :=
  ⟨(goesThrough_iff _ _).2 (by decide +kernel), by decide +kernel, by decide +kernel⟩

/-- C91. A path through a data file of the library is an error, whatever the words are. -/
theorem C91_through_file (name dir : String) (args : List String) (hg : GoesThrough name dir) (hd : DataFile dir)
    (h0 : Char.ofNat 0 ∉ name.toList) (hl : name.utf8ByteSize ≤ 250) :
    parse (Shlex.join (name :: args)) = .error .notADirectoryError := by
  have hj : getJsonData name = .error .notADirectoryError := by
    rcases getJsonData_cases name with ⟨h, _⟩ | ⟨_, h | h, _⟩ | ⟨_, _, _, h⟩ | ⟨h, _⟩
    · exact absurd h h0
    · omega
    · exfalso
      rw [goesThrough_iff] at hg h
      rw [hg] at h
      obtain ⟨n, d, hm, rfl⟩ := hd
      have hn : ∀ x ∈ Data.table.map Prod.fst, x ++ ".json" ≠ ".." := by decide +kernel
      exact hn _ (List.mem_map_of_mem hm) (Option.some.inj h)
    · exact h
    · exact absurd hd (h.2.2 dir hg).2
  simp [parse, parseTokens, Shlex.split_join, hj, bind, Except.bind]

example : GoesThrough "grep.json/x" "grep.json" ∧ DataFile "grep.json" ∧ Char.ofNat 0 ∉ "grep.json/x".toList ∧
    "grep.json/x".utf8ByteSize ≤ 250 :=
  ⟨(goesThrough_iff _ _).2 (by decide +kernel), ⟨"grep", Data.d_grep, by simp [Data.table], rfl⟩, by decide +kernel,
    by decide +kernel⟩

/-- C91. With only slashes and dots before the name, the words are read as those of the command of that name. -/
theorem C91_here (name base : String) (args : List String) (hn : Names name base) (hr : Readable name) :
    ∃ fs ops, parse (Shlex.join (base :: args)) = .ok ⟨base, fs, ops⟩ ∧
      parse (Shlex.join (name :: args)) = .ok ⟨name, fs, ops⟩ := by
  obtain ⟨d, hd⟩ := databaseFor_exists name
  obtain ⟨hb, pre, hp, e⟩ := hn
  have hr' : Readable base := by
    refine ⟨fun h => hr.1 (by rw [e]; exact List.mem_append.2 (.inr h)), ?_, fun dir h => ?_⟩
    · have h1 := hr.2.1
      have : name = String.ofList pre ++ base := String.toList_inj.1 (by simp [e])
      rw [this, String.utf8ByteSize_append] at h1
      omega
    · have h2 := (names_iff _ _).1 (names_self hb)
      rw [goesThrough_iff, h2] at h; cases h
  have hd' : DatabaseFor base d := by
    have hn : Names name base := ⟨hb, pre, hp, e⟩
    have h1 : ∀ b, Names name b ↔ Names base b := fun b => by
      rw [names_iff, names_iff, (names_iff _ _).1 hn, (names_iff _ _).1 (names_self hb)]
    simpa only [DatabaseFor, h1] using hd
  exact ⟨_, _, parse_join hr' hd', parse_join hr hd⟩

example : Names "./grep" "grep" ∧ Readable "./grep" ∧
    parse "./grep -v a f" = .ok ⟨"./grep", [.flag "-v"], ["a", "f"]⟩ := by decide +kernel

/-- C91. Nothing is announced and nothing is offered for a command that is given by a path. -/
theorem C91_not_annotated (inv : CommandInvocationInitial) (hs : '/' ∈ inv.cmdName.toList) :
    getInputOutputInfo inv = none ∧ getParallelizabilityInfo inv = none := by
  constructor
  · cases h : getInputOutputInfo inv with
    | none => rfl
    | some i =>
        obtain ⟨gen, _, hm, _⟩ := getIO_some.1 h
        exact absurd hs (ioTable_no_slash hm)
  · cases h : getParallelizabilityInfo inv with
    | none => rfl
    | some i =>
        obtain ⟨gen, hm, _⟩ := getPar_some.1 h
        have hn : ∀ x ∈ parTable.map Prod.fst, '/' ∉ x.toList := by decide +kernel
        exact absurd hs (hn _ (List.mem_map_of_mem hm))

example : ∃ inv, parse "./grep -v a f" = .ok inv ∧ '/' ∈ inv.cmdName.toList :=
  ⟨⟨"./grep", [.flag "-v"], ["a", "f"]⟩, by decide +kernel⟩

/-- C91. A name without a slash is read by the library, up to NUL characters and the length of file names. -/
theorem C91_plain (name : String) (hs : '/' ∉ name.toList) (h0 : Char.ofNat 0 ∉ name.toList)
    (hl : name.utf8ByteSize ≤ 250) : Readable name :=
  ⟨h0, hl, fun dir h => by
    rw [goesThrough_iff, (names_iff _ _).1 (names_self hs)] at h; cases h⟩

example : '/' ∉ "my tool".toList ∧ Char.ofNat 0 ∉ "my tool".toList ∧ "my tool".utf8ByteSize ≤ 250 := by decide +kernel

end PashAnn
