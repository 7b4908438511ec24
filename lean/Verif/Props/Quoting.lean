import Verif.Lemmas.Parser

/-! Properties C01 and C02: quoting and rejection. Specification: `Spec/ShellWords.lean`. -/

namespace PashAnn
open Spec

/-- C01. Splitting a quoted argument vector gives back exactly that vector, and `parse` reads a quoted
vector as that vector: its first word is the command name and the rest is what the grammar (C04) is
applied to. -/
theorem C01_quoting_round_trip (name : String) (args : List String) (hp : Readable name) :
    Shlex.split (Shlex.join (name :: args)) = .ok (name :: args) ∧
    ∃ d fs ops, DatabaseFor name d ∧ Derives d args fs ops ∧
      parse (Shlex.join (name :: args)) = .ok ⟨name, fs, ops⟩ := by
  obtain ⟨d, hd⟩ := databaseFor_exists name
  exact ⟨Shlex.split_join _, d, _, _, hd, derives_parseLoop d args, parse_join hp hd⟩

/-- C01, for the empty vector and for commands outside the model as well. -/
theorem C01_split_join (words : List String) : Shlex.split (Shlex.join words) = .ok words :=
  Shlex.split_join words

/-- C01, consequence: different argument vectors never look the same after quoting. -/
theorem C01_join_injective (ws ws' : List String) (h : Shlex.join ws = Shlex.join ws') : ws = ws' := by
  have h1 := Shlex.split_join ws
  rw [h, Shlex.split_join] at h1
  exact (Except.ok.inj h1).symm

example : Readable "grep" ∧
    Shlex.join ["grep", "it's \"a\\b\"\n", ""] = "grep 'it'\"'\"'s \"a\\b\"\n' ''" ∧
    Shlex.split "grep 'it'\"'\"'s \"a\\b\"\n' ''" = .ok ["grep", "it's \"a\\b\"\n", ""] := by decide +kernel

/-- C02, word splitting. The words of a text are exactly those of the specification. -/
theorem C02_split_ok_iff (s : String) (ws : List String) :
    Shlex.split s = .ok ws ↔ Lexes s.toList (ws.map String.toList) := Shlex.split_iff s ws

/-- C02. `parse` raises "No closing quotation" exactly on texts that end inside a quotation, "No escaped
character" exactly on texts that end after a backslash, an index error exactly on texts without a word. On all other
texts the name of the command decides: with a NUL character it is an error, a path through a data file is an error, a
path that goes up or a name of more than 250 bytes leaves the model, and with any other name `parse` returns an
invocation. -/
theorem C02_rejection (s : String) :
    (parse s = .error (.valueError "No closing quotation") ↔ Broken .quotation s.toList) ∧
    (parse s = .error (.valueError "No escaped character") ↔ Broken .escape s.toList) ∧
    (parse s = .error .indexError ↔ Lexes s.toList []) ∧
    (∀ name args, Lexes s.toList (String.toList name :: args) →
      (parse s = .error (.valueError "embedded null byte") ↔ Char.ofNat 0 ∈ name.toList) ∧
      (parse s = .error .notADirectoryError ↔ Char.ofNat 0 ∉ name.toList ∧ name.utf8ByteSize ≤ 250 ∧
        ∃ dir, GoesThrough name dir ∧ DataFile dir) ∧
      (parse s = .error .outsideModel ↔ Char.ofNat 0 ∉ name.toList ∧
        (250 < name.utf8ByteSize ∨ GoesThrough name "..")) ∧
      ((∃ inv, parse s = .ok inv) ↔ Readable name)) ∧
    (Broken .quotation s.toList ∨ Broken .escape s.toList ∨ Lexes s.toList [] ∨
      ∃ name args, Lexes s.toList (String.toList name :: args)) ∧
    (∀ e, parse s = .error e → e = .valueError "No closing quotation" ∨ e = .valueError "No escaped character" ∨
      e = .indexError ∨ e = .valueError "embedded null byte" ∨ e = .notADirectoryError ∨ e = .outsideModel) := by
  have lexOk : ∀ ws, Lexes s.toList ws → Shlex.split s = .ok (ws.map String.ofList) := by
    intro ws h
    rw [Shlex.split_iff]
    simpa [List.map_map, Function.comp_def] using h
  cases hs : Shlex.split s with
  | error e =>
      obtain ⟨m, rfl, hb⟩ := (Shlex.split_error_iff s e).1 hs
      have hpe : parse s = .error (Shlex.errOf m) := by simp [parse, hs, bind, Except.bind]
      have hnl : ∀ ws, ¬ Lexes s.toList ws := by
        intro ws h; rw [lexOk ws h] at hs; cases hs
      have huniq : ∀ m', Broken m' s.toList → m' = m := by
        intro m' hb'
        have := (Shlex.split_error_iff s (Shlex.errOf m')).2 ⟨m', rfl, hb'⟩
        rw [hs] at this
        exact (Shlex.errOf_inj (Except.error.inj this)).symm
      rw [hpe]
      refine ⟨⟨fun h => ?_, fun h => ?_⟩, ⟨fun h => ?_, fun h => ?_⟩, ⟨fun h => ?_, fun h => absurd h (hnl _)⟩,
        fun n a h => absurd h (hnl _), ?_, fun e h => ?_⟩
      · cases m <;> simp [Shlex.errOf] at h; exact hb
      · rw [← huniq _ h]; rfl
      · cases m <;> simp [Shlex.errOf] at h; exact hb
      · rw [← huniq _ h]; rfl
      · cases m <;> simp [Shlex.errOf] at h
      · cases m
        · exact .inl hb
        · exact .inr (.inl hb)
      · cases h; cases m <;> simp [Shlex.errOf]
  | ok ws =>
      have hl := (Shlex.split_iff s ws).1 hs
      have hnb : ∀ m, ¬ Broken m s.toList := by
        intro m h
        rw [(Shlex.split_error_iff s _).2 ⟨m, rfl, h⟩] at hs; cases hs
      have huniq : ∀ ws', Lexes s.toList ws' → ws = ws'.map String.ofList := by
        intro ws' h; rw [lexOk ws' h] at hs; exact (Except.ok.inj hs).symm
      cases ws with
      | nil =>
          have hpe : parse s = .error .indexError := by simp [parse, hs, bind, Except.bind, parseTokens]
          rw [hpe]
          refine ⟨by simp [hnb], by simp [hnb], ⟨fun _ => hl, fun _ => rfl⟩, fun n a h => ?_,
            .inr (.inr (.inl hl)), by simp⟩
          have := huniq _ h; simp at this
      | cons name args =>
          have hne : ¬ Lexes s.toList [] := by intro h; have := huniq _ h; simp at this
          have hname : ∀ n a, Lexes s.toList (String.toList n :: a) → n = name := by
            intro n a h; have := huniq _ h; simp at this; exact this.1.symm
          have hlex : ∃ name args, Lexes s.toList (String.toList name :: args) := ⟨name, _, hl⟩
          have hpe : parse s = (getJsonData name).bind fun d =>
              .ok ⟨name, (parseLoop d args).1, (parseLoop d args).2⟩ := by
            simp only [parse, hs, bind, Except.bind, parseTokens]
          have hup : GoesThrough name ".." → ∀ dir, GoesThrough name dir → ¬ DataFile dir := by
            intro h1 dir h2 h3
            rw [goesThrough_iff] at h1 h2
            rw [h1] at h2
            cases h2
            rw [dataFile_iff] at h3
            exact absurd h3 (by decide +kernel)
          rcases getJsonData_cases name with ⟨h0, hg⟩ | ⟨h0, hx, hg⟩ | ⟨h0, h1, ⟨dir, hx, hf⟩, hg⟩ | ⟨hr, d, _, hg⟩
          all_goals
            rw [hg] at hpe
            simp only [Except.bind] at hpe
            rw [hpe]
            refine ⟨by simp [hnb], by simp [hnb], by simp [hne], fun n a h => ?_, .inr (.inr (.inr hlex)), by simp⟩
            cases hname n a h
          · simp [h0, Readable]
          · refine ⟨by simp [h0], ⟨by simp, fun ⟨_, h2, dir, h3, h4⟩ => ?_⟩, by simp [h0, hx], ⟨by simp, fun hr => ?_⟩⟩
            · rcases hx with hx | hx
              · omega
              · exact absurd h4 (hup hx dir h3)
            · rcases hx with hx | hx
              · have := hr.2.1; omega
              · exact absurd rfl (hr.2.2 _ hx).1
          · refine ⟨by simp [h0], ⟨fun _ => ⟨h0, h1, dir, hx, hf⟩, fun _ => rfl⟩, ⟨by simp, fun ⟨_, h2⟩ => ?_⟩,
              ⟨by simp, fun hr => absurd hf (hr.2.2 _ hx).2⟩⟩
            rcases h2 with h2 | h2
            · omega
            · exact absurd hf (hup h2 dir hx)
          · refine ⟨by simp [hr.1], ⟨by simp, fun ⟨_, _, dir, h3, h4⟩ => absurd h4 (hr.2.2 _ h3).2⟩,
              ⟨by simp, fun ⟨_, h2⟩ => ?_⟩, ⟨fun _ => hr, fun _ => ⟨_, rfl⟩⟩⟩
            rcases h2 with h2 | h2
            · have := hr.2.1; omega
            · exact absurd rfl (hr.2.2 _ h2).1

/-- All outcomes of C02 occur. -/
example : parse "grep \"a" = .error (.valueError "No closing quotation") ∧
    parse "grep a\\" = .error (.valueError "No escaped character") ∧
    parse " \t" = .error .indexError ∧ parse "\x00 a" = .error (.valueError "embedded null byte") ∧
    parse "./grep.json/x a" = .error .notADirectoryError ∧ parse "../grep a" = .error .outsideModel ∧
    parse "/bin/grep -v a" = .ok ⟨"/bin/grep", [], ["-v", "a"]⟩ ∧
    parse "grep -v a" = .ok ⟨"grep", [.flag "-v"], ["a"]⟩ := by decide +kernel

end PashAnn
