import Verif.Lemmas.ScriptArgs
import Verif.Lemmas.ScriptHelp

/-!
C97: which command lines of the script are accepted, and that an accepted one means the last command and the last file written
on it; any other one changes no file. `digit` tells which characters are decimal digits.
-/

namespace PashAnn.ScriptArgs

open Spec

/-- C97. The script goes on with the command `t` and the file `f` exactly if its words write settings of which `t` is the last
command and `f` the last file (none if no file is set). -/
theorem C97_accepted_exact (digit : Char → Bool) (hd : ∀ c ∈ ['-', 'h', '.', '\n'], digit c = false) (ws : List String)
    (t : String) (f : Option String) :
    parseArgs digit ws = .run t f ↔ ∃ ss, Written digit ss ws ∧ lastCommand ss = some t ∧ lastSave ss = f := by
  have fin : ∀ ss, consume [] (after {} ss) = .run t f ↔ lastCommand ss = some t ∧ lastSave ss = f := by
    intro ss
    rw [consume, after_extras, after_command, after_save]
    simp only [Option.or_none]
    cases lastCommand ss <;> simp
  constructor
  · intro h
    unfold parseArgs at h
    cases ht : tokens digit ws with
    | error u => rw [ht] at h; cases h
    | ok ts =>
        rw [ht] at h
        obtain ⟨ss, hw, hr⟩ := read_written digit hd ws.length ws ts {} (Nat.le_refl _) ht h
        exact ⟨ss, hw, (fin ss).1 hr⟩
  · rintro ⟨ss, hw, h⟩
    obtain ⟨ts, ht, hc⟩ := written_read digit hd hw
    unfold parseArgs
    rw [ht]
    show consume ts {} = _
    rw [hc]
    exact (fin ss).2 h

/-- The decimal digits of ASCII, for the examples. -/
def asciiDigit (c : Char) : Bool := '0' ≤ c && c ≤ '9'

example : ∃ ss, Written asciiDigit ss ["--save_to=a", "--com", "wc -l", "--save_to", "-"] ∧ lastCommand ss = some "wc -l" ∧
    lastSave ss = some "-" :=
  (C97_accepted_exact asciiDigit (by decide) _ _ _).1 (by decide +kernel)

/-- C97. An accepted command line means one thing only. -/
theorem C97_unambiguous (digit : Char → Bool) (hd : ∀ c ∈ ['-', 'h', '.', '\n'], digit c = false) {ws : List String}
    {ss ss' : List Setting} (h : Written digit ss ws) (h' : Written digit ss' ws) {t : String} (ht : lastCommand ss = some t) :
    lastCommand ss' = some t ∧ lastSave ss' = lastSave ss := by
  have h1 := (C97_accepted_exact digit hd ws t _).2 ⟨ss, h, ht, rfl⟩
  obtain ⟨ts', hr', hc'⟩ := written_read digit hd h'
  have h2 : consume [] (after {} ss') = .run t (lastSave ss) := by
    rw [← hc', ← h1, parseArgs, hr']
  rw [consume, after_extras, after_command, after_save] at h2
  simp only [Option.or_none] at h2
  cases hl : lastCommand ss' with
  | none => rw [hl] at h2; cases h2
  | some t' =>
      rw [hl] at h2
      simp only [Bool.false_eq_true, if_false] at h2
      injection h2 with a b
      exact ⟨by rw [a], b⟩

/-- C97. The whole script: with words that write a command it does what it does with the last command and the last file; with any
other words it prints its help or a usage message and changes no file. -/
theorem C97_script (digit : Char → Bool) (hd : ∀ c ∈ ['-', 'h', '.', '\n'], digit c = false) (text : Cli.Report → String)
    (fs : Cli.FileSystem) (scriptPath : String) (ws : List String) :
    (∀ ss t, Written digit ss ws → lastCommand ss = some t →
      let r := Cli.run text fs (Cli.scriptPrefixOf scriptPath) (lastSave ss) t
      main digit text fs scriptPath ws = (.ran r.1.1 r.2, r.1.2)) ∧
    ((¬ ∃ ss t, Written digit ss ws ∧ lastCommand ss = some t) →
      (main digit text fs scriptPath ws = (.help, fs) ∨ main digit text fs scriptPath ws = (.usage, fs))) := by
  constructor
  · intro ss t hw ht
    have := (C97_accepted_exact digit hd ws t _).2 ⟨ss, hw, ht, rfl⟩
    simp only [main, this]
  · intro h
    cases hp : parseArgs digit ws with
    | help => left; simp only [main, hp]
    | usage => right; simp only [main, hp]
    | run t f =>
        obtain ⟨ss, hw, ht, _⟩ := (C97_accepted_exact digit hd ws t f).1 hp
        exact absurd ⟨ss, t, hw, ht⟩ h

example : Written asciiDigit [.save "a", .command "wc -l"] ["--save_to=a", "--com", "wc -l"] ∧
    lastCommand [.save "a", .command "wc -l"] = some "wc -l" :=
  ⟨.joined (s := .save "a") (n := "--save_to") ⟨by decide +kernel, by decide +kernel⟩
    (.apart (s := .command "wc -l") ⟨by decide +kernel, by decide +kernel⟩ (.inl (by decide +kernel)) .nil), rfl⟩

/-- Words without a command are refused whatever else they say. -/
example : parseArgs asciiDigit ["--save_to", "a"] = .usage ∧ parseArgs asciiDigit ["--command_invocation", "wc", "-l"] = .usage ∧
    parseArgs asciiDigit ["--command_invocation", "--", "wc"] = .usage ∧ parseArgs asciiDigit ["--c=wc", "-h"] = .help := by
  decide +kernel

/-- C97. Every text can be given as the command, and every text as the file, in one word with `=`. -/
theorem C97_joined (digit : Char → Bool) (hd : ∀ c ∈ ['-', 'h', '.', '\n'], digit c = false) (t f : String) :
    parseArgs digit ["--command_invocation=" ++ t] = .run t none ∧
      parseArgs digit ["--command_invocation=" ++ t, "--save_to=" ++ f] = .run t (some f) := by
  have h1 : "--command_invocation=" ++ t = "--command_invocation" ++ "=" ++ t := by
    apply String.toList_inj.1; simp only [String.toList_append]; rfl
  have h2 : "--save_to=" ++ f = "--save_to" ++ "=" ++ f := by
    apply String.toList_inj.1; simp only [String.toList_append]; rfl
  have s1 : Spells "--command_invocation" (Setting.command t).name := ⟨List.prefix_refl _, by decide +kernel⟩
  have s2 : Spells "--save_to" (Setting.save f).name := ⟨List.prefix_refl _, by decide +kernel⟩
  rw [h1, h2]
  constructor
  · exact (C97_accepted_exact digit hd _ _ _).2 ⟨[.command t], .joined (s := .command t) s1 .nil, rfl, rfl⟩
  · exact (C97_accepted_exact digit hd _ _ _).2
      ⟨[.command t, .save f], .joined (s := .command t) s1 (.joined (s := .save f) s2 .nil), rfl, rfl⟩

example : ∀ c ∈ ['-', 'h', '.', '\n'], asciiDigit c = false := by decide

/-- C97. As a word of its own a text is accepted exactly if it is a word for a value. -/
theorem C97_separate_exact (digit : Char → Bool) (hd : ∀ c ∈ ['-', 'h', '.', '\n'], digit c = false) (t : String) :
    parseArgs digit ["--command_invocation", t] = .run t none ↔ ValueWord digit t := by
  have s1 : Spells "--command_invocation" (Setting.command t).name := ⟨List.prefix_refl _, by decide +kernel⟩
  constructor
  · intro h
    obtain ⟨p1, p2, _⟩ := parse_spelled digit hd s1
    unfold parseArgs at h
    rw [tokens, if_neg p2, p1, tokens] at h
    by_cases hd2 : t = "--"
    · subst hd2; cases h
    · rw [if_neg hd2] at h
      cases hv : parseOptional digit t.toList with
      | error u => rw [hv] at h; cases h
      | ok tok =>
          rw [hv] at h
          cases tok with
          | argument => exact (parse_argument digit hd t).1 hv
          | dashes => cases h
          | option a l p e => cases h
  · intro h
    exact (C97_accepted_exact digit hd _ _ _).2 ⟨[.command t], .apart (s := .command t) s1 h .nil, rfl, rfl⟩

/-- Every text that does not begin with a dash is accepted, but not every text. -/
example : ValueWord asciiDigit "grep -c a x" ∧ ValueWord asciiDigit "-x y" ∧ ¬ ValueWord asciiDigit "-x" :=
  ⟨.inl (by decide +kernel), (C97_separate_exact asciiDigit (by decide) _).1 (by decide +kernel),
    fun h => absurd ((C97_separate_exact asciiDigit (by decide) _).2 h) (by decide +kernel)⟩

/-- C97. It is not true that what can be given as one word with `=` can also be given as a word of its own. -/
theorem C97_separate_false : ¬ ∀ (digit : Char → Bool), (∀ c ∈ ['-', 'h', '.', '\n'], digit c = false) → ∀ t : String,
    parseArgs digit ["--command_invocation", t] = parseArgs digit ["--command_invocation=" ++ t] := by
  intro h
  have := h asciiDigit (by decide) "-x"
  revert this
  decide +kernel

/-- C97. The help is only printed if some word begins like a call for help. -/
theorem C97_help_only (digit : Char → Bool) (hd : ∀ c ∈ ['-', 'h', '.', '\n'], digit c = false) (ws : List String)
    (h : parseArgs digit ws = .help) : ∃ w ∈ ws, ['-', 'h'] <+: w.toList ∨ ['-', '-', 'h'] <+: w.toList := by
  have key : ∀ w : String, (∃ l p e, parseOptional digit w.toList = .ok (.option (some .help) l p e)) →
      ['-', 'h'] <+: w.toList ∨ ['-', '-', 'h'] <+: w.toList := by
    rintro w ⟨l, p, e, hw⟩
    exact parse_help digit hd hw
  unfold parseArgs at h
  cases ht : tokens digit ws with
  | error u => rw [ht] at h; cases h
  | ok ts =>
      rw [ht] at h
      obtain ⟨w, l, p, e, hm⟩ := consume_help ts _ h
      obtain ⟨hw, hp⟩ := tokens_help digit ws ts ht w l p e hm
      exact ⟨w, hw, key w ⟨l, p, e, hp⟩⟩

example : parseArgs asciiDigit ["--command_invocation", "wc", "--he"] = .help := by decide +kernel

/-- C97. The help is printed exactly if there is a call for help after words that are read without a message, and no later word
before a `--` begins like `--=`. -/
theorem C97_help_exact (digit : Char → Bool) (hd : ∀ c ∈ ['-', 'h', '.', '\n'], digit c = false) (ws : List String) :
    parseArgs digit ws = .help ↔ ∃ before w after, ws = before ++ w :: after ∧ Passed digit before ∧ HelpWord w ∧
      ∀ u ∈ after.takeWhile (· ≠ "--"), ¬ ['-', '-', '='] <+: u.toList := by
  constructor
  · intro h
    unfold parseArgs at h
    cases ht : tokens digit ws with
    | error u => rw [ht] at h; cases h
    | ok ts =>
        rw [ht] at h
        obtain ⟨b, w, a, e, hb, hw, ha⟩ := read_help digit hd ws.length ws ts {} (Nat.le_refl _) ht h
        exact ⟨b, w, a, e, hb, hw, (tokens_ok digit hd a).1 ha⟩
  · rintro ⟨b, w, a, rfl, hb, hw, ha⟩
    obtain ⟨ts, ht⟩ := (tokens_ok digit hd a).2 ha
    obtain ⟨l, p, e, hp, ho⟩ := (helpWord_iff digit hd w).2 hw
    have hne : w ≠ "--" := by
      rintro rfl
      have : parseOptional digit "--".toList = .error () := by
        have := parse_long digit (hd '-' (by simp)) (s := []) (by simp) none
        simpa [rest] using this
      rw [this] at hp; cases hp
    have ht' : tokens digit (w :: a) = .ok ((w, .option (some .help) l p e) :: ts) := by
      rw [tokens, if_neg hne, hp, ht]; rfl
    obtain ⟨tb, htb⟩ := passed_read digit hd hb
    obtain ⟨h1, h2⟩ := htb _ _ ht'
    obtain ⟨s', hs'⟩ := h2 {}
    unfold parseArgs
    rw [h1]
    show consume _ {} = _
    rw [hs']
    exact consume_helpsOut.2 ho

/-- Words before `-h` do not matter if they can be read, whatever is missing; `-h` with `=` or a dash is no call for help. -/
example : parseArgs asciiDigit ["x", "--save_to", "a", "-hh3"] = .help ∧ parseArgs asciiDigit ["-h-"] = .usage ∧
    parseArgs asciiDigit ["-hh=1"] = .usage ∧ parseArgs asciiDigit ["--he", "--=1"] = .usage ∧
    parseArgs asciiDigit ["--save_to", "-h"] = .usage := by
  decide +kernel

/-- C97. A usage message is printed exactly if the words neither write a command nor ask for help. -/
theorem C97_usage_exact (digit : Char → Bool) (hd : ∀ c ∈ ['-', 'h', '.', '\n'], digit c = false) (ws : List String) :
    parseArgs digit ws = .usage ↔ (¬ ∃ ss t, Written digit ss ws ∧ lastCommand ss = some t) ∧
      ¬ ∃ before w after, ws = before ++ w :: after ∧ Passed digit before ∧ HelpWord w ∧
        ∀ u ∈ after.takeWhile (· ≠ "--"), ¬ ['-', '-', '='] <+: u.toList := by
  rw [← C97_help_exact digit hd ws]
  cases h : parseArgs digit ws with
  | run t f =>
      refine iff_of_false (by simp) fun hn => hn.1 ?_
      obtain ⟨ss, h1, h2, -⟩ := (C97_accepted_exact digit hd ws t f).1 h
      exact ⟨ss, t, h1, h2⟩
  | help => exact iff_of_false (by simp) fun hn => hn.2 rfl
  | usage =>
      refine iff_of_true rfl ⟨?_, by simp⟩
      rintro ⟨ss, t, h1, h2⟩
      rw [(C97_accepted_exact digit hd ws t _).2 ⟨ss, h1, h2, rfl⟩] at h
      cases h

example : parseArgs asciiDigit ["--c"] = .usage := by decide +kernel

end PashAnn.ScriptArgs
