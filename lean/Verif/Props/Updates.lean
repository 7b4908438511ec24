import Verif.Model.Updates
import Verif.Spec.Updates
import Verif.Props.PartialFiles

/-!
Property C123: command lines that are read while data files are exchanged. Specification: `Spec/Updates.lean`.
-/

namespace PashAnn
open Spec Spec.Files Files Spec.Updates
open Spec.Encodings (Holds Encoding mark)

/-- If nothing changes, everything is as in C102. -/
theorem C123_still (m : Machine) :
    (∀ name, getJsonDuring m m name = Files.getJson m name) ∧ (∀ s, parseDuring m m s = Files.parse m s) ∧
      ∀ c, initialInfoDuring m m c = Files.initialInfo m c := ⟨fun _ => rfl, fun _ => rfl, fun _ => rfl⟩

private theorem same_data {m m' : Machine} {name : String} (h : SameFile m m' name) :
    getData m (resourceOf name.toList) = getData m' (resourceOf name.toList) :=
  (C102_opened m name _).2 ((h _).2 ((C102_opened m' name _).1 rfl))

private theorem getJsonDuring_congr {m₁ m₂ m₁' m₂' : Machine} {name : String} (h1 : SameFile m₁ m₁' name)
    (h2 : Absent m₁' name → SameFile m₂ m₂' "_default_data_for_commands") :
    getJsonDuring m₁ m₂ name = getJsonDuring m₁' m₂' name := by
  unfold getJsonDuring
  rw [same_data h1]
  split
  · rfl
  · rcases hd : getData m₁' (resourceOf name.toList) with e | bytes
    · cases e with
      | noEntry => simp only [same_data (h2 ((C102_opened m₁' name _).1 hd))]
      | _ => rfl
    · rfl

/-- During an update in which files are exchanged one after the other, in any order, a command is described as before the update or as
after it, whenever the two files are opened, if it has a file before the update exactly if it has one after it, or if the default
file is not changed. -/
theorem C123_described_partial (old new m₁ m₂ : Machine) (name : String) (h1 : DuringUpdate old new m₁ name)
    (h2 : DuringUpdate old new m₂ name)
    (h : (Absent old name ↔ Absent new name) ∨ SameFile old new "_default_data_for_commands") :
    getJsonDuring m₁ m₂ name = Files.getJson old name ∨ getJsonDuring m₁ m₂ name = Files.getJson new name := by
  have symm : ∀ {m m' : Machine} {n : String}, SameFile m m' n → SameFile m' m n := fun h r => (h r).symm
  have trans : ∀ {m m' m'' : Machine} {n : String}, SameFile m m' n → SameFile m' m'' n → SameFile m m'' n :=
    fun h h' r => (h r).trans (h' r)
  rw [← (C123_still old).1, ← (C123_still new).1]
  rcases h with h | h
  · by_cases ha : Absent m₁ name
    · have hold : Absent old name := by
        rcases h1 name (by simp) with hs | hs
        · exact (hs _).1 ha
        · exact h.2 ((hs _).1 ha)
      have hsame : SameFile m₁ old name ∧ SameFile m₁ new name := by
        have only : ∀ {m m' : Machine}, Absent m name → Absent m' name → SameFile m m' name := by
          intro m m' x x' r
          have e : getData m (resourceOf name.toList) = .error .noEntry := (C102_opened m name _).2 x
          have e' : getData m' (resourceOf name.toList) = .error .noEntry := (C102_opened m' name _).2 x'
          rw [← C102_opened, ← C102_opened, e, e']
        exact ⟨only ha hold, only ha (h.1 hold)⟩
      rcases h2 "_default_data_for_commands" (by simp) with hs | hs
      · exact .inl (getJsonDuring_congr hsame.1 fun _ => hs)
      · exact .inr (getJsonDuring_congr hsame.2 fun _ => hs)
    · rcases h1 name (by simp) with hs | hs
      · exact .inl (getJsonDuring_congr hs fun hx => absurd ((hs _).2 hx) ha)
      · exact .inr (getJsonDuring_congr hs fun hx => absurd ((hs _).2 hx) ha)
  · have hdef : SameFile m₂ old "_default_data_for_commands" ∧ SameFile m₂ new "_default_data_for_commands" := by
      rcases h2 "_default_data_for_commands" (by simp) with hs | hs
      · exact ⟨hs, trans hs h⟩
      · exact ⟨trans hs (symm h), hs⟩
    rcases h1 name (by simp) with hs | hs
    · exact .inl (getJsonDuring_congr hs fun _ => hdef.1)
    · exact .inr (getJsonDuring_congr hs fun _ => hdef.2)

/-- So each line is read as before the update or as after it, and so are the inputs and outputs derived. -/
theorem C123_lines_partial (old new m₁ m₂ : Machine) (name : String) (h1 : DuringUpdate old new m₁ name)
    (h2 : DuringUpdate old new m₂ name)
    (h : (Absent old name ↔ Absent new name) ∨ SameFile old new "_default_data_for_commands") :
    ((∀ args, parseDuring m₁ m₂ (Shlex.join (name :: args)) = Files.parse old (Shlex.join (name :: args))) ∨
      ∀ args, parseDuring m₁ m₂ (Shlex.join (name :: args)) = Files.parse new (Shlex.join (name :: args))) ∧
    ((∀ fs ops, initialInfoDuring m₁ m₂ ⟨name, fs, ops⟩ = Files.initialInfo old ⟨name, fs, ops⟩) ∨
      ∀ fs ops, initialInfoDuring m₁ m₂ ⟨name, fs, ops⟩ = Files.initialInfo new ⟨name, fs, ops⟩) := by
  have key : ∀ m, getJsonDuring m₁ m₂ name = Files.getJson m name →
      (∀ args, parseDuring m₁ m₂ (Shlex.join (name :: args)) = Files.parse m (Shlex.join (name :: args))) ∧
      ∀ fs ops, initialInfoDuring m₁ m₂ ⟨name, fs, ops⟩ = Files.initialInfo m ⟨name, fs, ops⟩ := by
    intro m hm
    constructor
    · intro args
      unfold parseDuring Files.parse
      rw [Shlex.split_join]
      show (getJsonDuring m₁ m₂ name >>= _) = (Files.getJson m name >>= _)
      rw [hm]
    · intro fs ops
      unfold initialInfoDuring Files.initialInfo
      simp only [hm]
  rcases C123_described_partial old new m₁ m₂ name h1 h2 h with hd | hd
  · exact ⟨.inl (key old hd).1, .inl (key old hd).2⟩
  · exact ⟨.inr (key new hd).1, .inr (key new hd).2⟩

private theorem sameFile_of {m m' : Machine} {name : String}
    (h : getData m (resourceOf name.toList) = getData m' (resourceOf name.toList)) : SameFile m m' name := by
  intro r
  rw [← C102_opened, ← C102_opened, h]

/-- An update of the file `x.json`, at a moment before it and one after it. -/
example (b bytes : List UInt8) (es : Entries) :
    DuringUpdate (sampleMachine (("x.json", .file b) :: es)) (sampleMachine (("x.json", .file bytes) :: es))
      (sampleMachine (("x.json", .file bytes) :: es)) "x" ∧
    ¬ Absent (sampleMachine (("x.json", .file b) :: es)) "x" ∧ ¬ Absent (sampleMachine (("x.json", .file bytes) :: es)) "x" := by
  refine ⟨fun n _ => .inr fun r => Iff.rfl, ?_, ?_⟩ <;>
  · unfold Absent
    rw [← C102_opened]
    intro h
    cases h

/-- It is false in general. If a command has a file only before the update and the default file changes, then at a moment between
the two changes a line is read in a third way: as the old default file says. -/
theorem C123_false : ∃ (old new m : Machine) (s : String) (i i' i'' : DataFiles.AnyInvocation), DuringUpdate old new m "x" ∧
    Files.parse old s = .ok i ∧ Files.parse new s = .ok i' ∧ parseDuring m m s = .ok i'' ∧
      i.operandList = [] ∧ i'.operandList = ["f"] ∧ i''.operandList = ["-o", "f"] := by
  have key : ∀ (r : Py DataFiles.AnyInvocation) (ops : List String),
      (match r with | .ok a => some a.operandList | .error _ => none) = some ops → ∃ i, r = .ok i ∧ i.operandList = ops := by
    intro r ops h
    cases r with
    | ok a => exact ⟨a, rfl, by simpa using h⟩
    | error e => simp at h
  have hx : ∀ b : List UInt8, getData (sampleMachine [("_default_data_for_commands.json", .file b)]) (resourceOf "x".toList) =
      .error .noEntry := fun _ => rfl
  have hd : ∀ b : List UInt8,
      getData (sampleMachine [("_default_data_for_commands.json", .file b)]) (resourceOf "_default_data_for_commands".toList) = .ok b :=
    fun _ => rfl
  have hd' : ∀ b b' : List UInt8, getData (sampleMachine [("x.json", .file b'), ("_default_data_for_commands.json", .file b)])
      (resourceOf "_default_data_for_commands".toList) = .ok b := fun _ _ => rfl
  let x : String × Node := ("x.json", .file (Encoding.utf8.encode "{\"flag\":[],\"option\":[[\"-o\",\"str\"]]}".toList))
  let d : String × Node := ("_default_data_for_commands.json", .file (Encoding.utf8.encode "{\"flag\":[],\"option\":[]}".toList))
  let d' : String × Node := ("_default_data_for_commands.json", .file (Encoding.utf8.encode "{\"flag\":[[\"-o\"]],\"option\":[]}".toList))
  obtain ⟨i, h1, h2⟩ := key (Files.parse (sampleMachine [x, d]) "x -o f") [] (by decide +kernel)
  obtain ⟨i', h3, h4⟩ := key (Files.parse (sampleMachine [d']) "x -o f") ["f"] (by decide +kernel)
  obtain ⟨i'', h5, h6⟩ := key (parseDuring (sampleMachine [d]) (sampleMachine [d]) "x -o f") ["-o", "f"] (by decide +kernel)
  refine ⟨_, _, _, _, i, i', i'', ?_, h1, h3, h5, h2, h4, h6⟩
  intro n hn
  simp only [List.mem_cons, List.not_mem_nil, or_false] at hn
  rcases hn with rfl | rfl
  · exact .inr (sameFile_of ((hx _).trans (hx _).symm))
  · exact .inl (sameFile_of ((hd _).trans (hd' _ _).symm))

end PashAnn
