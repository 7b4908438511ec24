import Verif.Model.Cli
import Verif.Props.IOInfo
import Verif.Props.Parallel

/-! Properties C57 and C59: the command line script. -/

namespace PashAnn.Cli
open Spec

/-- The kind of input-output report a parsed command has to get. -/
def RightIO (c : CommandInvocationInitial) (r : IOReport) : Prop :=
  match getInputOutputInfo c with
  | none => r = .sideEffectful
  | some i => if i.hasOtherOutputs then r = .otherOutputs else ∃ w, i.apply c = .ok w ∧ r = .applied w

theorem ioReport_right (c : CommandInvocationInitial) : ∃ r, ioReport c = .ok r ∧ RightIO c r := by
  unfold ioReport RightIO
  cases h : getInputOutputInfo c with
  | none => exact ⟨_, rfl, rfl⟩
  | some i =>
      by_cases ho : i.hasOtherOutputs = true
      · simp only [ho, if_true]; exact ⟨_, rfl, rfl⟩
      · simp only [ho]
        obtain ⟨w, hw, _⟩ := C14_typing_preserves c i h
        rw [hw]
        exact ⟨_, rfl, w, rfl, rfl⟩

/-- C59. The script reports on a command exactly if the command parses; a parse error is passed on unchanged. The
report repeats the command and its parse, and says what the library says: the parallelizability information, or the
empty one if there is none, and the typed command if there is information about it and it only writes streams. -/
theorem C59_report_total (command : String) :
    match parse command with
    | .error e => report command = .error e
    | .ok c => ∃ r, report command = .ok r ∧ r.command = command ∧ r.parsed = c ∧ RightIO c r.io ∧
        (∀ p, getParallelizabilityInfo c = some p → r.para = p) ∧
        (getParallelizabilityInfo c = none → r.para.parallelizerList = [] ∧ r.para.roundRobinCompatibleWithCat = false ∧
          r.para.isCommutative = false) := by
  unfold report
  cases h : parse command with
  | error e => rfl
  | ok c =>
      obtain ⟨r, hr, hR⟩ := ioReport_right c
      refine ⟨⟨command, c, r, (getParallelizabilityInfo c).getD {}⟩, ?_, rfl, rfl, hR, ?_, ?_⟩
      · show ((ioReport c).bind fun io => _) = _
        rw [hr]; rfl
      · intro p hp; rw [hp]; rfl
      · intro hp; rw [hp]; exact ⟨rfl, rfl, rfl⟩

/-- C59. The applied part of a report is the same command: nothing is lost by typing. -/
theorem C59_report_faithful (command : String) (r : Report) (w : CommandInvocationWithIO)
    (h : report command = .ok r) (hw : r.io = .applied w) :
    parse command = .ok r.parsed ∧ w.cmdName = r.parsed.cmdName ∧
      w.flagOptionList.map untyped = r.parsed.flagOptionList ∧ w.operandList.map textOf = r.parsed.operandList := by
  have ht := C59_report_total command
  cases hp : parse command with
  | error e => rw [hp] at ht; rw [ht] at h; cases h
  | ok c =>
      rw [hp] at ht
      obtain ⟨r', hr', _, rfl, hR, _⟩ := ht
      rw [h] at hr'; cases hr'
      refine ⟨rfl, ?_⟩
      unfold RightIO at hR
      rw [hw] at hR
      cases hi : getInputOutputInfo r.parsed with
      | none => rw [hi] at hR; cases hR
      | some i =>
          rw [hi] at hR
          simp only at hR
          split at hR
          · cases hR
          · obtain ⟨w', hw', he⟩ := hR
            cases he
            obtain ⟨w'', h1, h2⟩ := C14_typing_preserves _ i hi
            rw [hw'] at h1; cases h1
            exact h2

example : ∃ r w, report "grep -f pats -v - f" = .ok r ∧ r.io = .applied w ∧ w.cmdName = "grep" := by
  have hp : parse "grep -f pats -v - f" = .ok ⟨"grep", [.option "-f" "pats", .flag "-v"], ["-", "f"]⟩ := by
    decide +kernel
  have ht := C59_report_total "grep -f pats -v - f"
  rw [hp] at ht
  obtain ⟨r, hr, _, _, hR, _⟩ := ht
  have hi : getInputOutputInfo ⟨"grep", [.option "-f" "pats", .flag "-v"], ["-", "f"]⟩ =
      some ⟨[.fileStd .configInput, .plainString], [.fileStd .streamInput, .fileStd .streamInput], none,
        some stdoutStream⟩ := by decide +kernel
  unfold RightIO at hR
  rw [hi] at hR
  obtain ⟨w, hw, he⟩ := hR
  obtain ⟨w', hw', hn, _⟩ := C14_typing_preserves _ _ hi
  rw [hw] at hw'; cases hw'
  exact ⟨r, w, hr, he, hn⟩
example : parse "ls \"" = .error (.valueError "No closing quotation") := by decide +kernel

/-- C57 is false: if the file given exists, it is overwritten with the result, and nothing is printed. -/
theorem C57_overwrites_false (text : Report → String) (fs : FileSystem) (pre path command old : String) (r : Report)
    (hr : report command = .ok r) (hold : fs (pre ++ path) = some old) :
    ∃ fs', run text fs pre (some path) command = (([], fs'), none) ∧ fs' (pre ++ path) = some (text r) := by
  refine ⟨fun p => if p = pre ++ path then some (text r) else fs p, ?_, ?_⟩
  · simp [run, hr, shallWeWrite, hold]
  · simp

/-- C57 is false: if there is no such file, none is created, and the user is told that there is one. -/
theorem C57_new_file_false (text : Report → String) (fs : FileSystem) (pre path command : String) (r : Report)
    (hr : report command = .ok r) (hnew : fs (pre ++ path) = none) :
    run text fs pre (some path) command = (([notice, text r], fs), none) := by
  simp [run, hr, shallWeWrite, hnew]

/-- C57, the part that holds: the result is delivered exactly once, on the terminal or in the file; other files
never change, and no file changes without `--save_to` or when the command cannot be reported on. -/
theorem C57_delivery_partial (text : Report → String) (fs : FileSystem) (pre command : String)
    (saveTo : Option String) (out : List String) (fs' : FileSystem) (e : Option PyErr)
    (h : run text fs pre saveTo command = ((out, fs'), e)) :
    (∀ p, (∀ path, saveTo = some path → p ≠ pre ++ path) → fs' p = fs p) ∧
    (e ≠ none ↔ ∃ err, parse command = .error err) ∧
    (e ≠ none → fs' = fs) ∧
    (∀ p, (fs' p).isSome = (fs p).isSome) ∧
    (∀ r, report command = .ok r →
      (saveTo = none ∧ out = [text r] ∧ fs' = fs) ∨
      ∃ path, saveTo = some path ∧
        ((fs' = fs ∧ out.getLast? = some (text r)) ∨ (out = [] ∧ fs' (pre ++ path) = some (text r)))) := by
  have hparse : (∃ err, report command = .error err) ↔ ∃ err, parse command = .error err := by
    have ht := C59_report_total command
    cases hp : parse command with
    | error err => rw [hp] at ht; simp [ht]
    | ok c => rw [hp] at ht; obtain ⟨r, hr, _⟩ := ht; simp [hr]
  cases hr : report command with
  | error err =>
      rw [run, hr] at h
      simp only [Prod.mk.injEq] at h
      obtain ⟨⟨_, rfl⟩, rfl⟩ := h
      exact ⟨fun _ _ => rfl, ⟨fun _ => hparse.1 ⟨err, hr⟩, fun _ => by simp⟩, fun _ => rfl, fun _ => rfl,
        fun r h => by cases h⟩
  | ok r =>
      have hn : ¬ ∃ err, parse command = .error err := by rw [← hparse, hr]; simp
      cases saveTo with
      | none =>
          simp only [run, hr, Option.isSome_none, Bool.false_and, Prod.mk.injEq] at h
          obtain ⟨⟨rfl, rfl⟩, rfl⟩ := h
          exact ⟨fun _ _ => rfl, by simp [hn], fun _ => rfl, fun _ => rfl, fun r' h => by cases h; exact .inl ⟨rfl, by simp, rfl⟩⟩
      | some path =>
          by_cases hs : shallWeWrite fs pre (some path) = true
          · simp only [run, hr, hs, if_true, Prod.mk.injEq] at h
            obtain ⟨⟨rfl, rfl⟩, rfl⟩ := h
            refine ⟨?_, by simp [hn], fun h => absurd rfl h, ?_, ?_⟩
            · intro p hp; exact if_neg (hp path rfl)
            · intro p
              by_cases hp : p = pre ++ path
              · subst hp; simpa [shallWeWrite] using hs.symm
              · simp [hp]
            · intro r' h; cases h; exact .inr ⟨path, rfl, .inr ⟨by simp, by simp⟩⟩
          · simp only [run, hr, hs] at h
            obtain ⟨⟨rfl, rfl⟩, rfl⟩ := h
            exact ⟨fun _ _ => rfl, by simp [hn], fun _ => rfl, fun _ => rfl,
              fun r' h => by cases h; exact .inr ⟨path, rfl, .inl ⟨rfl, by simp⟩⟩⟩

/-- C57. The file is looked for in the directory of the script, not in the one the script is called from. -/
theorem C57_relative_false (dir name : String) (h : '/' ∉ name.toList) :
    scriptPrefixOf (dir ++ "/" ++ name) = dir ++ "/" ∧ scriptPrefixOf name = "" := by
  have hd : ∀ (l r : List Char), '/' ∉ l → (l ++ r).dropWhile (· ≠ '/') = r.dropWhile (· ≠ '/') := by
    intro l r hl
    induction l with
    | nil => rfl
    | cons a l ih =>
        rw [List.cons_append, List.dropWhile_cons_of_pos, ih (fun hm => hl (by simp [hm]))]
        simpa using fun he : a = '/' => hl (by simp [he])
  have hr : '/' ∉ name.toList.reverse := by simpa using h
  constructor
  · apply String.toList_inj.1
    simp only [scriptPrefixOf, String.toList_append, List.reverse_append, String.toList_ofList]
    rw [hd _ _ hr]
    simp
  · have := hd name.toList.reverse [] hr
    rw [List.append_nil] at this
    simp only [scriptPrefixOf, this]
    rfl

example : scriptPrefixOf "/opt/pash/annotation_cli.py" = "/opt/pash/" := by decide
example : ∃ r, report "ls" = .ok r := by
  have hp : parse "ls" = .ok ⟨"ls", [], []⟩ := by decide +kernel
  have ht := C59_report_total "ls"
  rw [hp] at ht
  obtain ⟨r, hr, _⟩ := ht
  exact ⟨r, hr⟩

end PashAnn.Cli
