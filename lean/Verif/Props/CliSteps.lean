import Verif.Lemmas.CliSteps
import Verif.Props.Cli

/-!
C96: What runs of the script do to files, wherever they are stopped and however many run at the same time.
-/

namespace PashAnn
open Spec Cli

private theorem stuck_single {text : Report → String} {fs₀ : Files} {jobs : List Arguments} {s : Files × List Process}
    (h : Together text fs₀ jobs s) (stuck : ∀ t, ¬ RunStep text s t) {i : Nat} {p : Process} (hi : s.2[i]? = some p) :
    p.stage = .ended ∨ ∃ e, p.stage = .raised e := by
  obtain ⟨fs, ps⟩ := s
  obtain ⟨a, st, out⟩ := p
  have no : ∀ fs' p', ¬ Advance text (fs, ⟨a, st, out⟩) (fs', p') := fun fs' p' ha => stuck _ (.step i hi ha)
  have hf := h.found _ (List.mem_of_getElem? hi)
  cases st with
  | start =>
      exfalso
      cases ht : a.target with
      | none => exact no _ _ (.noFile ht)
      | some path =>
          cases hp : (fs path).isSome with
          | true => exact no _ _ (.found ht hp)
          | false => exact no _ _ (.notFound ht hp)
  | checked w =>
      exfalso
      cases hr : report a.command with
      | ok r => exact no _ _ (.compute hr)
      | error e => exact no _ _ (.fail hr)
  | computed w t =>
      exfalso
      cases w with
      | false => exact no _ _ .print
      | true => obtain ⟨path, h1, _⟩ := hf; exact no _ _ (.opened h1)
  | writing rest pos =>
      exfalso
      obtain ⟨path, h1, h2⟩ := hf
      cases rest with
      | nil => exact no _ _ .close
      | cons c rest =>
          have h3 := (h.existing path).trans h2
          obtain ⟨contents, h4⟩ := Option.isSome_iff_exists.mp h3
          exact no _ _ (.write (new := [c]) (rest := rest) h1 h4 (by simp))
  | ended => exact .inl rfl
  | raised e => exact .inr ⟨e, rfl⟩

private theorem alone {text : Report → String} {fs : Files} {a : Arguments} {s : Files × List Process}
    (h : RunSteps text (fs, [beginRun a]) s) {p : Process} (hp : s.2[0]? = some p) :
    Together text fs [a] s ∧ Progress text fs s.1 p ∧ p.arguments = a := by
  have ht := together_steps (together_start text fs [a]) h
  refine ⟨ht, ht.apart 0 p hp ?_, ?_⟩
  · intro j b path hj hne _
    match j with
    | 0 => exact absurd rfl hne
    | j + 1 => simp at hj
  · have := congrArg (·[0]?) ht.arguments
    simp only [List.getElem?_map, hp] at this
    simpa using this

/-- C96 (one run). Wherever a run is stopped, no other file than the one to save to has changed; that one is as before, or
it existed before and has a beginning of the report; and if there is no report, no file has changed. -/
theorem C96_stopped_partial (text : Report → String) (fs fs' : Files) (a : Arguments) (p : Process)
    (h : RunSteps text (fs, [beginRun a]) (fs', [p])) :
    (∀ q, a.target ≠ some q → fs' q = fs q) ∧
    (∀ path, a.target = some path → fs' path = fs path ∨
      ((fs path).isSome = true ∧ ∃ r k, report a.command = .ok r ∧ fs' path = some ((text r).toList.take k))) ∧
    (∀ e, report a.command = .error e → fs' = fs) := by
  obtain ⟨ht, hp, rfl⟩ := alone h rfl
  have others : ∀ q, p.arguments.target ≠ some q → fs' q = fs q := fun q hq => ht.others q (by simpa using hq)
  have writes : ∀ path, p.arguments.target = some path → Writes fs p.arguments = true → (fs path).isSome = true := by
    intro path h1 h2; rw [Writes, h1] at h2; exact h2
  have key : ∀ path, p.arguments.target = some path → fs' path = fs path ∨
      ((fs path).isSome = true ∧ ∃ r k, report p.arguments.command = .ok r ∧ fs' path = some ((text r).toList.take k)) := by
    intro path hpath
    simp only [Progress] at hp
    split at hp
    · exact .inl (hp.1 _ hpath)
    · exact .inl (hp.1 _ hpath)
    · exact .inl (hp.1 _ hpath)
    · obtain ⟨e1, e2, r, done, path', e3, e4, e5, e6, e7⟩ := hp
      obtain rfl := Option.some.inj (hpath.symm.trans e6)
      exact .inr ⟨writes _ hpath e1, r, done.length, e3, by rw [e7, e4, List.take_left']; rfl⟩
    · obtain ⟨r, e1, ⟨e2, e3, path', e4, e5⟩ | ⟨e2, e3, e4⟩⟩ := hp
      · obtain rfl := Option.some.inj (hpath.symm.trans e4)
        exact .inr ⟨writes _ hpath e2, r, (text r).toList.length, e1, by rw [e5, List.take_length]⟩
      · exact .inl (e3 _ hpath)
    · exact .inl (hp.2.1 _ hpath)
  refine ⟨others, key, ?_⟩
  intro e he
  funext q
  by_cases hq : p.arguments.target = some q
  · rcases key q hq with h1 | ⟨_, r, _, h2, _⟩
    · exact h1
    · rw [he] at h2; cases h2
  · exact others q hq

/-- C96 is false for saving: whenever the file to save to exists, there is for every number of characters of the report a
point at which the file has lost its contents and has just these characters of the report; a run stopped there has
destroyed the file. -/
theorem C96_lost_false (text : Report → String) (fs : Files) (a : Arguments) (path : String) (old : List Char) (r : Report)
    (hpath : a.target = some path) (hold : fs path = some old) (hr : report a.command = .ok r) (k : Nat) :
    ∃ p, RunSteps text (fs, [beginRun a]) (fs.set path ((text r).toList.take k), [p]) ∧ p.printed = [] := by
  have s1 : RunSteps text (fs, [beginRun a]) (fs.set path [], [⟨a, .writing (text r).toList 0, []⟩]) :=
    .step (.step 0 rfl (.found hpath (by rw [hold]; rfl))) <| .step (.step 0 rfl (.compute hr)) <|
      .step (.step 0 rfl (.opened hpath)) .refl
  have app : ∀ {s t u}, RunSteps text s t → RunSteps text t u → RunSteps text s u := by
    intro s t u h1 h2
    induction h1 with
    | refl => exact h2
    | step h _ ih => exact .step h (ih h2)
  by_cases hk : (text r).toList.take k = []
  · exact ⟨_, hk ▸ s1, rfl⟩
  · refine ⟨⟨a, .writing ((text r).toList.drop k) (0 + ((text r).toList.take k).length), []⟩, app s1 ?_, rfl⟩
    have w := Advance.write (text := text) (out := []) (rest := (text r).toList.drop k) (position := 0) hpath
      (files_set_same fs path []) hk
    rw [List.take_append_drop, files_set_set] at w
    have := RunStep.step (ps := [⟨a, .writing (text r).toList 0, []⟩]) 0 rfl w
    rw [show overwrite [] 0 ((text r).toList.take k) = (text r).toList.take k by simp [overwrite]] at this
    exact .step this .refl

/-- C96 (many runs). However many runs there are and in whatever order they advance or stop, a file that none of them
should save to does not change, and no file is created or removed. -/
theorem C96_many (text : Report → String) (fs fs' : Files) (jobs : List Arguments) (ps : List Process)
    (h : RunSteps text (fs, jobs.map beginRun) (fs', ps)) :
    (∀ q, (∀ a ∈ jobs, a.target ≠ some q) → fs' q = fs q) ∧ ∀ q, (fs' q).isSome = (fs q).isSome :=
  let ht := together_steps (together_start text fs jobs) h
  ⟨ht.others, ht.existing⟩

/-- C96 (many runs). If no other run saves to the file of a run, then when no run can advance any more this run has
ended as it does alone: it has printed the same, raised the same, and its file is the same. -/
theorem C96_apart_partial (text : Report → String) (fs fs' : Files) (jobs : List Arguments) (ps : List Process)
    (h : RunSteps text (fs, jobs.map beginRun) (fs', ps)) (stuck : ∀ t, ¬ RunStep text (fs', ps) t)
    (i : Nat) (a : Arguments) (hi : jobs[i]? = some a)
    (apart : ∀ (j : Nat) b path, jobs[j]? = some b → i ≠ j → a.target = some path → b.target ≠ some path) :
    ∃ p fs'' , ps[i]? = some p ∧
      run text (fun q => (fs q).map String.ofList) a.scriptPrefix a.saveTo a.command =
        ((p.printed, fs''), match p.stage with
          | .raised e => some e
          | _ => none) ∧
      (p.stage = .ended ∨ ∃ e, p.stage = .raised e) ∧
      ∀ path, a.target = some path → fs'' path = (fs' path).map String.ofList := by
  have ht := together_steps (together_start text fs jobs) h
  obtain ⟨hlt, _⟩ := List.getElem?_eq_some_iff.mp hi
  have hlen : ps.length = jobs.length := by rw [← ht.arguments]; simp
  have hp : ps[i]? = some ps[i] := List.getElem?_eq_getElem (hlen ▸ hlt)
  generalize ps[i] = p at hp
  have harg : p.arguments = a := by
    have := congrArg (·[i]?) ht.arguments
    simp only [List.getElem?_map, hp, hi] at this
    simpa using this
  subst harg
  have hpr := ht.apart i p hp apart
  have hst := stuck_single ht stuck hp
  have ex : ∀ path, ((fs path).map String.ofList).isSome = (fs path).isSome := fun path => by simp
  obtain ⟨⟨pre, saveTo, command⟩, st, out⟩ := p
  simp only at hst hpr ⊢
  rcases hst with rfl | ⟨e, rfl⟩
  · obtain ⟨r, e1, ⟨e2, e3, path, e4, e5⟩ | ⟨e2, e3, e4⟩⟩ := hpr
    · simp only [Arguments.target, Option.map_eq_some_iff] at e4
      obtain ⟨f, rfl, rfl⟩ := e4
      simp only [Writes, Arguments.target, Option.map_some, Option.any_some] at e2
      simp only at e1 e3 e5
      refine ⟨_, fun q => if q = pre ++ f then some (text r) else (fs q).map String.ofList, hp, ?_, .inl rfl, ?_⟩
      · simp [run, e1, shallWeWrite, e2, e3]
      · intro path hpath
        simp only [Arguments.target, Option.map_some, Option.some.injEq] at hpath
        subst hpath
        simp [e5]
    · simp only at e1 e4
      refine ⟨_, fun q => (fs q).map String.ofList, hp, ?_, .inl rfl, ?_⟩
      · cases saveTo with
        | none => simp [run, e1, e4, preface, Arguments.target]
        | some f =>
            simp only [Writes, Arguments.target, Option.map_some, Option.any_some] at e2
            simp [run, e1, e4, preface, Arguments.target, Writes, e2, shallWeWrite]
      · intro path hpath
        simp only
        rw [e3 path hpath]
  · obtain ⟨e1, e2, e3⟩ := hpr
    simp only at e1 e3
    refine ⟨_, fun q => (fs q).map String.ofList, hp, ?_, .inr ⟨e, rfl⟩, ?_⟩
    · cases saveTo with
      | none => simp [run, e1, e3, preface, Arguments.target, shallWeWrite]
      | some f => simp [run, e1, e3, preface, Arguments.target, Writes, shallWeWrite]
    · intro path hpath
      simp only
      rw [e2 path hpath]

/-- C96 is false for two runs that save to the same existing file: there is an order in which both run to their end and
the file then has the second report followed by the end of the first, which is neither of the reports if the second is
shorter and not a beginning of the first. -/
theorem C96_mixed_false (text : Report → String) (fs : Files) (a b : Arguments) (path : String) (old : List Char)
    (r s : Report) (ha : a.target = some path) (hb : b.target = some path) (hold : fs path = some old)
    (hr : report a.command = .ok r) (hs : report b.command = .ok s) (hr0 : text r ≠ "") (hs0 : text s ≠ "") :
    ∃ mixed, RunSteps text (fs, [beginRun a, beginRun b]) (fs.set path mixed, [⟨a, .ended, []⟩, ⟨b, .ended, []⟩]) ∧
      ((text s).toList.length < (text r).toList.length → ¬ (text s).toList <+: (text r).toList →
        mixed ≠ (text r).toList ∧ mixed ≠ (text s).toList) := by
  refine ⟨(text s).toList ++ (text r).toList.drop (text s).toList.length, ?_, ?_⟩
  rotate_left
  · intro hlt hpre
    refine ⟨fun h => hpre ⟨_, h⟩, fun h => ?_⟩
    have := congrArg List.length h
    simp only [List.length_append, List.length_drop] at this
    omega
  have hr0 : (text r).toList ≠ [] := fun h => hr0 (by rw [← String.ofList_toList (s := text r), h])
  have hs0 : (text s).toList ≠ [] := fun h => hs0 (by rw [← String.ofList_toList (s := text s), h])
  have ex : (fs path).isSome = true := by rw [hold]; rfl
  refine .step (.step 0 rfl (.found ha ex)) <| .step (.step 1 rfl (.found hb ex)) <|
    .step (.step 0 rfl (.compute hr)) <| .step (.step 1 rfl (.compute hs)) <|
    .step (.step 0 rfl (.opened ha)) <| .step (.step 1 rfl (.opened hb)) ?_
  have w1 := Advance.write (text := text) (out := []) (rest := []) (position := 0) (fs := fs.set path []) ha
    (files_set_same fs path []) hr0
  rw [List.append_nil, files_set_set, show overwrite [] 0 (text r).toList = (text r).toList by simp [overwrite]] at w1
  have w2 := Advance.write (text := text) (out := []) (rest := []) (position := 0) (fs := fs.set path (text r).toList) hb
    (files_set_same fs path _) hs0
  rw [List.append_nil, files_set_set, show overwrite (text r).toList 0 (text s).toList =
    (text s).toList ++ (text r).toList.drop (text s).toList.length by simp [overwrite]] at w2
  have e0 : (fs.set path []).set path [] = fs.set path [] := files_set_set ..
  rw [e0]
  exact .step (.step 0 rfl w1) <| .step (.step 1 rfl w2) <| .step (.step 0 rfl .close) <| .step (.step 1 rfl .close) .refl

/-- Runs cannot go on for ever. -/
theorem C96_ends (text : Report → String) (f : Nat → Files × List Process) : ¬ ∀ n, RunStep text (f n) (f (n + 1)) := by
  intro h
  have : ∀ m n, ((f n).2.map (remaining text)).sum ≤ m → False := by
    intro m
    induction m with
    | zero => intro n hn; have := step_remaining (h n); omega
    | succ m ih => intro n hn; exact ih (n + 1) (by have := step_remaining (h n); omega)
  exact this _ 0 (Nat.le_refl _)

/-! ### Examples -/

private def saveX (command : String) : Arguments := ⟨"d/", some "x", command⟩

private def someFiles : Files := fun p => if p = "d/x" then some ['o', 'l', 'd'] else none

private theorem reported {command : String} {c : CommandInvocationInitial} (h : parse command = .ok c) :
    ∃ r, report command = .ok r ∧ r.command = command := by
  have ht := C59_report_total command
  rw [h] at ht
  obtain ⟨r, h1, h2, _⟩ := ht
  exact ⟨r, h1, h2⟩

/-- The conditions of `C96_lost_false` and `C96_mixed_false` are met: two commands that can be reported on, saved to an
existing file, the second report shorter and not a beginning of the first. -/
example : (saveX "ls -l x").target = some "d/x" ∧ someFiles "d/x" = some ['o', 'l', 'd'] ∧
    (∃ r s, report "ls -l x" = .ok r ∧ report "cat y" = .ok s ∧ r.command ≠ "" ∧ s.command ≠ "" ∧
      s.command.toList.length < r.command.toList.length ∧ ¬ s.command.toList <+: r.command.toList) := by
  refine ⟨by decide +kernel, rfl, ?_⟩
  obtain ⟨r, hr, er⟩ := reported (show parse "ls -l x" = .ok ⟨"ls", [], ["-l", "x"]⟩ by decide +kernel)
  obtain ⟨s, hs, es⟩ := reported (show parse "cat y" = .ok ⟨"cat", [], ["y"]⟩ by decide +kernel)
  refine ⟨r, s, hr, hs, ?_⟩
  rw [er, es]
  decide +kernel

/-- The conditions of `C96_apart_partial` are met by a run that saves and a run that prints, which end like this, the second
one finishing first. -/
example : ∃ r s, report "ls -l x" = .ok r ∧ report "cat y" = .ok s ∧
    RunSteps Report.command (someFiles, [saveX "ls -l x", ⟨"d/", none, "cat y"⟩].map beginRun)
      (someFiles.set "d/x" "ls -l x".toList, [⟨saveX "ls -l x", .ended, []⟩, ⟨⟨"d/", none, "cat y"⟩, .ended, ["cat y"]⟩]) ∧
    ∀ (j : Nat) b path, [saveX "ls -l x", ⟨"d/", none, "cat y"⟩][j]? = some b → 0 ≠ j →
      (saveX "ls -l x").target = some path → b.target ≠ some path := by
  obtain ⟨r, hr, er⟩ := reported (show parse "ls -l x" = .ok ⟨"ls", [], ["-l", "x"]⟩ by decide +kernel)
  obtain ⟨s, hs, es⟩ := reported (show parse "cat y" = .ok ⟨"cat", [], ["y"]⟩ by decide +kernel)
  have ht : (saveX "ls -l x").target = some "d/x" := by decide +kernel
  refine ⟨r, s, hr, hs, ?_, ?_⟩
  · refine .step (.step 0 rfl (.found ht rfl)) <| .step (.step 1 rfl (.noFile rfl)) <|
      .step (.step 0 rfl (.compute hr)) <| .step (.step 1 rfl (.compute hs)) <|
      .step (.step 0 rfl (.opened ht)) <| .step (.step 1 rfl .print) ?_
    have w := Advance.write (text := Report.command) (out := []) (rest := []) (position := 0) (fs := someFiles.set "d/x" []) ht
      (files_set_same someFiles "d/x" []) (new := r.command.toList) (by rw [er]; decide +kernel)
    rw [List.append_nil, files_set_set, show overwrite [] 0 r.command.toList = r.command.toList by simp [overwrite]] at w
    have e := es
    simp only [er, es, String.ofList_toList] at w ⊢
    exact .step (.step 0 rfl w) <| .step (.step 0 rfl .close) .refl
  · intro j b path hj hne _
    match j with
    | 0 => exact absurd rfl hne
    | 1 => simp at hj; subst hj; simp [Arguments.target]
    | j + 2 => simp at hj

end PashAnn
