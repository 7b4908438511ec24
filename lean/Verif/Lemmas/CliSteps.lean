import Verif.Spec.CliSteps

/-! Lemmas for C96. -/

namespace PashAnn.Cli
open Spec

theorem overwrite_end (contents new : List Char) : overwrite contents contents.length new = contents ++ new := by
  simp [overwrite, List.drop_eq_nil_of_le]

theorem files_set_same (fs : Files) (p : String) (c : List Char) : fs.set p c p = some c := by simp [Files.set]

theorem files_set_other (fs : Files) {p q : String} (c : List Char) (h : q ≠ p) : fs.set p c q = fs q := by
  simp [Files.set, h]

theorem files_set_set (fs : Files) (p : String) (c d : List Char) : (fs.set p c).set p d = fs.set p d := by
  funext q; unfold Files.set; split <;> rfl

/-- The file to save to exists. -/
def Writes (fs : Files) (a : Arguments) : Bool := a.target.any fun p => (fs p).isSome

/-- What is printed before the report. -/
def preface (fs : Files) (a : Arguments) : List String := if a.target.isSome && !Writes fs a then [notice] else []

/-- The file to save to is as at the beginning. -/
def Same (fs₀ fs : Files) (a : Arguments) : Prop := ∀ p, a.target = some p → fs p = fs₀ p

/-- What is true of a run if no other run writes to its file. -/
def Progress (text : Report → String) (fs₀ fs : Files) (p : Process) : Prop :=
  match p.stage with
  | .start => Same fs₀ fs p.arguments ∧ p.printed = []
  | .checked w => Same fs₀ fs p.arguments ∧ w = Writes fs₀ p.arguments ∧ p.printed = preface fs₀ p.arguments
  | .computed w t => Same fs₀ fs p.arguments ∧ w = Writes fs₀ p.arguments ∧ p.printed = preface fs₀ p.arguments ∧
      ∃ r, report p.arguments.command = .ok r ∧ t = (text r).toList
  | .writing rest pos => Writes fs₀ p.arguments = true ∧ p.printed = [] ∧ ∃ r done path,
      report p.arguments.command = .ok r ∧ (text r).toList = done ++ rest ∧ pos = done.length ∧
      p.arguments.target = some path ∧ fs path = some done
  | .ended => ∃ r, report p.arguments.command = .ok r ∧
      ((Writes fs₀ p.arguments = true ∧ p.printed = [] ∧ ∃ path, p.arguments.target = some path ∧
          fs path = some (text r).toList) ∨
        (Writes fs₀ p.arguments = false ∧ Same fs₀ fs p.arguments ∧ p.printed = preface fs₀ p.arguments ++ [text r]))
  | .raised e => report p.arguments.command = .error e ∧ Same fs₀ fs p.arguments ∧
      p.printed = preface fs₀ p.arguments

/-- A run that writes has found the file. -/
def Found (fs₀ : Files) (p : Process) : Prop :=
  match p.stage with
  | .checked true | .computed true _ | .writing _ _ => ∃ path, p.arguments.target = some path ∧ (fs₀ path).isSome = true
  | _ => True

/-- A step keeps the arguments, changes only the file to save to, and neither creates nor removes files that others
know of. -/
theorem advance_frame {text : Report → String} {fs₀ : Files} {s t : Files × Process} (h : Advance text s t)
    (hex : ∀ q, (s.1 q).isSome = (fs₀ q).isSome) (hf : Found fs₀ s.2) :
    t.2.arguments = s.2.arguments ∧ (∀ q, (t.1 q).isSome = (fs₀ q).isSome) ∧ Found fs₀ t.2 ∧
    ∀ q, s.2.arguments.target ≠ some q → t.1 q = s.1 q := by
  cases h with
  | noFile h1 => exact ⟨rfl, hex, trivial, fun _ _ => rfl⟩
  | found h1 h2 => exact ⟨rfl, hex, ⟨_, h1, (hex _).symm.trans h2⟩, fun _ _ => rfl⟩
  | notFound h1 h2 => exact ⟨rfl, hex, trivial, fun _ _ => rfl⟩
  | @compute fs a out w r h1 =>
      refine ⟨rfl, hex, ?_, fun _ _ => rfl⟩
      cases w with
      | true => exact hf
      | false => trivial
  | fail h1 => exact ⟨rfl, hex, trivial, fun _ _ => rfl⟩
  | print => exact ⟨rfl, hex, trivial, fun _ _ => rfl⟩
  | @opened fs a out result path h1 =>
      obtain ⟨path', h2, h3⟩ := hf
      obtain rfl : path = path' := Option.some.inj (h1.symm.trans h2)
      refine ⟨rfl, fun q => ?_, ⟨path, h1, h3⟩, fun q hq => ?_⟩
      · simp only
        by_cases hq : q = path
        · subst hq; rw [files_set_same, h3]; rfl
        · rw [files_set_other _ _ hq]; exact hex q
      · exact files_set_other _ _ fun h => hq (h ▸ h1)
  | @write fs a out path contents new rest position h1 h2 h3 =>
      obtain ⟨path', h4, h5⟩ := hf
      obtain rfl : path = path' := Option.some.inj (h1.symm.trans h4)
      refine ⟨rfl, fun q => ?_, ⟨path, h1, h5⟩, fun q hq => ?_⟩
      · simp only
        by_cases hq : q = path
        · subst hq; rw [files_set_same, h5]; rfl
        · rw [files_set_other _ _ hq]; exact hex q
      · exact files_set_other _ _ fun h => hq (h ▸ h1)
  | close => exact ⟨rfl, hex, trivial, fun _ _ => rfl⟩

/-- A step of a run keeps what is true of it. -/
theorem advance_progress {text : Report → String} {fs₀ : Files} {s t : Files × Process} (h : Advance text s t)
    (hex : ∀ q, (s.1 q).isSome = (fs₀ q).isSome) (hp : Progress text fs₀ s.1 s.2) : Progress text fs₀ t.1 t.2 := by
  cases h with
  | noFile h1 =>
      obtain ⟨e1, e2⟩ := hp
      simp only at h1 e2
      refine ⟨e1, ?_, ?_⟩
      · simp [Writes, h1]
      · simp [preface, h1, e2]
  | @found fs a out path h1 h2 =>
      obtain ⟨e1, e2⟩ := hp
      simp only at h1 e2
      have hw : Writes fs₀ a = true := by rw [Writes, h1]; exact (hex _).symm.trans h2
      exact ⟨e1, hw.symm, by simp [preface, hw, e2]⟩
  | @notFound fs a out path h1 h2 =>
      obtain ⟨e1, e2⟩ := hp
      simp only at h1 e2
      have hw : Writes fs₀ a = false := by rw [Writes, h1]; exact (hex _).symm.trans h2
      exact ⟨e1, hw.symm, by simp [preface, hw, e2, h1]⟩
  | compute h1 =>
      obtain ⟨e1, e2, e3⟩ := hp
      exact ⟨e1, e2, e3, _, h1, rfl⟩
  | fail h1 =>
      obtain ⟨e1, e2, e3⟩ := hp
      exact ⟨h1, e1, e3⟩
  | print =>
      obtain ⟨e1, e2, e3, r, e4, rfl⟩ := hp
      refine ⟨r, e4, .inr ⟨e2.symm, e1, ?_⟩⟩
      simp only at e3 ⊢
      rw [e3, String.ofList_toList]
  | @opened fs a out result path h1 =>
      obtain ⟨e1, e2, e3, r, e4, rfl⟩ := hp
      refine ⟨e2.symm, ?_, r, [], path, e4, rfl, rfl, h1, files_set_same ..⟩
      simp only at e3 e2 ⊢
      rw [e3, preface, ← e2]; simp
  | @write fs a out path contents new rest position h1 h2 h3 =>
      obtain ⟨e1, e2, r, done, path', e3, e4, e5, e6, e7⟩ := hp
      simp only at e2 e5 e6 e7
      obtain rfl : path = path' := Option.some.inj (h1.symm.trans e6)
      rw [h2] at e7
      obtain rfl := Option.some.inj e7
      subst e5
      refine ⟨e1, e2, r, contents ++ new, path, e3, by rw [e4, List.append_assoc], by simp, h1, ?_⟩
      simp only
      rw [files_set_same, overwrite_end]
  | close =>
      obtain ⟨e1, e2, r, done, path', e3, e4, e5, e6, e7⟩ := hp
      rw [List.append_nil] at e4
      exact ⟨r, e3, .inl ⟨e1, e2, path', e6, e4 ▸ e7⟩⟩

/-- What is true of a run stays true if its file stays as it is. -/
theorem progress_frame {text : Report → String} {fs₀ fs fs' : Files} {p : Process}
    (h : ∀ q, p.arguments.target = some q → fs' q = fs q) (hp : Progress text fs₀ fs p) : Progress text fs₀ fs' p := by
  have same : Same fs₀ fs p.arguments → Same fs₀ fs' p.arguments := fun hs q hq => (h q hq).trans (hs q hq)
  unfold Progress at hp ⊢
  split at hp
  · exact ⟨same hp.1, hp.2⟩
  · exact ⟨same hp.1, hp.2⟩
  · exact ⟨same hp.1, hp.2⟩
  · obtain ⟨e1, e2, r, done, path', e3, e4, e5, e6, e7⟩ := hp
    exact ⟨e1, e2, r, done, path', e3, e4, e5, e6, (h _ e6).trans e7⟩
  · obtain ⟨r, e1, e2⟩ := hp
    rcases e2 with ⟨e2, e3, path, e4, e5⟩ | ⟨e2, e3, e4⟩
    · exact ⟨r, e1, .inl ⟨e2, e3, path, e4, (h _ e4).trans e5⟩⟩
    · exact ⟨r, e1, .inr ⟨e2, same e3, e4⟩⟩
  · exact ⟨hp.1, same hp.2.1, hp.2.2⟩

/-- What is true of all runs together. -/
structure Together (text : Report → String) (fs₀ : Files) (jobs : List Arguments) (s : Files × List Process) : Prop where
  arguments : s.2.map (·.arguments) = jobs
  existing : ∀ q, (s.1 q).isSome = (fs₀ q).isSome
  found : ∀ p ∈ s.2, Found fs₀ p
  others : ∀ q, (∀ a ∈ jobs, a.target ≠ some q) → s.1 q = fs₀ q
  apart : ∀ (i : Nat) p, s.2[i]? = some p →
    (∀ (j : Nat) a path, jobs[j]? = some a → i ≠ j → p.arguments.target = some path → a.target ≠ some path) →
    Progress text fs₀ s.1 p

theorem together_start (text : Report → String) (fs : Files) (jobs : List Arguments) :
    Together text fs jobs (fs, jobs.map beginRun) where
  arguments := by simp [beginRun, Function.comp_def]
  existing _ := rfl
  found p hp := by
    obtain ⟨a, _, rfl⟩ := List.mem_map.mp hp
    trivial
  others _ _ := rfl
  apart i p hp _ := by
    obtain ⟨a, _, rfl⟩ := List.mem_map.mp (List.mem_of_getElem? hp)
    exact ⟨fun _ _ => rfl, rfl⟩

theorem together_step {text : Report → String} {fs₀ : Files} {jobs : List Arguments} {s t : Files × List Process}
    (h : Together text fs₀ jobs s) (hs : RunStep text s t) : Together text fs₀ jobs t := by
  cases hs with
  | @step fs fs' ps p p' i hi ha =>
    have hmem := List.mem_of_getElem? hi
    obtain ⟨hlt, hget⟩ := List.getElem?_eq_some_iff.mp hi
    obtain ⟨f1, f2, f3, f4⟩ := advance_frame ha h.existing (h.found p hmem)
    simp only at f1 f2 f3 f4
    have hjob : jobs[i]? = some p.arguments := by rw [← h.arguments, List.getElem?_map, hi]; rfl
    refine ⟨?_, f2, ?_, ?_, ?_⟩
    · simp only
      rw [List.map_set, f1, ← h.arguments]
      apply List.ext_getElem?
      intro j
      by_cases hij : i = j
      · subst hij; rw [List.getElem?_set_self (by simpa using hlt), List.getElem?_map, hi]; rfl
      · rw [List.getElem?_set_ne hij]
    · intro q hq
      rcases List.mem_or_eq_of_mem_set hq with hq | rfl
      · exact h.found q hq
      · exact f3
    · intro q hq
      exact (f4 q (hq _ (List.mem_of_getElem? hjob))).trans (h.others q hq)
    · intro j q hq hap
      simp only at hq ⊢
      by_cases hij : i = j
      · subst hij
        rw [List.getElem?_set_self hlt] at hq
        obtain rfl := Option.some.inj hq
        refine advance_progress ha h.existing (h.apart i p hi ?_)
        intro j a path hj hne ht
        exact hap j a path hj hne (f1 ▸ ht)
      · rw [List.getElem?_set_ne hij] at hq
        refine progress_frame ?_ (h.apart j q hq hap)
        intro path hpath
        exact f4 path (hap i _ path hjob (Ne.symm hij) hpath)

theorem together_steps {text : Report → String} {fs₀ : Files} {jobs : List Arguments} {s t : Files × List Process}
    (h : Together text fs₀ jobs s) (hs : RunSteps text s t) : Together text fs₀ jobs t := by
  induction hs with
  | refl => exact h
  | step h1 _ ih => exact ih (together_step h h1)

/-! ### The end -/

/-- An upper bound for the steps still to come. -/
def remaining (text : Report → String) (p : Process) : Nat :=
  match p.stage with
  | .start => (match report p.arguments.command with | .ok r => (text r).toList.length | .error _ => 0) + 5
  | .checked _ => (match report p.arguments.command with | .ok r => (text r).toList.length | .error _ => 0) + 4
  | .computed _ t => t.length + 2
  | .writing rest _ => rest.length + 1
  | .ended => 0
  | .raised _ => 0

theorem advance_remaining {text : Report → String} {s t : Files × Process} (h : Advance text s t) :
    remaining text t.2 < remaining text s.2 := by
  cases h with
  | noFile | found | notFound => simp only [remaining]; omega
  | compute h1 => simp only [remaining, h1]; omega
  | fail h1 => simp only [remaining, h1]; omega
  | print => simp only [remaining]; omega
  | opened => simp only [remaining]; omega
  | @write fs a out path contents new rest position h1 h2 h3 =>
      have : 0 < new.length := List.length_pos_iff.mpr h3
      simp only [remaining, List.length_append]; omega
  | close => simp [remaining]

theorem sum_set_lt : ∀ (l : List Nat) (i x y : Nat), l[i]? = some x → y < x → (l.set i y).sum < l.sum
  | [], i, x, y, h, _ => by simp at h
  | a :: l, 0, x, y, h, hy => by simp at h; subst h; simp [hy]
  | a :: l, i + 1, x, y, h, hy => by
      have := sum_set_lt l i x y (by simpa using h) hy
      simpa using this

theorem step_remaining {text : Report → String} {s t : Files × List Process} (h : RunStep text s t) :
    (t.2.map (remaining text)).sum < (s.2.map (remaining text)).sum := by
  cases h with
  | step i hi ha =>
      simp only
      rw [List.map_set]
      exact sum_set_lt _ _ _ _ (by rw [List.getElem?_map, hi]; rfl) (advance_remaining ha)

end PashAnn.Cli
