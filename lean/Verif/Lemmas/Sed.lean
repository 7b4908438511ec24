import Verif.Spec.Sed
import Verif.Lemmas.Streams

/-! Lemmas about `Spec/Sed.lean`. -/

namespace PashAnn
open Spec

variable {rx : SedRegexes} {quiet : Bool}

/-- What a script prints for a line that it treats alone. -/
def sedAlone (rx : SedRegexes) (quiet : Bool) (cmds : List SedCommand) (l : String) : List String :=
  let r := sedCycle rx quiet cmds ⟨l, "", 0, []⟩
  r.1 ++ (if quiet ∨ r.2.2 = .silent then [] else sedShow r.2.1.pattern)

private theorem applies_local {c : SedCommand} (h1 : ∀ n, c.address ≠ some (.number n)) (h2 : c.address ≠ some .last)
    (s t : SedState) (h : s.pattern = t.pattern) : c.applies rx s = c.applies rx t := by
  unfold SedCommand.applies
  split
  · rfl
  · rename_i n e; exact absurd e (h1 n)
  · rename_i e; exact absurd e h2
  · rw [h]

private theorem sedCycle_local {cmds : List SedCommand} (hl : SedLocal cmds) (p : String) (n : Nat) (rest : List String) :
    ∃ out q e, e ≠ SedEnd.stop ∧ sedCycle rx quiet cmds ⟨p, "", 0, []⟩ = (out, ⟨q, "", 0, []⟩, e) ∧
      sedCycle rx quiet cmds ⟨p, "", n, rest⟩ = (out, ⟨q, "", n, rest⟩, e) := by
  induction cmds generalizing p with
  | nil => exact ⟨[], p, .usual, by simp, rfl, rfl⟩
  | cons c cs ih =>
      obtain ⟨h1, h2, h3⟩ := hl c (by simp)
      have ih := fun q => ih (fun d hd => hl d (by simp [hd])) q
      have happ := applies_local (rx := rx) h1 h2 ⟨p, "", n, rest⟩ ⟨p, "", 0, []⟩ rfl
      by_cases ha : c.applies rx ⟨p, "", 0, []⟩
      · have ha' : c.applies rx ⟨p, "", n, rest⟩ := by rw [happ]; exact ha
        have key : ∀ (pre : List String) (q : String), ∃ out q' e, e ≠ SedEnd.stop ∧
            (pre ++ (sedCycle rx quiet cs ⟨q, "", 0, []⟩).1, (sedCycle rx quiet cs ⟨q, "", 0, []⟩).2) =
              (out, ⟨q', "", 0, []⟩, e) ∧
            (pre ++ (sedCycle rx quiet cs ⟨q, "", n, rest⟩).1, (sedCycle rx quiet cs ⟨q, "", n, rest⟩).2) =
              (out, ⟨q', "", n, rest⟩, e) := by
          intro pre q
          obtain ⟨out, q', e, he, e1, e2⟩ := ih q
          exact ⟨pre ++ out, q', e, he, by rw [e1], by rw [e2]⟩
        cases hv : c.verb with
        | print => simpa [sedCycle, ha, ha', hv] using key (sedShow p) p
        | delete => exact ⟨[], p, .silent, by simp, by simp [sedCycle, ha, hv], by simp [sedCycle, ha', hv]⟩
        | branch => exact ⟨[], p, .usual, by simp, by simp [sedCycle, ha, hv], by simp [sedCycle, ha', hv]⟩
        | subst r t all print =>
            by_cases hh : rx.hit r p
            · simpa [sedCycle, ha, ha', hv, hh] using key (if print then sedShow (rx.replace r t all p) else []) (rx.replace r t all p)
            · simpa [sedCycle, ha, ha', hv, hh] using ih p
        | translit a b => simpa [sedCycle, ha, ha', hv] using key [] _
        | get => simpa [sedCycle, ha, ha', hv] using key [] ""
        | getAppend => simpa [sedCycle, ha, ha', hv] using key [] (p ++ "\n" ++ "")
        | quit => simp [hv] at h3
        | lineNumber => simp [hv] at h3
        | hold => simp [hv] at h3
        | holdAppend => simp [hv] at h3
        | exchange => simp [hv] at h3
        | next => simp [hv] at h3
        | nextAppend => simp [hv] at h3
      · have ha' : ¬ c.applies rx ⟨p, "", n, rest⟩ := by rw [happ]; exact ha
        simpa [sedCycle, ha, ha'] using ih p

theorem runSed_local {cmds : List SedCommand} (hl : SedLocal cmds) (x : Stream) :
    runSed rx quiet cmds x = x.flatMap (sedAlone rx quiet cmds) := by
  unfold runSed
  generalize 0 = k
  induction x generalizing k with
  | nil => rfl
  | cons l x ih =>
      obtain ⟨out, q, e, he, e1, e2⟩ := sedCycle_local (rx := rx) (quiet := quiet) hl l (k + 1) x
      rw [List.length_cons, sedCycles, e2, List.flatMap_cons]
      simp only [he, if_false, ih]
      simp only [sedAlone, e1]

/-! Printing. -/

theorem sedLines_ne (cs : List Char) : sedLines cs ≠ [] := by
  cases cs with
  | nil => simp [sedLines]
  | cons c cs => unfold sedLines; split <;> (try split) <;> simp

theorem sedShow_pos (s : String) : 0 < (sedShow s).length := by
  unfold sedShow
  rw [List.length_map]
  exact List.length_pos_iff.2 (sedLines_ne _)

theorem sedLines_plain {cs : List Char} (h : '\n' ∉ cs) : sedLines cs = [cs] := by
  induction cs with
  | nil => rfl
  | cons c cs ih =>
      simp only [List.mem_cons, not_or] at h
      rw [sedLines, if_neg (Ne.symm h.1), ih h.2]

theorem sedLines_append {cs : List Char} (h : '\n' ∉ cs) (ds : List Char) :
    sedLines (cs ++ '\n' :: ds) = cs :: sedLines ds := by
  induction cs with
  | nil => simp [sedLines]
  | cons c cs ih =>
      simp only [List.mem_cons, not_or] at h
      rw [List.cons_append, sedLines, if_neg (Ne.symm h.1), ih h.2]

theorem sedShow_plain {s : String} (h : '\n' ∉ s.toList) : sedShow s = [s] := by
  simp [sedShow, sedLines_plain h]

theorem sedShow_append {s : String} (h : '\n' ∉ s.toList) (t : String) : sedShow (s ++ "\n" ++ t) = s :: sedShow t := by
  have : (s ++ "\n" ++ t).toList = s.toList ++ '\n' :: t.toList := by simp
  simp [sedShow, this, sedLines_append h]

end PashAnn
