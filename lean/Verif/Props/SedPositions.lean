import Verif.Props.Sed

/-! Property C99, scripts that print a line or not, once or twice, depending on its number. -/

namespace PashAnn
open Spec

/-- The output if `w` tells what is printed for a line with that number, counting from `k`. -/
def printedFrom (w : Nat → String → List String) : Nat → Stream → Stream
  | _, [] => []
  | k, l :: x => w k l ++ printedFrom w (k + 1) x

variable {w : Nat → String → List String}

private theorem printed_append (k : Nat) (a b : Stream) :
    printedFrom w k (a ++ b) = printedFrom w k a ++ printedFrom w (k + a.length) b := by
  induction a generalizing k with
  | nil => rfl
  | cons l a ih => simp [printedFrom, ih, Nat.add_assoc, Nat.add_comm 1]

private theorem printed_mem (hw : ∀ k l, ∀ m ∈ w k l, m = l) {k : Nat} {x : Stream} {m : String}
    (h : m ∈ printedFrom w k x) : m ∈ x := by
  induction x generalizing k with
  | nil => cases h
  | cons l x ih =>
      rcases List.mem_append.1 h with h | h
      · exact List.mem_cons.2 (.inl (hw _ _ _ h))
      · exact List.mem_cons.2 (.inr (ih h))

/-- Two outputs whose first halves come from lines that are not among the others. -/
private theorem apart_cancel {x : Stream} {a a' b b' : Stream} (ha : ∀ m ∈ a, m ∈ x) (ha' : ∀ m ∈ a', m ∈ x)
    (hb : ∀ m ∈ b, m ∉ x) (hb' : ∀ m ∈ b', m ∉ x) : a ++ b = a' ++ b' ↔ a = a' ∧ b = b' := by
  constructor
  · intro e
    have key : ∀ {a b : Stream}, (∀ m ∈ a, m ∈ x) → (∀ m ∈ b, m ∉ x) → (a ++ b).filter (· ∈ x) = a := by
      intro a b h1 h2
      rw [List.filter_append, List.filter_eq_self.2 (by simpa using h1), List.filter_eq_nil_iff.2 (by simpa using h2),
        List.append_nil]
    have e1 : a = a' := by rw [← key ha hb, e, key ha' hb']
    subst e1
    exact ⟨rfl, List.append_cancel_left e⟩
  · rintro ⟨rfl, rfl⟩; rfl

private theorem printed_inj (hw : ∀ k l, ∀ m ∈ w k l, m = l) {x : Stream} (hx : x.Nodup) (k k' : Nat) :
    printedFrom w k x = printedFrom w k' x ↔ ∀ i l, x[i]? = some l → w (k + i) l = w (k' + i) l := by
  induction x generalizing k k' with
  | nil => simp [printedFrom]
  | cons l x ih =>
      obtain ⟨h1, h2⟩ := List.nodup_cons.1 hx
      rw [printedFrom, printedFrom, apart_cancel (x := [l]) (fun m hm => by simp [hw _ _ _ hm]) (fun m hm => by simp [hw _ _ _ hm])
        (fun m hm => by simp only [List.mem_singleton]; rintro rfl; exact h1 (printed_mem hw hm))
        (fun m hm => by simp only [List.mem_singleton]; rintro rfl; exact h1 (printed_mem hw hm)), ih h2]
      constructor
      · rintro ⟨e1, e2⟩ i m hm
        cases i with
        | zero => cases hm; exact e1
        | succ i =>
            have := e2 i m (by simpa using hm)
            rwa [show k + 1 + i = k + (i + 1) by omega, show k' + 1 + i = k' + (i + 1) by omega] at this
      · intro h
        refine ⟨h 0 l rfl, fun i m hm => ?_⟩
        have := h (i + 1) m (by simpa using hm)
        rwa [show k + 1 + i = k + (i + 1) by omega, show k' + 1 + i = k' + (i + 1) by omega]

/-- If no line occurs twice, the outputs for the parts are the output for all of them exactly when every line is treated
like with its number in its part. -/
theorem printed_parts (hw : ∀ k l, ∀ m ∈ w k l, m = l) {parts : List Stream} (hx : parts.flatten.Nodup) :
    (parts.map (printedFrom w 1)).flatten = printedFrom w 1 parts.flatten ↔
      ∀ before part after, parts = before ++ part :: after → ∀ i l, part[i]? = some l →
        w (1 + i) l = w (before.flatten.length + 1 + i) l := by
  have gen : ∀ o, (parts.map (printedFrom w 1)).flatten = printedFrom w (o + 1) parts.flatten ↔
      ∀ before part after, parts = before ++ part :: after → ∀ i l, part[i]? = some l →
        w (1 + i) l = w (o + before.flatten.length + 1 + i) l := by
    induction parts with
    | nil => intro o; simp [printedFrom]
    | cons q ps ih =>
        intro o
        rw [List.flatten_cons] at hx
        obtain ⟨h1, h2, h3⟩ := List.nodup_append.1 hx
        rw [List.map_cons, List.flatten_cons, List.flatten_cons, printed_append]
        rw [apart_cancel (x := q) (fun m hm => printed_mem hw hm) (fun m hm => printed_mem hw hm)
          (fun m hm hq => by
            obtain ⟨z, hz, hm⟩ := List.mem_flatten.1 hm
            obtain ⟨p, hp, rfl⟩ := List.mem_map.1 hz
            exact h3 m hq m (List.mem_flatten.2 ⟨p, hp, printed_mem hw hm⟩) rfl)
          (fun m hm hq => h3 m hq m (printed_mem hw hm) rfl), printed_inj hw h1,
          show o + 1 + q.length = (o + q.length) + 1 by omega, ih h2]
        constructor
        · rintro ⟨e1, e2⟩ before part after e i l hl
          cases before with
          | nil =>
              simp only [List.nil_append, List.cons.injEq] at e
              obtain ⟨rfl, rfl⟩ := e
              exact e1 i l hl
          | cons b before =>
              simp only [List.cons_append, List.cons.injEq] at e
              obtain ⟨rfl, e⟩ := e
              have := e2 before part after e i l hl
              rwa [List.flatten_cons, List.length_append, ← Nat.add_assoc]
        · intro h
          refine ⟨fun i l hl => h [] q ps rfl i l hl, fun before part after e i l hl => ?_⟩
          have := h (q :: before) part after (by rw [e]; rfl) i l hl
          rwa [List.flatten_cons, List.length_append, ← Nat.add_assoc] at this
  have := gen 0
  simpa using this

/-- C99 for `Np`, which prints line `N` once more: if no line occurs twice, right exactly when no part after the first line
has `N` lines or line `N`. -/
theorem C99_position_exact (inv : CommandInvocationInitial) (c : CommandInvocationWithIOVars) (script : String) (n : Nat)
    (hn : 0 < n) (h : ReadsSed inv c script [⟨some (.number n), false, .print⟩]) (p : Parallelizer) (hp : Offered inv p)
    (prog : Programs) (hcat : CatProgram prog) (rx : List FlagOptionWithIOVar → SedRegexes) (hsed : SedManual prog rx)
    (x : Stream) (hx : ∀ l ∈ x, '\n' ∉ l.toList) (hnd : x.Nodup) (parts : List Stream) (hs : Split p.splitter x parts)
    (y : Stream) (he : Executes prog p c parts y) :
    y = sequential prog c x ↔ ∀ before part after, parts = before ++ part :: after → before.flatten ≠ [] →
      part.length < n ∧ ¬ (before.flatten.length < n ∧ n ≤ before.flatten.length + part.length) := by
  obtain ⟨e1, e2, e3⟩ := sed_executes h hcat hsed (quiet := decide (Has inv "-n")) (by simp) hp hs he
  rw [e2, e3]
  rw [← e1] at hx hnd ⊢
  generalize rx c.flagOptionList = rx, decide (Has inv "-n") = quiet
  clear e1 e2 e3 he hs hp h
  have hcyc : ∀ (x : Stream) (k : Nat), (∀ l ∈ x, '\n' ∉ l.toList) →
      sedCycles rx quiet [⟨some (.number n), false, .print⟩] x.length "" k x =
        printedFrom (fun k l => (if k = n then [l] else []) ++ (if quiet then [] else [l])) (k + 1) x := by
    intro x
    induction x with
    | nil => intros; rfl
    | cons l x ih =>
        intro k hx
        have hl := sedShow_plain (hx l (by simp))
        have ih := ih (k + 1) (fun m hm => hx m (by simp [hm]))
        rw [List.length_cons, sedCycles, printedFrom, ← ih]
        by_cases hk : k + 1 = n
        · subst hk; cases quiet <;> simp [sedCycle, SedCommand.applies, hl]
        · cases quiet <;> simp [sedCycle, SedCommand.applies, hk, hl]
  have hrun : ∀ z : Stream, (∀ l ∈ z, '\n' ∉ l.toList) → runSed rx quiet [⟨some (.number n), false, .print⟩] z =
      printedFrom (fun k l => (if k = n then [l] else []) ++ (if quiet then [] else [l])) 1 z := fun z hz => hcyc z 0 hz
  rw [hrun _ hx, List.map_congr_left (fun z hz => hrun z (fun l hl => hx l (List.mem_flatten.2 ⟨z, hz, hl⟩))),
    printed_parts (by intro k l m hm; split at hm <;> split at hm <;> simp_all) hnd]
  have hsame : ∀ (i j : Nat) (l : String), ((if i = n then [l] else []) ++ (if quiet then [] else [l]) =
      (if j = n then [l] else []) ++ (if quiet then [] else [l])) ↔ (i = n ↔ j = n) := by
    intro i j l
    rw [List.append_cancel_right_eq]
    by_cases h1 : i = n <;> by_cases h2 : j = n <;> simp [h1, h2]
  simp only [hsame]
  constructor
  · intro h before part after e hne
    have hlen := List.length_pos_iff.2 hne
    refine ⟨?_, ?_⟩
    · false_or_by_contra
      have := h before part after e (n - 1) part[n - 1] (List.getElem?_eq_getElem (by omega))
      omega
    · rintro ⟨h1, h2⟩
      have hi : n - 1 - before.flatten.length < part.length := by omega
      have := h before part after e _ part[n - 1 - before.flatten.length] (List.getElem?_eq_getElem hi)
      omega
  · intro h before part after e i l hl
    by_cases hb : before.flatten = []
    · simp [hb]
    · obtain ⟨h1, h2⟩ := h before part after e hb
      have := (List.getElem?_eq_some_iff.1 hl).1
      omega

/-- C99 for `n;p`, which prints every second line once more: if no line occurs twice, right exactly when every part that is
not empty begins after an even number of lines. -/
theorem C99_second_exact (inv : CommandInvocationInitial) (c : CommandInvocationWithIOVars) (script : String)
    (h : ReadsSed inv c script [⟨none, false, .next⟩, ⟨none, false, .print⟩]) (p : Parallelizer) (hp : Offered inv p)
    (prog : Programs) (hcat : CatProgram prog) (rx : List FlagOptionWithIOVar → SedRegexes) (hsed : SedManual prog rx)
    (x : Stream) (hx : ∀ l ∈ x, '\n' ∉ l.toList) (hnd : x.Nodup) (parts : List Stream) (hs : Split p.splitter x parts)
    (y : Stream) (he : Executes prog p c parts y) :
    y = sequential prog c x ↔ ∀ before part after, parts = before ++ part :: after → part ≠ [] →
      before.flatten.length % 2 = 0 := by
  obtain ⟨e1, e2, e3⟩ := sed_executes h hcat hsed (quiet := decide (Has inv "-n")) (by simp) hp hs he
  rw [e2, e3]
  rw [← e1] at hx hnd ⊢
  generalize rx c.flagOptionList = rx, decide (Has inv "-n") = quiet
  clear e1 e2 e3 he hs hp h
  have hcyc : ∀ (n : Nat) (x : Stream) (k : Nat), x.length ≤ n → k % 2 = 0 → (∀ l ∈ x, '\n' ∉ l.toList) →
      sedCycles rx quiet [⟨none, false, .next⟩, ⟨none, false, .print⟩] n "" k x =
        printedFrom (fun k l => (if k % 2 = 0 then [l] else []) ++ (if quiet then [] else [l])) (k + 1) x := by
    intro n
    induction n with
    | zero =>
        intro x k hn _ _
        have : x = [] := List.length_eq_zero_iff.1 (by omega)
        subst this; rfl
    | succ n ih =>
        intro x k hn hk hx
        cases x with
        | nil => rfl
        | cons l x =>
            have hl := sedShow_plain (hx l (by simp))
            have hk1 : (k + 1) % 2 = 1 := by omega
            have hk2 : (k + 1 + 1) % 2 = 0 := by omega
            cases x with
            | nil => cases quiet <;> simp [sedCycles, sedCycle, SedCommand.applies, printedFrom, hl, hk1]
            | cons m x =>
                have hm := sedShow_plain (hx m (by simp))
                have ih := ih x (k + 2) (by simp only [List.length_cons] at hn; omega) (by omega)
                  (fun m hm => hx m (by simp [hm]))
                rw [sedCycles, printedFrom, printedFrom, show k + 1 + 1 + 1 = k + 2 + 1 by omega, ← ih]
                cases quiet <;> simp [sedCycle, SedCommand.applies, hl, hm, hk1, hk2]
  have hrun : ∀ z : Stream, (∀ l ∈ z, '\n' ∉ l.toList) →
      runSed rx quiet [⟨none, false, .next⟩, ⟨none, false, .print⟩] z =
        printedFrom (fun k l => (if k % 2 = 0 then [l] else []) ++ (if quiet then [] else [l])) 1 z :=
    fun z hz => hcyc _ z 0 (Nat.le_refl _) rfl hz
  rw [hrun _ hx, List.map_congr_left (fun z hz => hrun z (fun l hl => hx l (List.mem_flatten.2 ⟨z, hz, hl⟩))),
    printed_parts (by intro k l m hm; split at hm <;> split at hm <;> simp_all) hnd]
  have hsame : ∀ (i j : Nat) (l : String), ((if i % 2 = 0 then [l] else []) ++ (if quiet then [] else [l]) =
      (if j % 2 = 0 then [l] else []) ++ (if quiet then [] else [l])) ↔ (i % 2 = 0 ↔ j % 2 = 0) := by
    intro i j l
    rw [List.append_cancel_right_eq]
    by_cases h1 : i % 2 = 0 <;> by_cases h2 : j % 2 = 0 <;> simp [h1, h2]
  simp only [hsame]
  constructor
  · intro h before part after e hne
    obtain ⟨l, part, rfl⟩ := List.exists_cons_of_ne_nil hne
    have := h before _ after e 0 l rfl
    omega
  · intro h before part after e i l hl
    have hne : part ≠ [] := by rintro rfl; simp at hl
    have := h before part after e hne
    omega

/-- C99, the other direction: a script that treats every line alone is refused if it contains the letter d or q, wherever
it stands, and begins neither with `s` nor with a dash, although cutting the input anywhere would be right. -/
theorem C99_withheld (inv : CommandInvocationInitial) (c : CommandInvocationWithIOVars) (script : String)
    (cmds : List SedCommand) (h : ReadsSed inv c script cmds) (files : List String) (ho : inv.operandList = script :: files)
    (hl : SedLocal cmds) (hd : Occurs "d" script ∨ Occurs "q" script) (hs : ¬ StartsWith "s" script ∧ ¬ StartsWith "-" script)
    (prog : Programs) (rx : List FlagOptionWithIOVar → SedRegexes) (hsed : SedManual prog rx) :
    (¬ ∃ p, Offered inv p) ∧ ∀ a b, sequential prog c (a ++ b) = sequential prog c a ++ sequential prog c b := by
  refine ⟨?_, ?_⟩
  · rintro ⟨p, hp⟩
    rcases ((offered_sed h.hname ho p).1 hp).1 with h | h | h
    · exact hs.2 h
    · exact hs.1 h
    · rcases hd with hd | hd
      · exact h.1 hd
      · exact h.2 hd
  · have hseq : ∀ z, sequential prog c z = z.flatMap (sedAlone (rx c.flagOptionList) (decide (Given c.flagOptionList "-n")) cmds) := by
      intro z
      have hz : ∀ n, n ∈ ["-z", "--posix"] → ¬ Given c.flagOptionList n :=
        fun n hn hg => h.others ⟨n, hn, (has_iff_given h.belongs n).2 hg⟩
      unfold sequential
      rw [h.belongs.1, h.hname, h.texts, hsed.lines _ _ _ _ h.covered (hz _ (by simp)) (hz _ (by simp)) h.read,
        runSed_local hl]
    intro a b
    rw [hseq, hseq, hseq, List.flatMap_append]

example : parse "sed /quick/p" = .ok ⟨"sed", [], ["/quick/p"]⟩ ∧
    (∃ cmds, ReadsSed ⟨"sed", [], ["/quick/p"]⟩ (sedSample "/quick/p") "/quick/p" cmds ∧ SedLocal cmds) ∧
    Occurs "q" "/quick/p" ∧ ¬ StartsWith "s" "/quick/p" ∧ ¬ StartsWith "-" "/quick/p" :=
  ⟨by decide +kernel, ⟨_, (reads_sample (cmds := [⟨some (.regex "quick"), false, .print⟩]) (by decide +kernel)).1,
    by simp [SedLocal]⟩, ⟨['/'], "uick/p".toList, by decide +kernel⟩,
    by rintro ⟨t, e⟩; simp at e, by rintro ⟨t, e⟩; simp at e⟩

example : parse "sed -n 5p" = .ok ⟨"sed", [.flag "-n"], ["5p"]⟩ ∧
    ReadsSed ⟨"sed", [.flag "-n"], ["5p"]⟩ (quietSedSample "5p") "5p" [⟨some (.number 5), false, .print⟩] ∧
    Offered ⟨"sed", [.flag "-n"], ["5p"]⟩ (plan .consecChunks concatenation) :=
  ⟨by decide +kernel, (reads_sample (by decide +kernel)).2, sedSample_offered (by decide +kernel)⟩

example : parse "sed 'n;p'" = .ok ⟨"sed", [], ["n;p"]⟩ ∧
    ReadsSed ⟨"sed", [], ["n;p"]⟩ (sedSample "n;p") "n;p" [⟨none, false, .next⟩, ⟨none, false, .print⟩] ∧
    Offered ⟨"sed", [], ["n;p"]⟩ (plan .consecChunks concatenation) ∧
    ["a", "b", "c"].Nodup ∧ (∃ y, Executes sedScripts (plan .consecChunks concatenation) (sedSample "n;p") [["a"], ["b", "c"]] y) :=
  ⟨by decide +kernel, (reads_sample (by decide +kernel)).1, sedSample_offered (by decide +kernel), by decide,
    executable_concatenation _ (sedSample_ok _) (by simp [bothPlans]) _⟩

end PashAnn
