import Verif.Props.Sed
import Verif.Spec.SedRanges

/-! Property C99 for scripts with a range of lines. Specification: `Spec/SedRanges.lean`. -/

namespace PashAnn
open Spec

/-- The invocation is a `sed` with a script that has a range, and one input. -/
structure ReadsSedRange (inv : CommandInvocationInitial) (c : CommandInvocationWithIOVars) (script : String) (r : SedRange) : Prop where
  hname : inv.cmdName = "sed"
  belongs : Belongs inv c
  covered : Covered "sed" c.flagOptionList
  stream : OneStream c
  texts : strOperands c = [script]
  others : ¬ ∃ n ∈ ["-z", "--posix"], Has inv n
  read : readSedRange script = some r

private theorem sed_offers {inv : CommandInvocationInitial} (hn : inv.cmdName = "sed") {p : Parallelizer}
    (hp : Offered inv p) : p ∈ bothPlans concatenation := by
  cases ho : inv.operandList with
  | nil =>
      obtain ⟨i, hi, _⟩ := offered_iff.1 hp
      rw [getPar_gen hn (show ("sed", ParGen.sed) ∈ parTable by simp [parTable]), par_sed_nil inv ho] at hi
      cases hi
  | cons o os => exact ((offered_sed hn ho p).1 hp).2

private theorem range_executes {inv : CommandInvocationInitial} {c : CommandInvocationWithIOVars} {script : String}
    {r : SedRange} (h : ReadsSedRange inv c script r) {prog : Programs} (hcat : CatProgram prog)
    {rx : List FlagOptionWithIOVar → SedRegexes} (hsed : SedRangeManual prog rx) {quiet : Bool}
    (hq : Has inv "-n" ↔ quiet = true) {p : Parallelizer} (hp : Offered inv p) {x : Stream} {parts : List Stream}
    (hs : Split p.splitter x parts) {y : Stream} (he : Executes prog p c parts y) :
    parts.flatten = x ∧ sequential prog c x = runSedRange (rx c.flagOptionList) quiet r x ∧
      y = (parts.map (runSedRange (rx c.flagOptionList) quiet r)).flatten := by
  have hpl := sed_offers h.hname hp
  have hseq : ∀ z, sequential prog c z = runSedRange (rx c.flagOptionList) quiet r z := by
    intro z
    have hz : ∀ n, n ∈ ["-z", "--posix"] → ¬ Given c.flagOptionList n :=
      fun n hn hg => h.others ⟨n, hn, (has_iff_given h.belongs n).2 hg⟩
    unfold sequential
    rw [h.belongs.1, h.hname, h.texts, hsed.lines _ _ _ _ h.covered (hz _ (by simp)) (hz _ (by simp)) h.read]
    congr 1
    rw [has_iff_given h.belongs] at hq
    cases quiet
    · simpa using hq
    · simpa using hq
  refine ⟨(split_concatenation hpl).1 hs, hseq x, ?_⟩
  rw [executes_concatenation hcat h.stream hpl he]
  congr 1
  exact List.map_congr_left (fun z _ => hseq z)

theorem inRange_length (rx : SedRegexes) (first final : SedAddress) (x : List SedPlace) :
    ∀ b, (inRange rx first final b x).length = x.length := by
  induction x with
  | nil => intro b; cases b <;> rfl
  | cons l x ih =>
      intro b
      cases b with
      | false => rw [inRange]; split <;> simp [ih]
      | true => simp [inRange, ih]

theorem sedPlaces_length (x : List String) : ∀ n, (sedPlaces n x).length = x.length := by
  induction x with
  | nil => intro n; rfl
  | cons l x ih => intro n; simp [sedPlaces, ih]

theorem marks_length (rx : SedRegexes) (r : SedRange) (x : List String) : (r.marks rx x).length = x.length := by
  rw [SedRange.marks, inRange_length, sedPlaces_length]

/-- Between regular expressions only the texts count. -/
private theorem inRange_append (rx : SedRegexes) (a b : String) (x y : List String) : ∀ o n n',
    inRange rx (.regex a) (.regex b) o (sedPlaces n (x ++ y)) = inRange rx (.regex a) (.regex b) o (sedPlaces n x) ++
      inRange rx (.regex a) (.regex b) (openAfter (rx.hit a) (rx.hit b) o x) (sedPlaces n' y) := by
  have htext : ∀ (y : List String) o n n',
      inRange rx (.regex a) (.regex b) o (sedPlaces n y) = inRange rx (.regex a) (.regex b) o (sedPlaces n' y) := by
    intro y
    induction y with
    | nil => intro o n n'; rfl
    | cons l y ih =>
        intro o n n'
        have ih := fun o => ih o (n + 1) (n' + 1)
        cases o with
        | false => cases h : rx.hit a l <;> simp [sedPlaces, inRange, SedAddress.begins, SedAddress.endsAtOnce, h, ih]
        | true => simp [sedPlaces, inRange, SedAddress.ends, ih]
  induction x with
  | nil =>
      intro o n n'
      cases o <;> simpa [sedPlaces, inRange, openAfter] using htext y _ n n'
  | cons l x ih =>
      intro o n n'
      have ih := fun o => ih o (n + 1) n'
      cases o with
      | false =>
          rw [List.cons_append, sedPlaces, sedPlaces, inRange, inRange, openAfter]
          cases h : rx.hit a l <;> simp [SedAddress.begins, SedAddress.endsAtOnce, h, ih]
      | true =>
          rw [List.cons_append, sedPlaces, sedPlaces, inRange, inRange, openAfter]
          simp [SedAddress.ends, ih]

/-- The marks that the parts of an input have when each is read alone. -/
def apartMarks (rx : SedRegexes) (r : SedRange) (parts : List Stream) : List Bool := (parts.map (r.marks rx)).flatten

theorem marks_append {rx : SedRegexes} {r : SedRange} {a b : String} (ha : r.first = .regex a) (hb : r.last = .regex b) {x : List String}
    (h : openAfter (rx.hit a) (rx.hit b) false x = false) (y : List String) :
    r.marks rx (x ++ y) = r.marks rx x ++ r.marks rx y := by
  unfold SedRange.marks
  rw [ha, hb, inRange_append rx a b x y false 0 0, h]

/-- What is printed for lines with marks. -/
private def printedFor (rx : SedRegexes) (quiet : Bool) (r : SedRange) (x : Stream) (m : List Bool) : Stream :=
  (x.zip m).flatMap fun e => runSed rx quiet (if e.2 = r.negated then [] else [⟨none, false, r.verb⟩]) [e.1]

private theorem printedFor_append (rx : SedRegexes) (quiet : Bool) (r : SedRange) {x : Stream} {m : List Bool} (h : x.length = m.length)
    (x' : Stream) (m' : List Bool) :
    printedFor rx quiet r (x ++ x') (m ++ m') = printedFor rx quiet r x m ++ printedFor rx quiet r x' m' := by
  unfold printedFor
  rw [List.zip_append h, List.flatMap_append]

private theorem parts_printed (rx : SedRegexes) (quiet : Bool) (r : SedRange) (parts : List Stream) :
    (parts.map (runSedRange rx quiet r)).flatten = printedFor rx quiet r parts.flatten (apartMarks rx r parts) := by
  induction parts with
  | nil => rfl
  | cons q ps ih =>
      have e : apartMarks rx r (q :: ps) = r.marks rx q ++ apartMarks rx r ps := rfl
      rw [List.map_cons, List.flatten_cons, ih, List.flatten_cons, e,
        printedFor_append rx quiet r (marks_length rx r q).symm]
      rfl

/-- C99 for a range between regular expressions, with any of the commands: right if every part but the last ends after the end of a range or before the beginning of one. -/
theorem C99_range_closed (inv : CommandInvocationInitial) (c : CommandInvocationWithIOVars) (script : String) (r : SedRange)
    (h : ReadsSedRange inv c script r) (a b : String) (ha : r.first = .regex a) (hb : r.last = .regex b)
    (p : Parallelizer) (hp : Offered inv p) (prog : Programs) (hcat : CatProgram prog) (rx : List FlagOptionWithIOVar → SedRegexes) (hsed : SedRangeManual prog rx)
    (x : Stream) (parts : List Stream) (hs : Split p.splitter x parts) (y : Stream) (he : Executes prog p c parts y)
    (hc : ∀ part ∈ parts.dropLast,
      openAfter ((rx c.flagOptionList).hit a) ((rx c.flagOptionList).hit b) false part = false) :
    y = sequential prog c x := by
  obtain ⟨e1, e2, e3⟩ := range_executes h hcat hsed (quiet := decide (Has inv "-n")) (by simp) hp hs he
  rw [e2, e3, ← e1, parts_printed]
  show _ = printedFor _ _ _ _ _
  congr 1
  clear e1 e2 e3 he hs
  generalize rx c.flagOptionList = rx at hc
  induction parts with
  | nil => rfl
  | cons q ps ih =>
      cases ps with
      | nil => simp [apartMarks]
      | cons q' ps =>
          rw [List.dropLast_cons_cons] at hc
          rw [List.flatten_cons, marks_append ha hb (hc q (by simp)), ← ih (fun part hp => hc part (by simp [hp]))]
          rfl

private theorem marks_inj (rx : SedRegexes) (quiet : Bool) {r : SedRange} (hv : r.verb = .print) {x : Stream} (hx : ∀ l ∈ x, '\n' ∉ l.toList)
    (hnd : x.Nodup) : ∀ m m' : List Bool, m.length = x.length → m'.length = x.length →
      (printedFor rx quiet r x m = printedFor rx quiet r x m' ↔ m = m') := by
  have hone : ∀ l ∈ x, ∀ b, runSed rx quiet (if b = r.negated then [] else [⟨none, false, r.verb⟩]) [l] =
      (if b = r.negated then [] else [l]) ++ (if quiet then [] else [l]) := by
    intro l hl b
    have hp := sedShow_plain (hx l hl)
    rw [hv]
    by_cases hb : b = r.negated <;> cases quiet <;>
      simp [hb, runSed, sedCycles, sedCycle, SedCommand.applies, hp]
  clear hx hv
  induction x with
  | nil =>
      intro m m' hm hm'
      simp [List.length_eq_zero_iff.1 hm, List.length_eq_zero_iff.1 hm']
  | cons l x ih =>
      intro m m' hm hm'
      match m, m' with
      | [], _ => simp at hm
      | _, [] => simp at hm'
      | b :: m, b' :: m' =>
          have hnot : ∀ m, l ∉ printedFor rx quiet r x m := by
            intro m hmem
            obtain ⟨e, he, hle⟩ := List.mem_flatMap.1 hmem
            have hex := (List.of_mem_zip (show (e.1, e.2) ∈ x.zip m from he)).1
            rw [hone e.1 (by simp [hex])] at hle
            have : l = e.1 := by
              rcases List.mem_append.1 hle with hle | hle <;> split at hle <;> simp_all
            exact (List.nodup_cons.1 hnd).1 (this ▸ hex)
          have hcons : ∀ b m, printedFor rx quiet r (l :: x) (b :: m) =
              (if b = r.negated then [] else [l]) ++ (if quiet then [] else [l]) ++ printedFor rx quiet r x m := by
            intro b m
            unfold printedFor
            rw [List.zip_cons_cons, List.flatMap_cons, hone l (by simp)]
          rw [hcons, hcons]
          constructor
          · intro e
            have hcount := congrArg (List.count l) e
            simp only [List.count_append, List.count_eq_zero.2 (hnot _)] at hcount
            have hb : b = b' := by
              by_cases h1 : b = r.negated <;> by_cases h2 : b' = r.negated
              · rw [h1, h2]
              · simp [h1, h2] at hcount
              · simp [h1, h2] at hcount
              · revert h1 h2; cases b <;> cases b' <;> cases r.negated <;> simp
            subst hb
            rw [List.append_cancel_left_eq] at e
            rw [(ih (List.nodup_cons.1 hnd).2 (fun l' hl' b => hone l' (by simp [hl']) b) m m' (by simpa using hm) (by simpa using hm')).1 e]
          · intro e
            simp only [List.cons.injEq] at e
            rw [e.1, e.2]

/-- C99 for `FIRST,LASTp` and `FIRST,LAST!p`: if no line occurs twice, right exactly if the same lines are in a range when the parts are read alone. -/
theorem C99_range_exact (inv : CommandInvocationInitial) (c : CommandInvocationWithIOVars) (script : String) (r : SedRange)
    (h : ReadsSedRange inv c script r) (hv : r.verb = .print) (p : Parallelizer) (hp : Offered inv p)
    (prog : Programs) (hcat : CatProgram prog) (rx : List FlagOptionWithIOVar → SedRegexes) (hsed : SedRangeManual prog rx)
    (x : Stream) (hx : ∀ l ∈ x, '\n' ∉ l.toList) (hnd : x.Nodup) (parts : List Stream) (hs : Split p.splitter x parts)
    (y : Stream) (he : Executes prog p c parts y) :
    y = sequential prog c x ↔
      (parts.map (r.marks (rx c.flagOptionList))).flatten = r.marks (rx c.flagOptionList) x := by
  obtain ⟨e1, e2, e3⟩ := range_executes h hcat hsed (quiet := decide (Has inv "-n")) (by simp) hp hs he
  rw [e2, e3, ← e1, parts_printed]
  show printedFor _ _ _ _ _ = printedFor _ _ _ _ _ ↔ _
  rw [← e1] at hx hnd
  refine marks_inj _ _ hv hx hnd _ _ ?_ ?_
  · rw [apartMarks, List.length_flatten, List.length_flatten, List.map_map]
    congr 1
    exact List.map_congr_left fun z _ => by simp [marks_length]
  · rw [marks_length]

private theorem changes_inj (rx : SedRegexes) {r : SedRange} (changed : String → String) {x : Stream} (hx : ∀ l ∈ x, '\n' ∉ l.toList)
    (hone : ∀ l ∈ x, runSed rx false [⟨none, false, r.verb⟩] [l] = [changed l]) : ∀ m m' : List Bool, m.length = x.length →
      m'.length = x.length → (printedFor rx false r x m = printedFor rx false r x m' ↔
        ∀ e ∈ x.zip (m.zip m'), e.2.1 ≠ e.2.2 → changed e.1 = e.1) := by
  induction x with
  | nil =>
      intro m m' hm hm'
      simp [printedFor]
  | cons l x ih =>
      intro m m' hm hm'
      match m, m' with
      | [], _ => simp at hm
      | _, [] => simp at hm'
      | b :: m, b' :: m' =>
          have hcons : ∀ b m, printedFor rx false r (l :: x) (b :: m) =
              (if b = r.negated then l else changed l) :: printedFor rx false r x m := by
            intro b m
            unfold printedFor
            rw [List.zip_cons_cons, List.flatMap_cons]
            by_cases hb : b = r.negated
            · simp [hb, runSed, sedCycles, sedCycle, sedShow_plain (hx l (by simp))]
            · simp [hb, hone l (by simp)]
          rw [hcons, hcons, List.cons.injEq, ih (fun k hk => hx k (by simp [hk])) (fun k hk => hone k (by simp [hk])) m m'
            (by simpa using hm) (by simpa using hm'), List.zip_cons_cons, List.zip_cons_cons, List.forall_mem_cons]
          refine and_congr ?_ Iff.rfl
          by_cases hb : b = b'
          · simp [hb]
          · by_cases h1 : b = r.negated <;> by_cases h2 : b' = r.negated
            · exact absurd (h1.trans h2.symm) hb
            · simp [h1, h2, eq_comm]
            · simp [h1, h2]
            · exfalso; revert hb h1 h2; cases b <;> cases b' <;> cases r.negated <;> simp

/-- C99 for a range with a command that makes one line of each line, like `s` and `y`, without `-n`: right exactly if the command leaves
every line as it is that is in a range when the parts are read together but not when they are read alone, or the other way round. -/
theorem C99_range_change_exact (inv : CommandInvocationInitial) (c : CommandInvocationWithIOVars) (script : String) (r : SedRange)
    (h : ReadsSedRange inv c script r) (hq : ¬ Has inv "-n") (p : Parallelizer) (hp : Offered inv p)
    (prog : Programs) (hcat : CatProgram prog) (rx : List FlagOptionWithIOVar → SedRegexes) (hsed : SedRangeManual prog rx)
    (x : Stream) (hx : ∀ l ∈ x, '\n' ∉ l.toList) (changed : String → String)
    (hone : ∀ l ∈ x, runSed (rx c.flagOptionList) false [⟨none, false, r.verb⟩] [l] = [changed l])
    (parts : List Stream) (hs : Split p.splitter x parts) (y : Stream) (he : Executes prog p c parts y) :
    y = sequential prog c x ↔
      ∀ e ∈ x.zip ((parts.map (r.marks (rx c.flagOptionList))).flatten.zip (r.marks (rx c.flagOptionList) x)),
        e.2.1 ≠ e.2.2 → changed e.1 = e.1 := by
  obtain ⟨e1, e2, e3⟩ := range_executes h hcat hsed (quiet := false) (by simpa using hq) hp hs he
  rw [e2, e3, ← e1, parts_printed]
  show printedFor _ _ _ _ _ = printedFor _ _ _ _ _ ↔ _
  rw [← e1] at hx hone
  refine changes_inj _ changed hx hone _ _ ?_ ?_
  · rw [apartMarks, List.length_flatten, List.length_flatten, List.map_map]
    congr 1
    exact List.map_congr_left fun z _ => by simp [marks_length]
  · rw [marks_length]

/-- Hence wrong whenever a cut inside a range between regular expressions comes before a line that does not begin one. -/
theorem C99_range_false (inv : CommandInvocationInitial) (c : CommandInvocationWithIOVars) (script : String) (r : SedRange)
    (h : ReadsSedRange inv c script r) (hv : r.verb = .print) (first last : String) (hfirst : r.first = .regex first)
    (hlast : r.last = .regex last) (p : Parallelizer) (hp : Offered inv p)
    (prog : Programs) (hcat : CatProgram prog) (rx : List FlagOptionWithIOVar → SedRegexes) (hsed : SedRangeManual prog rx)
    (a b : Stream) (l : String) (hx : ∀ m ∈ a ++ l :: b, '\n' ∉ m.toList) (hnd : (a ++ l :: b).Nodup)
    (ha : openAfter ((rx c.flagOptionList).hit first) ((rx c.flagOptionList).hit last) false a = true)
    (hl : (rx c.flagOptionList).hit first l = false) (hs : Split p.splitter (a ++ l :: b) [a, l :: b])
    (y : Stream) (he : Executes prog p c [a, l :: b] y) : y ≠ sequential prog c (a ++ l :: b) := by
  rw [Ne, C99_range_exact inv c script r h hv p hp prog hcat rx hsed _ hx hnd _ hs y he]
  simp only [List.map_cons, List.map_nil, List.flatten_cons, List.flatten_nil, List.append_nil, SedRange.marks, hfirst, hlast,
    inRange_append _ _ _ a (l :: b) false 0 0, ha]
  rw [List.append_cancel_left_eq]
  simp [sedPlaces, inRange, SedAddress.begins, hl]

/-- Between numbers, the lines from the first number on are in the range. -/
private theorem inRange_numbers (rx : SedRegexes) {m n : Nat} (x : List String) : ∀ k,
    inRange rx (.number m) (.number n) (decide (m ≤ k ∧ k < max m n)) (sedPlaces k x) =
      (List.range' (k + 1) x.length).map fun i => decide (m ≤ i ∧ i ≤ max m n) := by
  induction x with
  | nil => intro k; cases decide (m ≤ k ∧ k < max m n) <;> rfl
  | cons l x ih =>
      intro k
      rw [sedPlaces, List.length_cons, List.range'_succ, List.map_cons, ← ih (k + 1)]
      by_cases h : m ≤ k ∧ k < max m n
      · rw [decide_eq_true h, inRange]
        congr 1
        · exact (decide_eq_true (by omega)).symm
        · congr 1
          simp only [SedAddress.ends]
          rw [← decide_not]
          exact decide_eq_decide.2 (by omega)
      · rw [decide_eq_false h, inRange]
        simp only [SedAddress.begins, SedAddress.endsAtOnce, beq_iff_eq]
        split
        · congr 1
          · exact (decide_eq_true (by omega)).symm
          · congr 1
            rw [← decide_not]
            exact decide_eq_decide.2 (by omega)
        · congr 1
          · exact (decide_eq_false (by omega)).symm
          · congr 1
            exact (decide_eq_false (by omega)).symm

private theorem marks_numbers (rx : SedRegexes) {r : SedRange} {m n : Nat} (hm : 1 ≤ m) (hfirst : r.first = .number m) (hlast : r.last = .number n)
    (x : List String) : r.marks rx x = (List.range' 1 x.length).map fun i => decide (m ≤ i ∧ i ≤ max m n) := by
  have := inRange_numbers rx (m := m) (n := n) x 0
  rw [decide_eq_false (by omega)] at this
  rw [SedRange.marks, hfirst, hlast, this]

private theorem shifted {m t : Nat} (hm : 1 ≤ m) (ht : m ≤ t) (s k : Nat) :
    (∀ i, 1 ≤ i → i ≤ k → ((m ≤ i ∧ i ≤ t) ↔ (m ≤ s + i ∧ s + i ≤ t))) ↔
      (s = 0 ∨ k = 0 ∨ (k < m ∧ (s + k < m ∨ t ≤ s)) ∨ (m = 1 ∧ s + k ≤ t)) := by
  constructor
  · intro h
    have h1 := h 1
    have h2 := h k
    have h3 := h m
    have h4 := h (m - 1)
    have h5 := h (m - s)
    have h6 := h (t - s + 1)
    omega
  · intro h i h1 h2
    omega

private theorem numbers_apart {m t : Nat} (hm : 1 ≤ m) (ht : m ≤ t) (parts : List Stream) : ∀ s,
    ((parts.map fun q => (List.range' 1 q.length).map fun i => decide (m ≤ i ∧ i ≤ t)).flatten =
      (List.range' (1 + s) parts.flatten.length).map fun i => decide (m ≤ i ∧ i ≤ t)) ↔
    ∀ before part after, parts = before ++ part :: after →
      (s + before.flatten.length = 0 ∨ part.length = 0 ∨
        (part.length < m ∧ (s + before.flatten.length + part.length < m ∨ t ≤ s + before.flatten.length)) ∨
        (m = 1 ∧ s + before.flatten.length + part.length ≤ t)) := by
  induction parts with
  | nil => intro s; simp
  | cons q ps ih =>
      intro s
      have hq : ((List.range' 1 q.length).map fun i => decide (m ≤ i ∧ i ≤ t)) =
          ((List.range' (1 + s) q.length).map fun i => decide (m ≤ i ∧ i ≤ t)) ↔
          (s = 0 ∨ q.length = 0 ∨ (q.length < m ∧ (s + q.length < m ∨ t ≤ s)) ∨ (m = 1 ∧ s + q.length ≤ t)) := by
        rw [← shifted hm ht]
        constructor
        · intro e i h1 h2
          have := congrArg (fun l => l[i - 1]?) e
          simp only [List.getElem?_map, List.getElem?_range', show i - 1 < q.length from by omega] at this
          simp only [Option.map_some, Option.some.injEq, decide_eq_decide] at this
          rw [show 1 + 1 * (i - 1) = i by omega, show 1 + s + 1 * (i - 1) = s + i by omega] at this
          exact this
        · intro e
          apply List.ext_getElem (by simp)
          intro i h1 h2
          simp only [List.length_map, List.length_range'] at h1
          simp only [List.getElem_map, List.getElem_range', decide_eq_decide]
          have := e (1 + 1 * i) (by omega) (by omega)
          rw [this, show s + (1 + 1 * i) = 1 + s + 1 * i by omega]
      rw [List.map_cons, List.flatten_cons, List.flatten_cons, List.length_append, ← List.range'_append_1, List.map_append,
        List.append_eq_append_iff_of_size_eq_left (by simp), hq, show 1 + s + q.length = 1 + (s + q.length) by omega, ih (s + q.length)]
      constructor
      · rintro ⟨h1, h2⟩ before part after e
        cases before with
        | nil =>
            simp only [List.nil_append, List.cons.injEq] at e
            obtain ⟨rfl, _⟩ := e
            simpa using h1
        | cons b bs =>
            simp only [List.cons_append, List.cons.injEq] at e
            obtain ⟨rfl, e⟩ := e
            have := h2 bs part after e
            simp only [List.flatten_cons, List.length_append]
            rw [← Nat.add_assoc]
            exact this
      · intro h
        refine ⟨by simpa using h [] q ps rfl, ?_⟩
        intro before part after e
        have := h (q :: before) part after (by rw [e]; rfl)
        simp only [List.flatten_cons, List.length_append] at this
        rw [← Nat.add_assoc] at this
        exact this

/-- C99 for `M,Np`, which prints the lines `M` to `N` (only line `M` if `N` is less), and `M,N!p`: if no line occurs twice, right exactly if every part
with lines that has lines before it has fewer than `M` lines, all of them before line `M` or after line `N` of the whole; or if `M` is 1 and
it ends no later than line `N`. -/
theorem C99_numbers_exact (inv : CommandInvocationInitial) (c : CommandInvocationWithIOVars) (script : String) (r : SedRange)
    (h : ReadsSedRange inv c script r) (hv : r.verb = .print) (m n : Nat) (hm : 1 ≤ m) (hfirst : r.first = .number m)
    (hlast : r.last = .number n) (p : Parallelizer) (hp : Offered inv p)
    (prog : Programs) (hcat : CatProgram prog) (rx : List FlagOptionWithIOVar → SedRegexes) (hsed : SedRangeManual prog rx)
    (x : Stream) (hx : ∀ l ∈ x, '\n' ∉ l.toList) (hnd : x.Nodup) (parts : List Stream) (hs : Split p.splitter x parts)
    (y : Stream) (he : Executes prog p c parts y) :
    y = sequential prog c x ↔
      ∀ before part after, parts = before ++ part :: after → before.flatten ≠ [] → part ≠ [] →
        (part.length < m ∧ (before.flatten.length + part.length < m ∨ max m n ≤ before.flatten.length)) ∨
        (m = 1 ∧ before.flatten.length + part.length ≤ max m n) := by
  rw [C99_range_exact inv c script r h hv p hp prog hcat rx hsed x hx hnd parts hs y he]
  have e1 := (range_executes h hcat hsed (quiet := decide (Has inv "-n")) (by simp) hp hs he).1
  rw [← e1, marks_numbers _ hm hfirst hlast, List.map_congr_left (fun z _ => marks_numbers _ hm hfirst hlast z)]
  have := numbers_apart hm (Nat.le_max_left m n) parts 0
  simp only [Nat.zero_add, Nat.add_zero] at this
  rw [this]
  constructor
  · intro h before part after e hb hpart
    have hb' : before.flatten.length ≠ 0 := fun e => hb (List.length_eq_zero_iff.1 e)
    have hp' : part.length ≠ 0 := fun e => hpart (List.length_eq_zero_iff.1 e)
    have := h before part after e
    omega
  · intro h before part after e
    by_cases hb : before.flatten = []
    · exact .inl (by rw [hb]; rfl)
    · by_cases hpart : part = []
      · exact .inr (.inl (by rw [hpart]; rfl))
      · exact .inr (.inr (h before part after e hb hpart))

/-- Programs in which regular expressions match only themselves. -/
def rangeScripts : Programs := fun n fl strs ins =>
  if n = "cat" then ins.flatten
  else match readSedRange (strs.headD "") with
    | none => []
    | some r => runSedRange ⟨fun r l => r == l, fun _ t _ _ => t⟩ (decide (Given fl "-n")) r ins.flatten

theorem rangeScripts_ok : CatProgram rangeScripts ∧
    SedRangeManual rangeScripts (fun _ => ⟨fun r l => r == l, fun _ t _ _ => t⟩) :=
  ⟨fun _ => rfl, ⟨fun fl script r x _ _ _ h => by simp [rangeScripts, h]⟩⟩

/-- `sed -n '/a/,/b/p'`: right for parts that end after the range, wrong for parts that end inside it. -/
example : parse "sed -n '/a/,/b/p'" = .ok ⟨"sed", [.flag "-n"], ["/a/,/b/p"]⟩ ∧
    ReadsSedRange ⟨"sed", [.flag "-n"], ["/a/,/b/p"]⟩ (quietSedSample "/a/,/b/p") "/a/,/b/p" ⟨.regex "a", .regex "b", false, .print⟩ ∧
    Offered ⟨"sed", [.flag "-n"], ["/a/,/b/p"]⟩ (plan .consecChunks concatenation) ∧
    (∃ y, Executes rangeScripts (plan .consecChunks concatenation) (quietSedSample "/a/,/b/p") [["a", "x", "b"], ["c"]] y) ∧
    openAfter (fun l => "a" == l) (fun l => "b" == l) false ["a", "x", "b"] = false ∧
    openAfter (fun l => "a" == l) (fun l => "b" == l) false ["a", "x"] = true ∧
    runSedRange ⟨fun r l => r == l, fun _ t _ _ => t⟩ true ⟨.regex "a", .regex "b", false, .print⟩ ["o", "a", "x", "b", "c"] = ["a", "x", "b"] :=
  ⟨by decide +kernel, ⟨rfl, ⟨rfl, rfl⟩, (by decide +kernel : Covered "sed" [.flag "-n"]), quietSedSample_ok _, rfl, by simp [Has], by decide +kernel⟩,
    sedSample_offered (by decide +kernel), executable_concatenation _ (quietSedSample_ok _) (by simp [bothPlans]) _,
    by decide +kernel, by decide +kernel, by decide +kernel⟩

/-- `sed -n 2,3p`, which is offered as well: right for the parts `a b c`, `d`, wrong for `a b c`, `d e`. -/
example : parse "sed -n 2,3p" = .ok ⟨"sed", [.flag "-n"], ["2,3p"]⟩ ∧
    ReadsSedRange ⟨"sed", [.flag "-n"], ["2,3p"]⟩ (quietSedSample "2,3p") "2,3p" ⟨.number 2, .number 3, false, .print⟩ ∧
    Offered ⟨"sed", [.flag "-n"], ["2,3p"]⟩ (plan .consecChunks concatenation) ∧
    (∃ y, Executes rangeScripts (plan .consecChunks concatenation) (quietSedSample "2,3p") [["a", "b", "c"], ["d", "e"]] y) ∧
    runSedRange ⟨fun r l => r == l, fun _ t _ _ => t⟩ true ⟨.number 2, .number 3, false, .print⟩ ["a", "b", "c", "d", "e"] = ["b", "c"] ∧
    runSedRange ⟨fun r l => r == l, fun _ t _ _ => t⟩ true ⟨.number 2, .number 3, false, .print⟩ ["d", "e"] = ["e"] ∧
    runSedRange ⟨fun r l => r == l, fun _ t _ _ => t⟩ true ⟨.number 2, .number 3, false, .print⟩ ["d"] = [] :=
  ⟨by decide +kernel, ⟨rfl, ⟨rfl, rfl⟩, (by decide +kernel : Covered "sed" [.flag "-n"]), quietSedSample_ok _, rfl, by simp [Has], by decide +kernel⟩,
    sedSample_offered (by decide +kernel), executable_concatenation _ (quietSedSample_ok _) (by simp [bothPlans]) _,
    by decide +kernel, by decide +kernel, by decide +kernel⟩

/-- A substitution in a range is read as well, and makes one line of each line. -/
example : readSedRange "1,2s/x/y/" = some ⟨.number 1, .number 2, false, .subst "x" "y" false false⟩ ∧
    runSed ⟨fun r l => r == l, fun _ t _ _ => t⟩ false [⟨none, false, .subst "x" "y" false false⟩] ["x"] = ["y"] ∧
    ReadsSedRange ⟨"sed", [], ["1,2s/x/y/"]⟩ (sedSample "1,2s/x/y/") "1,2s/x/y/" ⟨.number 1, .number 2, false, .subst "x" "y" false false⟩ :=
  ⟨by decide +kernel, by decide +kernel,
    ⟨rfl, ⟨rfl, rfl⟩, (by decide +kernel : Covered "sed" []), sedSample_ok _, rfl, by simp [Has], by decide +kernel⟩⟩

example : readSedRange "/begin/, /end/!s/x/y/g" = some ⟨.regex "begin", .regex "end", true, .subst "x" "y" true false⟩ := by decide +kernel

end PashAnn
