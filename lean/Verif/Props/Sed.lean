import Verif.Lemmas.Sed
import Verif.Props.Plans
import Verif.Props.GroupParts

/-! Property C99: the scripts for which what is offered for `sed` is right. Specification: `Spec/Sed.lean`. -/

namespace PashAnn
open Spec

/-- The invocation is a `sed` with that script and one input. -/
structure ReadsSed (inv : CommandInvocationInitial) (c : CommandInvocationWithIOVars) (script : String)
    (cmds : List SedCommand) : Prop where
  hname : inv.cmdName = "sed"
  belongs : Belongs inv c
  covered : Covered "sed" c.flagOptionList
  stream : OneStream c
  texts : strOperands c = [script]
  others : ¬ ∃ n ∈ ["-z", "--posix"], Has inv n
  read : readSed script = some cmds

private theorem sed_plans {inv : CommandInvocationInitial} (hn : inv.cmdName = "sed") {p : Parallelizer}
    (hp : Offered inv p) : p ∈ bothPlans concatenation := by
  cases ho : inv.operandList with
  | nil =>
      obtain ⟨i, hi, _⟩ := offered_iff.1 hp
      rw [getPar_gen hn (show ("sed", ParGen.sed) ∈ parTable by simp [parTable]), par_sed_nil inv ho] at hi
      cases hi
  | cons o os => exact ((offered_sed hn ho p).1 hp).2

/-- The output of the command, and that of any execution. -/
theorem sed_executes {inv : CommandInvocationInitial} {c : CommandInvocationWithIOVars} {script : String}
    {cmds : List SedCommand} (h : ReadsSed inv c script cmds) {prog : Programs} (hcat : CatProgram prog)
    {rx : List FlagOptionWithIOVar → SedRegexes} (hsed : SedManual prog rx) {quiet : Bool}
    (hq : Has inv "-n" ↔ quiet = true) {p : Parallelizer} (hp : Offered inv p) {x : Stream} {parts : List Stream}
    (hs : Split p.splitter x parts) {y : Stream} (he : Executes prog p c parts y) :
    parts.flatten = x ∧ sequential prog c x = runSed (rx c.flagOptionList) quiet cmds x ∧
      y = (parts.map (runSed (rx c.flagOptionList) quiet cmds)).flatten := by
  have hpl := sed_plans h.hname hp
  have hseq : ∀ z, sequential prog c z = runSed (rx c.flagOptionList) quiet cmds z := by
    intro z
    have hz : ∀ n, n ∈ ["-z", "--posix"] → ¬ Given c.flagOptionList n :=
      fun n hn hg => h.others ⟨n, hn, (has_iff_given h.belongs n).2 hg⟩
    unfold sequential
    rw [h.belongs.1, h.hname, h.texts, hsed.lines _ _ _ _ h.covered (hz _ (by simp)) (hz _ (by simp)) h.read]
    congr 1
    rw [has_iff_given h.belongs] at hq
    cases quiet
    · simpa using hq
    · simpa using hq
  refine ⟨(split_concatenation hpl).1 hs, hseq x, ?_⟩
  rw [executes_concatenation hcat h.stream hpl he]
  congr 1
  exact List.map_congr_left (fun z _ => hseq z)

/-- C99. If the script treats every line alone, then every execution of what is offered gives the output of the command. -/
theorem C99_local (inv : CommandInvocationInitial) (c : CommandInvocationWithIOVars) (script : String)
    (cmds : List SedCommand) (h : ReadsSed inv c script cmds) (hl : SedLocal cmds) (p : Parallelizer) (hp : Offered inv p)
    (prog : Programs) (hcat : CatProgram prog) (rx : List FlagOptionWithIOVar → SedRegexes) (hsed : SedManual prog rx)
    (x : Stream) (parts : List Stream) (hs : Split p.splitter x parts) (y : Stream) (he : Executes prog p c parts y) :
    y = sequential prog c x := by
  obtain ⟨e1, e2, e3⟩ := sed_executes h hcat hsed (quiet := decide (Has inv "-n")) (by simp) hp hs he
  rw [e2, e3, ← e1]
  refine lineWise_flatten ?_ parts
  intro a b
  rw [runSed_local hl, runSed_local hl, runSed_local hl, List.flatMap_append]

/-! Scripts that do not treat lines alone. -/

private theorem nonEmpty_cons (p : Stream) (ps : List Stream) :
    nonEmpty (p :: ps) = (if p = [] then 0 else 1) + nonEmpty ps := by
  cases p <;> simp [nonEmpty]; omega

private theorem nonEmpty_flatten {ps : List Stream} : nonEmpty ps = 0 ↔ ps.flatten = [] := by
  induction ps with
  | nil => simp [nonEmpty]
  | cons p ps ih => rw [nonEmpty_cons]; cases p <;> simp [ih]

/-- If the output for two parts together is shorter than the outputs for them, then only undivided inputs are right. -/
private theorem parts_shorter {f : Stream → Stream} (h0 : f [] = [])
    (h : ∀ a b, a ≠ [] → b ≠ [] → (f (a ++ b)).length < (f a).length + (f b).length) (parts : List Stream) :
    (parts.map f).flatten = f parts.flatten ↔ nonEmpty parts ≤ 1 := by
  have key : ((nonEmpty parts ≤ 1 → (parts.map f).flatten = f parts.flatten) ∧
      (2 ≤ nonEmpty parts → (f parts.flatten).length < (parts.map f).flatten.length)) := by
    induction parts with
    | nil => simp [h0, nonEmpty]
    | cons p ps ih =>
        rw [nonEmpty_cons, List.map_cons, List.flatten_cons, List.flatten_cons]
        by_cases hp : p = []
        · subst hp; simpa [h0] using ih
        · rw [if_neg hp]
          by_cases hq : nonEmpty ps = 0
          · have := ih.1 (by omega)
            rw [this, nonEmpty_flatten.1 hq, h0, List.append_nil, List.append_nil]
            exact ⟨fun _ => rfl, by omega⟩
          · refine ⟨by omega, fun _ => ?_⟩
            have h1 := h p ps.flatten hp (fun e => hq (nonEmpty_flatten.2 e))
            have h2 : (f ps.flatten).length ≤ (ps.map f).flatten.length := by
              by_cases h1 : nonEmpty ps = 1
              · rw [ih.1 (by omega)]; exact Nat.le_refl _
              · exact Nat.le_of_lt (ih.2 (by omega))
            rw [List.length_append]; omega
  constructor
  · intro e
    false_or_by_contra
    have := key.2 (by omega)
    rw [e] at this
    exact Nat.lt_irrefl _ this
  · exact key.1

/-- What is printed at the end of a cycle. -/
def sedAuto (quiet : Bool) (l : String) : List String := if quiet then [] else sedShow l

private theorem numbered_run (rx : SedRegexes) (quiet : Bool) (h : String) (k : Nat) (x : Stream) :
    sedCycles rx quiet [⟨none, false, .lineNumber⟩] x.length h k x =
      (x.zipIdx (k + 1)).flatMap (fun q => toString q.2 :: sedAuto quiet q.1) := by
  induction x generalizing k with
  | nil => rfl
  | cons l x ih =>
      rw [List.length_cons, sedCycles, List.zipIdx_cons, List.flatMap_cons]
      cases quiet <;> simp [sedCycle, SedCommand.applies, sedAuto, ih]

private theorem toString_ne {m n : Nat} (h : m ≠ n) : toString m ≠ toString n := by
  intro e
  have e := congrArg (fun s : String => Nat.ofDigitChars 10 s.toList 0) e
  simp only [Nat.toString_eq_repr, Nat.toList_repr, Nat.ofDigitChars_ten_toDigits] at e
  exact h e

/-- C99 for `=`, which prints line numbers: right exactly when at most one part is not empty. -/
theorem C99_number_exact (inv : CommandInvocationInitial) (c : CommandInvocationWithIOVars) (script : String)
    (h : ReadsSed inv c script [⟨none, false, .lineNumber⟩]) (p : Parallelizer) (hp : Offered inv p)
    (prog : Programs) (hcat : CatProgram prog) (rx : List FlagOptionWithIOVar → SedRegexes) (hsed : SedManual prog rx)
    (x : Stream) (parts : List Stream) (hs : Split p.splitter x parts) (y : Stream) (he : Executes prog p c parts y) :
    y = sequential prog c x ↔ nonEmpty parts ≤ 1 := by
  obtain ⟨e1, e2, e3⟩ := sed_executes h hcat hsed (quiet := decide (Has inv "-n")) (by simp) hp hs he
  rw [e2, e3, ← e1]
  generalize rx c.flagOptionList = rx, decide (Has inv "-n") = quiet
  clear e1 e2 e3 he hs hp h
  have hrun : ∀ z, runSed rx quiet [⟨none, false, .lineNumber⟩] z =
      (z.zipIdx 1).flatMap (fun q => toString q.2 :: sedAuto quiet q.1) := fun z => numbered_run rx quiet "" 0 z
  have hhead : ∀ ps : List Stream, ps.flatten ≠ [] →
      ((ps.map (runSed rx quiet [⟨none, false, .lineNumber⟩])).flatten).head? = some (toString 1) := by
    intro ps
    induction ps with
    | nil => simp
    | cons q ps ih =>
        intro hne
        cases q with
        | nil =>
            rw [List.map_cons, List.flatten_cons, hrun]
            exact ih (by simpa using hne)
        | cons l q => rw [List.map_cons, List.flatten_cons, hrun]; simp [List.zipIdx_cons]
  induction parts with
  | nil => simp [hrun, nonEmpty]
  | cons q ps ih =>
      rw [nonEmpty_cons]
      by_cases hq : q = []
      · subst hq
        simpa [hrun] using ih
      · rw [if_neg hq]
        by_cases hps : ps.flatten = []
        · have h0 := nonEmpty_flatten.2 hps
          rw [List.map_cons, List.flatten_cons, List.flatten_cons, ih.2 (by omega), hps, h0, List.append_nil]
          simp [hrun]
        · have h0 : nonEmpty ps ≠ 0 := fun e => hps (nonEmpty_flatten.1 e)
          constructor
          · intro e
            exfalso
            have hh := hhead ps hps
            rw [List.map_cons, List.flatten_cons, List.flatten_cons, hrun q, hrun (q ++ _), List.zipIdx_append,
              List.flatMap_append] at e
            rw [List.append_cancel_left e] at hh
            obtain ⟨l, r, e⟩ : ∃ l r, ps.flatten = l :: r := by
              cases hf : ps.flatten with
              | nil => exact absurd hf hps
              | cons l r => exact ⟨l, r, rfl⟩
            rw [e, List.zipIdx_cons, List.flatMap_cons] at hh
            simp only [List.cons_append, List.head?_cons, Option.some.injEq] at hh
            refine toString_ne ?_ hh
            have := List.length_pos_iff.2 hq
            omega
          · intro e; omega

/-- What a command for the last line adds. -/
private theorem last_run (rx : SedRegexes) (quiet : Bool) {v : SedVerb} (hv : v ∈ [.print, .lineNumber]) :
    ∃ w : Nat → String → List String, (∀ k l, 0 < (w k l).length) ∧ (∀ k k' l, (w k l).length = (w k' l).length) ∧
      ∀ h k (x : Stream) l, sedCycles rx quiet [⟨some .last, false, v⟩] (x ++ [l]).length h k (x ++ [l]) =
        x.flatMap (sedAuto quiet) ++ w (k + x.length + 1) l ++ sedAuto quiet l := by
  simp only [List.mem_cons, List.not_mem_nil, or_false] at hv
  rcases hv with rfl | rfl
  · refine ⟨fun _ l => sedShow l, fun _ l => sedShow_pos l, fun _ _ _ => rfl, ?_⟩
    intro h k x l
    induction x generalizing k with
    | nil => cases quiet <;> simp [sedCycles, sedCycle, SedCommand.applies, sedAuto]
    | cons a x ih =>
        rw [List.cons_append, List.length_cons, sedCycles]
        have ih := ih (k + 1)
        cases quiet <;> simp [sedAuto] at ih <;> simp [sedCycle, SedCommand.applies, sedAuto, ih]
  · refine ⟨fun k _ => [toString k], fun _ _ => by simp, fun _ _ _ => rfl, ?_⟩
    intro h k x l
    induction x generalizing k with
    | nil => cases quiet <;> simp [sedCycles, sedCycle, SedCommand.applies, sedAuto]
    | cons a x ih =>
        rw [List.cons_append, List.length_cons, sedCycles]
        have ih := ih (k + 1)
        have hk : k + 1 + x.length + 1 = k + (x.length + 2) := by omega
        cases quiet <;> simp [sedAuto, hk] at ih <;> simp [sedCycle, SedCommand.applies, sedAuto, ih, Nat.add_assoc]

/-- C99 for `$p` and `$=`, which print something for the last line: right exactly when at most one part is not empty. -/
theorem C99_last_exact (inv : CommandInvocationInitial) (c : CommandInvocationWithIOVars) (script : String) (v : SedVerb)
    (hv : v ∈ [.print, .lineNumber]) (h : ReadsSed inv c script [⟨some .last, false, v⟩]) (p : Parallelizer)
    (hp : Offered inv p)
    (prog : Programs) (hcat : CatProgram prog) (rx : List FlagOptionWithIOVar → SedRegexes) (hsed : SedManual prog rx)
    (x : Stream) (parts : List Stream) (hs : Split p.splitter x parts) (y : Stream) (he : Executes prog p c parts y) :
    y = sequential prog c x ↔ nonEmpty parts ≤ 1 := by
  obtain ⟨e1, e2, e3⟩ := sed_executes h hcat hsed (quiet := decide (Has inv "-n")) (by simp) hp hs he
  rw [e2, e3, ← e1]
  obtain ⟨w, w1, w2, w3⟩ := last_run (rx c.flagOptionList) (decide (Has inv "-n")) hv
  refine parts_shorter rfl ?_ parts
  intro a b ha hb
  obtain ⟨a, l, rfl⟩ : ∃ a' l, a = a' ++ [l] := ⟨a.dropLast, a.getLast ha, (List.dropLast_concat_getLast ha).symm⟩
  obtain ⟨b, m, rfl⟩ : ∃ b' m, b = b' ++ [m] := ⟨b.dropLast, b.getLast hb, (List.dropLast_concat_getLast hb).symm⟩
  rw [← List.append_assoc]
  unfold runSed
  rw [w3, w3, w3]
  simp only [List.flatMap_append, List.length_append, List.flatMap_cons, List.flatMap_nil, List.append_nil]
  have := w1 (0 + a.length + 1) l
  have := w2 (0 + (a.length + [l].length + b.length) + 1) (0 + b.length + 1) m
  omega

/-- Commands that always get to the next command. -/
def SedPasses (cmds : List SedCommand) : Prop :=
  ∀ c ∈ cmds, c.verb ∉ [.delete, .quit, .next, .nextAppend, .branch]

private theorem quit_cycle (rx : SedRegexes) (quiet : Bool) {pre : List SedCommand} (h1 : SedLocal pre)
    (h2 : SedPasses pre) (l : String) (k k' : Nat) (ls ls' : List String) :
    ∃ out q, sedCycle rx quiet (pre ++ [⟨none, false, .quit⟩]) ⟨l, "", k, ls⟩ = (out, ⟨q, "", k, ls⟩, .stop) ∧
      sedCycle rx quiet (pre ++ [⟨none, false, .quit⟩]) ⟨l, "", k', ls'⟩ = (out, ⟨q, "", k', ls'⟩, .stop) := by
  induction pre generalizing l with
  | nil => exact ⟨[], l, by simp [sedCycle, SedCommand.applies], by simp [sedCycle, SedCommand.applies]⟩
  | cons c cs ih =>
      obtain ⟨a1, a2, a3⟩ := h1 c (by simp)
      have a4 := h2 c (by simp)
      have ih := fun q => ih (fun d hd => h1 d (by simp [hd])) (fun d hd => h2 d (by simp [hd])) q
      have happ : c.applies rx ⟨l, "", k, ls⟩ = c.applies rx ⟨l, "", k', ls'⟩ := by
        unfold SedCommand.applies
        split
        · rfl
        · rename_i n e; exact absurd e (a1 n)
        · rename_i e; exact absurd e a2
        · rfl
      by_cases ha : c.applies rx ⟨l, "", k, ls⟩
      · have ha' : c.applies rx ⟨l, "", k', ls'⟩ := by rw [← happ]; exact ha
        have key : ∀ (pre : List String) (q : String), ∃ out q', 
            (pre ++ (sedCycle rx quiet (cs ++ [⟨none, false, .quit⟩]) ⟨q, "", k, ls⟩).1,
              (sedCycle rx quiet (cs ++ [⟨none, false, .quit⟩]) ⟨q, "", k, ls⟩).2) = (out, ⟨q', "", k, ls⟩, SedEnd.stop) ∧
            (pre ++ (sedCycle rx quiet (cs ++ [⟨none, false, .quit⟩]) ⟨q, "", k', ls'⟩).1,
              (sedCycle rx quiet (cs ++ [⟨none, false, .quit⟩]) ⟨q, "", k', ls'⟩).2) = (out, ⟨q', "", k', ls'⟩, SedEnd.stop) := by
          intro pre q
          obtain ⟨out, q', e1, e2⟩ := ih q
          exact ⟨pre ++ out, q', by rw [e1], by rw [e2]⟩
        cases hv : c.verb with
        | print => simpa [sedCycle, ha, ha', hv] using key (sedShow l) l
        | subst r t all print =>
            by_cases hh : rx.hit r l
            · simpa [sedCycle, ha, ha', hv, hh] using
                key (if print then sedShow (rx.replace r t all l) else []) (rx.replace r t all l)
            · simpa [sedCycle, ha, ha', hv, hh] using ih l
        | translit a b => simpa [sedCycle, ha, ha', hv] using key [] _
        | get => simpa [sedCycle, ha, ha', hv] using key [] ""
        | getAppend => simpa [sedCycle, ha, ha', hv] using key [] (l ++ "\n" ++ "")
        | delete => simp [hv] at a4
        | branch => simp [hv] at a4
        | quit => simp [hv] at a3
        | lineNumber => simp [hv] at a3
        | hold => simp [hv] at a3
        | holdAppend => simp [hv] at a3
        | exchange => simp [hv] at a3
        | next => simp [hv] at a3
        | nextAppend => simp [hv] at a3
      · have ha' : ¬ c.applies rx ⟨l, "", k', ls'⟩ := by rw [← happ]; exact ha
        simpa [sedCycle, ha, ha'] using ih l

/-- C99 for scripts that end with `q`, such as `s/a/b/;q`, which is offered because it begins with `s`: right exactly when
at most one part is not empty. -/
theorem C99_quit_exact (inv : CommandInvocationInitial) (c : CommandInvocationWithIOVars) (script : String)
    (pre : List SedCommand) (h1 : SedLocal pre) (h2 : SedPasses pre)
    (h : ReadsSed inv c script (pre ++ [⟨none, false, .quit⟩])) (hq : ¬ Has inv "-n") (p : Parallelizer)
    (hp : Offered inv p)
    (prog : Programs) (hcat : CatProgram prog) (rx : List FlagOptionWithIOVar → SedRegexes) (hsed : SedManual prog rx)
    (x : Stream) (parts : List Stream) (hs : Split p.splitter x parts) (y : Stream) (he : Executes prog p c parts y) :
    y = sequential prog c x ↔ nonEmpty parts ≤ 1 := by
  obtain ⟨e1, e2, e3⟩ := sed_executes h hcat hsed (quiet := false) (by simp [hq]) hp hs he
  rw [e2, e3, ← e1]
  refine parts_shorter rfl ?_ parts
  intro a b ha hb
  obtain ⟨l, a, rfl⟩ := List.exists_cons_of_ne_nil ha
  obtain ⟨m, b, rfl⟩ := List.exists_cons_of_ne_nil hb
  obtain ⟨o1, q1, f1, f2⟩ := quit_cycle (rx c.flagOptionList) false h1 h2 l (0 + 1) (0 + 1) a (a ++ m :: b)
  obtain ⟨o2, q2, f3, _⟩ := quit_cycle (rx c.flagOptionList) false h1 h2 m (0 + 1) (0 + 1) b b
  unfold runSed
  rw [List.cons_append, List.length_cons, List.length_cons, List.length_cons, sedCycles, sedCycles, sedCycles, f1, f2, f3]
  have := sedShow_pos q2
  simp only [Bool.false_eq_true, reduceCtorEq, or_self, if_false, if_true, List.append_nil, List.length_append]
  omega

/-- C99 for `x`, which prints every line one line late: right exactly when every part before the last one that is not
empty ends with an empty line. -/
theorem C99_exchange_exact (inv : CommandInvocationInitial) (c : CommandInvocationWithIOVars) (script : String)
    (h : ReadsSed inv c script [⟨none, false, .exchange⟩]) (hq : ¬ Has inv "-n") (p : Parallelizer) (hp : Offered inv p)
    (prog : Programs) (hcat : CatProgram prog) (rx : List FlagOptionWithIOVar → SedRegexes) (hsed : SedManual prog rx)
    (x : Stream) (hx : ∀ l ∈ x, '\n' ∉ l.toList) (parts : List Stream) (hs : Split p.splitter x parts) (y : Stream)
    (he : Executes prog p c parts y) :
    y = sequential prog c x ↔
      ∀ before part after l, parts = before ++ part :: after → after.flatten ≠ [] → part.getLast? = some l → l = "" := by
  obtain ⟨e1, e2, e3⟩ := sed_executes h hcat hsed (quiet := false) (by simp [hq]) hp hs he
  rw [e2, e3]
  rw [← e1] at hx ⊢
  generalize rx c.flagOptionList = rx
  clear e1 e2 e3 he hs hp h
  have hcyc : ∀ (x : Stream) (h : String) (k : Nat), '\n' ∉ h.toList → (∀ l ∈ x, '\n' ∉ l.toList) →
      sedCycles rx false [⟨none, false, .exchange⟩] x.length h k x = (h :: x).dropLast := by
    intro x
    induction x with
    | nil => intros; rfl
    | cons l x ih =>
        intro h k hh hx
        rw [List.length_cons, sedCycles]
        simp only [sedCycle, SedCommand.applies, Bool.false_eq_true, if_false, List.append_nil, reduceCtorEq, or_self,
          List.nil_append, Bool.false_bne, not_true_eq_false]
        rw [sedShow_plain hh, ih l (k + 1) (hx l (by simp)) (fun m hm => hx m (by simp [hm]))]
        simp
  have hrun : ∀ z : Stream, (∀ l ∈ z, '\n' ∉ l.toList) → runSed rx false [⟨none, false, .exchange⟩] z = ("" :: z).dropLast :=
    fun z hz => hcyc z "" 0 (by simp) hz
  induction parts with
  | nil => simp [runSed, sedCycles]
  | cons q ps ih =>
      have hxq : ∀ l ∈ q, '\n' ∉ l.toList := fun l hl => hx l (by simp [hl])
      have hxp : ∀ l ∈ ps.flatten, '\n' ∉ l.toList := fun l hl => hx l (by rw [List.flatten_cons]; simp only [List.mem_append]; exact .inr hl)
      replace ih := ih hxp
      rw [List.map_cons, List.flatten_cons, hrun q hxq, hrun _ hx, List.flatten_cons]
      rw [hrun _ hxp] at ih
      have hcond : (∀ before part after l, q :: ps = before ++ part :: after → after.flatten ≠ [] →
            part.getLast? = some l → l = "") ↔
          (ps.flatten ≠ [] → ∀ l, q.getLast? = some l → l = "") ∧
          (∀ before part after l, ps = before ++ part :: after → after.flatten ≠ [] → part.getLast? = some l → l = "") := by
        constructor
        · intro h
          exact ⟨fun hne l hl => h [] q ps l rfl hne hl, fun before part after l e => h (q :: before) part after l (by rw [e]; rfl)⟩
        · rintro ⟨h1, h2⟩ before part after l e hne hl
          cases before with
          | nil =>
              simp only [List.nil_append, List.cons.injEq] at e
              obtain ⟨rfl, rfl⟩ := e
              exact h1 hne l hl
          | cons b before =>
              simp only [List.cons_append, List.cons.injEq] at e
              exact h2 before part after l e.2 hne hl
      rw [hcond]
      refine Iff.trans ?_ (and_congr Iff.rfl ih)
      generalize hY : (ps.map (runSed rx false [⟨none, false, .exchange⟩])).flatten = Y
      by_cases hps : ps.flatten = []
      · have hY0 : Y = [] := by
          rw [← hY, List.flatten_eq_nil_iff]
          intro z hz
          obtain ⟨w, hw, rfl⟩ := List.mem_map.1 hz
          rw [List.flatten_eq_nil_iff] at hps
          rw [hps w hw]; rfl
        simp [hps, hY0]
      · have hYh : ∃ Y', Y = "" :: Y' := by
          rw [← hY]
          clear ih hcond hY hx hxq
          induction ps with
          | nil => exact absurd rfl hps
          | cons w ps ih =>
              cases w with
              | nil =>
                  have := ih (fun l hl => hxp l (by simpa using hl)) (by simpa using hps)
                  obtain ⟨Y', hY'⟩ := this
                  exact ⟨Y', by rw [List.map_cons, List.flatten_cons, hY']; rfl⟩
              | cons l w =>
                  rw [List.map_cons, List.flatten_cons, hrun _ (fun m hm => hxp m (by
                    rw [List.flatten_cons]; simp only [List.mem_append]; exact .inl hm))]
                  exact ⟨_, by rw [List.dropLast_cons_of_ne_nil (by simp)]; rfl⟩
        obtain ⟨Y', rfl⟩ := hYh
        by_cases hq : q = []
        · subst hq; simp
        · have e1 : ("" :: (q ++ ps.flatten)).dropLast = ("" :: q).dropLast ++ (q.getLast hq :: ps.flatten).dropLast := by
            conv => lhs; rw [← List.dropLast_concat_getLast hq]
            rw [List.dropLast_cons_of_ne_nil hq, List.append_assoc, List.singleton_append, ← List.cons_append,
              List.dropLast_append_of_ne_nil (by simp)]
          rw [e1, List.append_cancel_left_eq, List.dropLast_cons_of_ne_nil hps, List.dropLast_cons_of_ne_nil hps,
            List.getLast?_eq_some_getLast hq]
          constructor
          · intro e
            simp only [List.cons.injEq] at e
            exact ⟨fun _ l hl => by rw [← Option.some.inj hl, ← e.1], by rw [e.2]⟩
          · rintro ⟨h1, h2⟩
            rw [h2, h1 hps _ rfl]

/-- C99 for `1!G;h;$p` with `-n`, which prints the lines in reverse order: if no line occurs twice, right exactly when at
most one part is not empty. -/
theorem C99_reverse_exact (inv : CommandInvocationInitial) (c : CommandInvocationWithIOVars) (script : String)
    (h : ReadsSed inv c script [⟨some (.number 1), true, .getAppend⟩, ⟨none, false, .hold⟩, ⟨some .last, false, .print⟩])
    (hq : Has inv "-n") (p : Parallelizer) (hp : Offered inv p)
    (prog : Programs) (hcat : CatProgram prog) (rx : List FlagOptionWithIOVar → SedRegexes) (hsed : SedManual prog rx)
    (x : Stream) (hx : ∀ l ∈ x, '\n' ∉ l.toList) (parts : List Stream) (hs : Split p.splitter x parts) (y : Stream)
    (he : Executes prog p c parts y) :
    sequential prog c x = x.reverse ∧ (x.Nodup → (y = sequential prog c x ↔ nonEmpty parts ≤ 1)) := by
  obtain ⟨e1, e2, e3⟩ := sed_executes h hcat hsed (quiet := true) (by simp [hq]) hp hs he
  rw [e2, e3]
  rw [← e1] at hx ⊢
  generalize rx c.flagOptionList = rx
  clear e1 e2 e3 he hs hp h
  have hcyc : ∀ (x : Stream) (h : String) (k : Nat), 0 < k → x ≠ [] → (∀ l ∈ x, '\n' ∉ l.toList) →
      sedCycles rx true [⟨some (.number 1), true, .getAppend⟩, ⟨none, false, .hold⟩, ⟨some .last, false, .print⟩]
        x.length h k x = x.reverse ++ sedShow h := by
    intro x
    induction x with
    | nil => intro h k _ hne; exact absurd rfl hne
    | cons l x ih =>
        intro h k hk _ hx
        rw [List.length_cons, sedCycles]
        have hk1 : (k + 1 == 1) = false := by simp; omega
        have hl := hx l (by simp)
        cases x with
        | nil => simp [sedCycle, SedCommand.applies, hk1, sedCycles, sedShow_append hl]
        | cons m x =>
            have := ih (l ++ "\n" ++ h) (k + 1) (by omega) (by simp) (fun m hm => hx m (by simp [hm]))
            simp only [sedCycle, SedCommand.applies, hk1, List.isEmpty_cons]
            simp only [bne_self_eq_false, Bool.false_eq_true, not_false_eq_true, if_false, List.append_nil, reduceCtorEq,
              List.nil_append, if_true, not_true_eq_false, true_or, Bool.true_bne, Bool.not_false, Bool.false_bne]
            rw [this, sedShow_append hl, List.reverse_cons (as := m :: x), List.append_assoc, List.singleton_append]
  have hrun : ∀ z : Stream, (∀ l ∈ z, '\n' ∉ l.toList) → runSed rx true
      [⟨some (.number 1), true, .getAppend⟩, ⟨none, false, .hold⟩, ⟨some .last, false, .print⟩] z = z.reverse := by
    intro z hz
    cases z with
    | nil => rfl
    | cons l z =>
        have hl := hz l (by simp)
        unfold runSed
        rw [List.length_cons, sedCycles]
        cases z with
        | nil => simp [sedCycle, SedCommand.applies, sedCycles, sedShow_plain hl]
        | cons m z =>
            have := hcyc (m :: z) l (0 + 1) (by omega) (by simp) (fun m hm => hz m (by simp [hm]))
            simp only [sedCycle, SedCommand.applies, List.isEmpty_cons]
            simp only [bne_self_eq_false, Bool.false_eq_true, not_false_eq_true, if_false, List.append_nil, reduceCtorEq,
              List.nil_append, if_true, not_true_eq_false, true_or, Bool.false_bne, Nat.zero_add, BEq.rfl] at this ⊢
            rw [this, sedShow_plain hl, List.reverse_cons (a := l)]
  refine ⟨hrun _ hx, fun hnd => ?_⟩
  rw [hrun _ hx]
  have hmap : ∀ ps : List Stream, (∀ l ∈ ps.flatten, '\n' ∉ l.toList) → ps.map (runSed rx true
      [⟨some (.number 1), true, .getAppend⟩, ⟨none, false, .hold⟩, ⟨some .last, false, .print⟩]) = ps.map List.reverse :=
    fun ps h => List.map_congr_left (fun z hz => hrun z (fun l hl => h l (List.mem_flatten.2 ⟨z, hz, hl⟩)))
  rw [hmap parts hx]
  clear hx hmap hrun hcyc
  induction parts with
  | nil => simp [nonEmpty]
  | cons q ps ih =>
      rw [List.flatten_cons] at hnd
      obtain ⟨_, hnd2, hdis⟩ := List.nodup_append.1 hnd
      have ih := ih hnd2
      rw [nonEmpty_cons, List.map_cons, List.flatten_cons, List.flatten_cons, List.reverse_append]
      by_cases hq : q = []
      · subst hq; simpa using ih
      · rw [if_neg hq]
        by_cases hps : ps.flatten = []
        · have h0 := nonEmpty_flatten.2 hps
          rw [ih.2 (by omega), hps, h0]; simp
        · have h0 : nonEmpty ps ≠ 0 := fun e => hps (nonEmpty_flatten.1 e)
          constructor
          · intro e
            exfalso
            have e := congrArg List.head? e
            rw [List.head?_append, List.head?_append, List.head?_reverse, List.head?_reverse,
              List.getLast?_eq_some_getLast hq, List.getLast?_eq_some_getLast hps] at e
            simp only [Option.some_or, Option.some.injEq] at e
            exact hdis _ (List.getLast_mem hq) _ (List.getLast_mem hps) e
          · intro e; omega

/-! Programs and invocations that meet the hypotheses. -/

/-- Programs in which regular expressions match only themselves. -/
def sedScripts : Programs := fun n fl strs ins =>
  if n = "cat" then ins.flatten
  else match readSed (strs.headD "") with
    | none => []
    | some cmds => runSed ⟨fun r l => r == l, fun _ t _ _ => t⟩ (decide (Given fl "-n")) cmds ins.flatten

theorem sedScripts_ok : CatProgram sedScripts ∧
    SedManual sedScripts (fun _ => ⟨fun r l => r == l, fun _ t _ _ => t⟩) :=
  ⟨fun _ => rfl, ⟨fun fl script cmds x _ _ _ h => by simp [sedScripts, h]⟩⟩

/-- `sed -n SCRIPT` from standard input to the standard output. -/
def quietSedSample (script : String) : CommandInvocationWithIOVars :=
  ⟨"sed", [.flag "-n"], [.str script], some 1, some 2, [(1, .streamInput), (2, .streamOutput)]⟩

theorem quietSedSample_ok (script : String) : OneStream (quietSedSample script) where
  described := by
    intro v hv
    simp only [quietSedSample, occurrences, List.flatMap_nil, List.flatMap_cons, varOf, optionVar, List.append_nil, List.nil_append,
      Option.toList_some, List.mem_append, List.mem_singleton] at hv
    rcases hv with rfl | rfl <;> simp [quietSedSample, accessOf, List.lookup]
  distinct := by simp [quietSedSample, occurrences, varOf, optionVar]
  input := ⟨1, by simp [quietSedSample, withAccess, occurrences, varOf, optionVar, accessOf, List.lookup]⟩
  out := ⟨2, by simp [quietSedSample, withAccess, occurrences, varOf, optionVar, accessOf, List.lookup], rfl⟩
  options := by intro n v; simp [quietSedSample]
  implicit := by intro i h; cases h; rfl

/-- C99, the hypotheses can be met: for every script that is read, and offered. -/
theorem reads_sample {script : String} {cmds : List SedCommand} (h : readSed script = some cmds) :
    ReadsSed ⟨"sed", [], [script]⟩ (sedSample script) script cmds ∧
    ReadsSed ⟨"sed", [.flag "-n"], [script]⟩ (quietSedSample script) script cmds :=
  ⟨⟨rfl, ⟨rfl, rfl⟩, (by decide +kernel : Covered "sed" []), sedSample_ok _, rfl, by simp [Has], h⟩,
   ⟨rfl, ⟨rfl, rfl⟩, (by decide +kernel : Covered "sed" [.flag "-n"]), quietSedSample_ok _, rfl, by simp [Has], h⟩⟩

/-- Everything that is not a blank is offered if it contains neither of the two letters, or begins with `s`. -/
theorem sedSample_offered {fs : List FlagOption} {script : String}
    (h : ("s".toList.isPrefixOf script.toList || !(script.toList.contains 'd' || script.toList.contains 'q')) = true) :
    Offered ⟨"sed", fs, [script]⟩ (plan .consecChunks concatenation) := by
  refine (offered_sed rfl rfl _).2 ⟨?_, by simp [bothPlans]⟩
  simp only [Bool.or_eq_true, List.isPrefixOf_iff_prefix, Bool.not_eq_true', Bool.or_eq_false_iff] at h
  rcases h with h | ⟨h1, h2⟩
  · obtain ⟨t, ht⟩ := h
    exact .inr (.inl ⟨t, ht.symm⟩)
  · refine .inr (.inr ⟨?_, ?_⟩)
    · rintro ⟨a, b, e⟩
      have : 'd' ∈ script.toList := by rw [e]; simp
      simp [this] at h1
    · rintro ⟨a, b, e⟩
      have : 'q' ∈ script.toList := by rw [e]; simp
      simp [this] at h2

example : parse "sed 's/a/b/g; /x/p'" = .ok ⟨"sed", [], ["s/a/b/g; /x/p"]⟩ ∧
    (∃ cmds, ReadsSed ⟨"sed", [], ["s/a/b/g; /x/p"]⟩ (sedSample "s/a/b/g; /x/p") "s/a/b/g; /x/p" cmds ∧ SedLocal cmds) ∧
    Offered ⟨"sed", [], ["s/a/b/g; /x/p"]⟩ (plan .consecChunks concatenation) :=
  ⟨by decide +kernel, ⟨_, (reads_sample (cmds := [⟨none, false, .subst "a" "b" true false⟩, ⟨some (.regex "x"), false, .print⟩])
    (by decide +kernel)).1, by intro c hc; simp only [List.mem_cons, List.not_mem_nil, or_false] at hc; rcases hc with rfl | rfl <;> simp⟩,
    sedSample_offered (by decide +kernel)⟩

example : parse "sed =" = .ok ⟨"sed", [], ["="]⟩ ∧
    ReadsSed ⟨"sed", [], ["="]⟩ (sedSample "=") "=" [⟨none, false, .lineNumber⟩] ∧
    Offered ⟨"sed", [], ["="]⟩ (plan .consecChunks concatenation) :=
  ⟨by decide +kernel, (reads_sample (by decide +kernel)).1, sedSample_offered (by decide +kernel)⟩

example : parse "sed -n '$='" = .ok ⟨"sed", [.flag "-n"], ["$="]⟩ ∧
    ReadsSed ⟨"sed", [.flag "-n"], ["$="]⟩ (quietSedSample "$=") "$=" [⟨some .last, false, .lineNumber⟩] ∧
    Offered ⟨"sed", [.flag "-n"], ["$="]⟩ (plan .consecChunks concatenation) :=
  ⟨by decide +kernel, (reads_sample (by decide +kernel)).2, sedSample_offered (by decide +kernel)⟩

example : parse "sed 's/a/b/;q'" = .ok ⟨"sed", [], ["s/a/b/;q"]⟩ ∧
    ReadsSed ⟨"sed", [], ["s/a/b/;q"]⟩ (sedSample "s/a/b/;q") "s/a/b/;q"
      ([⟨none, false, .subst "a" "b" false false⟩] ++ [⟨none, false, .quit⟩]) ∧
    SedLocal [⟨none, false, .subst "a" "b" false false⟩] ∧ SedPasses [⟨none, false, .subst "a" "b" false false⟩] ∧
    Offered ⟨"sed", [], ["s/a/b/;q"]⟩ (plan .consecChunks concatenation) :=
  ⟨by decide +kernel, (reads_sample (by decide +kernel)).1, by simp [SedLocal], by simp [SedPasses],
    sedSample_offered (by decide +kernel)⟩

example : parse "sed x" = .ok ⟨"sed", [], ["x"]⟩ ∧
    ReadsSed ⟨"sed", [], ["x"]⟩ (sedSample "x") "x" [⟨none, false, .exchange⟩] ∧
    Offered ⟨"sed", [], ["x"]⟩ (plan .consecChunks concatenation) :=
  ⟨by decide +kernel, (reads_sample (by decide +kernel)).1, sedSample_offered (by decide +kernel)⟩

example : parse "sed -n '1!G;h;$p'" = .ok ⟨"sed", [.flag "-n"], ["1!G;h;$p"]⟩ ∧
    ReadsSed ⟨"sed", [.flag "-n"], ["1!G;h;$p"]⟩ (quietSedSample "1!G;h;$p") "1!G;h;$p"
      [⟨some (.number 1), true, .getAppend⟩, ⟨none, false, .hold⟩, ⟨some .last, false, .print⟩] ∧
    Offered ⟨"sed", [.flag "-n"], ["1!G;h;$p"]⟩ (plan .consecChunks concatenation) ∧
    (∃ y, Executes sedScripts (plan .consecChunks concatenation) (quietSedSample "1!G;h;$p") [["a"], ["b"]] y) ∧
    nonEmpty [["a"], ["b"]] = 2 :=
  ⟨by decide +kernel, (reads_sample (by decide +kernel)).2, sedSample_offered (by decide +kernel),
    executable_concatenation _ (quietSedSample_ok _) (by simp [bothPlans]) _, by decide +kernel⟩

end PashAnn
