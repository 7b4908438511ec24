import Verif.Props.Batches

/-! C68 for `xargs -L K` with any K. Specification: Spec/Batches.lean. -/

namespace PashAnn

open Spec

theorem filled_flatten (words : String → List String) (parts : List Stream) :
    filled words parts.flatten = parts.flatMap (filled words) := by
  induction parts with
  | nil => rfl
  | cons a l ih =>
      rw [List.flatten_cons, List.flatMap_cons, ← ih]
      simp [filled]

private theorem no_lines {words : String → List String} (parts : List Stream) (hne : parts ≠ [])
    (hr : ∀ part ∈ parts, filled words part ≠ []) : filled words parts.flatten ≠ [] := by
  intro e
  cases parts with
  | nil => exact hne rfl
  | cons a l =>
      rw [filled_flatten, List.flatMap_cons] at e
      exact hr a (by simp) (List.append_eq_nil_iff.1 e).1

private theorem seq_lineBatches {inv : CommandInvocationInitial} (hn : inv.cmdName = "xargs") {prog : Programs}
    {words : String → List String} {run : List FlagOptionWithIOVar → List String → List String → Stream}
    (hxa : XargsLineBatches prog words run) {c : CommandInvocationWithIOVars} (hb : Belongs inv c)
    (hcov : Covered "xargs" c.flagOptionList) {k : Nat} (hk : argOf c.flagOptionList "-L" = some (toString (k + 1)))
    (hx : ¬ ∃ n ∈ ["--null", "--delimiter", "-E", "-I", "-n", "-a"], Has inv n) (z : Stream)
    (hend : ∀ l ∈ z, l.toList.getLast? ≠ some ' ' ∧ l.toList.getLast? ≠ some '\t')
    (hz : Has inv "-r" ∨ filled words z ≠ []) (gs : List (List (List String))) (hg : Grouped (k + 1) (filled words z) gs) :
    sequential prog c z = gs.flatMap (fun lines => run c.flagOptionList (strOperands c) lines.flatten) := by
  have hx' : ¬ ∃ n ∈ ["--null", "--delimiter", "-E", "-I", "-n", "-a"], Given c.flagOptionList n := by
    rintro ⟨n, hn, hh⟩; exact hx ⟨n, hn, (has_iff_given hb n).2 hh⟩
  unfold sequential
  rw [hb.1, hn, hxa _ _ _ k gs hcov hk hx' hend hg]
  by_cases hw : filled words z = []
  · rw [if_pos hw, if_pos ((has_iff_given hb _).1 (hz.resolve_right (fun h => h hw))), (grouped_nil hg).2 hw]; rfl
  · rw [if_neg hw]

/-- C68 for `-L K`: executing an offered parallelizer gives the output of xargs if in every part but the last the number
of lines with words is a multiple of K, and every part has such a line or xargs does not run the command without words.
Missing: other parts, for which it is false (C68_line_batches_exact). -/
theorem C68_line_batches_partial (inv : CommandInvocationInitial) (hn : inv.cmdName = "xargs") (p : Parallelizer)
    (hp : Offered inv p) (prog : Programs) (hcat : CatProgram prog) (words : String → List String)
    (run : List FlagOptionWithIOVar → List String → List String → Stream) (hxa : XargsLineBatches prog words run)
    (c : CommandInvocationWithIOVars) (hb : Belongs inv c) (hcov : Covered "xargs" c.flagOptionList) (hc : OneStream c)
    (k : Nat) (hk : argOf c.flagOptionList "-L" = some (toString (k + 1)))
    (hx : ¬ ∃ n ∈ ["--null", "--delimiter", "-E", "-I", "-n", "-a"], Has inv n) (x : Stream)
    (hend : ∀ l ∈ x, l.toList.getLast? ≠ some ' ' ∧ l.toList.getLast? ≠ some '\t') (parts : List Stream)
    (hr : Has inv "-r" ∨ ∀ part ∈ parts, filled words part ≠ []) (hne : parts ≠ [])
    (hd : ∀ part ∈ parts.dropLast, k + 1 ∣ (filled words part).length)
    (hsp : Split p.splitter x parts) (y : Stream) (h : Executes prog p c parts y) : y = sequential prog c x := by
  have hp := (offered_line (by simp [hn]) p).1 hp
  replace hsp := (split_concatenation hp).1 hsp
  subst hsp
  rw [executes_concatenation hcat hc hp h]
  have hz : Has inv "-r" ∨ filled words parts.flatten ≠ [] := hr.imp id (no_lines parts hne)
  let g : Stream → List (List (List String)) := fun z => groupsOf k (filled words z).length (filled words z)
  have hg : ∀ z, Grouped (k + 1) (filled words z) (g z) := fun z => grouped_groupsOf k _ _ (Nat.le_refl _)
  have hall := grouped_parts (filled words) g hg parts hd
  rw [← filled_flatten] at hall
  rw [seq_lineBatches hn hxa hb hcov hk hx _ hend hz _ hall]
  have : parts.map (sequential prog c) =
      parts.map (fun z => (g z).flatMap (fun lines => run c.flagOptionList (strOperands c) lines.flatten)) :=
    List.map_congr_left (fun z hz => seq_lineBatches hn hxa hb hcov hk hx z
      (fun l hl => hend l (List.mem_flatten.2 ⟨z, hz, hl⟩)) (hr.imp id (fun hr => hr z hz)) _ (hg z))
  rw [this]
  clear this hall hz hd hne hr h hend
  induction parts with
  | nil => rfl
  | cons a l ih => rw [List.map_cons, List.flatten_cons, ih, List.flatMap_cons, List.flatMap_append]

/-- Programs with `cat` and an `xargs` that runs a command printing one mark per argument. -/
def lineBatchProgs (words : String → List String) : Programs := fun n fl _ ins =>
  if n = "cat" then ins.flatten
  else match argOf fl "-L" with
    | none => []
    | some s =>
        if filled words ins.flatten = [] then (if Given fl "-r" then [] else [""])
        else (groupsOf (Nat.ofDigitChars 10 s.toList 0 - 1) (filled words ins.flatten).length (filled words ins.flatten)).map
          (fun g => String.ofList (List.replicate g.flatten.length 'x'))

theorem lineBatchProgs_ok (words : String → List String) : CatProgram (lineBatchProgs words) ∧
    XargsLineBatches (lineBatchProgs words) words (fun _ _ ws => [String.ofList (List.replicate ws.length 'x')]) := by
  refine ⟨fun _ => rfl, ?_⟩
  intro fl strs x k gs _ hk _ _ hg
  have hnat : Nat.ofDigitChars 10 (toString (k + 1)).toList 0 = k + 1 := by
    rw [Nat.toString_eq_repr, Nat.toList_repr, Nat.ofDigitChars_ten_toDigits]
  simp only [lineBatchProgs, show ("xargs" = "cat") = False by simp, if_false, hk, hnat, List.flatten_cons, List.flatten_nil,
    List.append_nil, Nat.add_sub_cancel]
  rw [grouped_unique (grouped_groupsOf k _ _ (Nat.le_refl _)) hg]
  congr 1
  clear hg
  induction gs with
  | nil => rfl
  | cons a l ih => rw [List.map_cons, ih]; rfl

/-- Groups of lines that all have words are determined by the numbers of their words. -/
theorem groups_counted {α : Type} (gs hs : List (List (List α))) (hf : gs.flatten = hs.flatten)
    (hw : ∀ ws ∈ gs.flatten, ws ≠ []) (hc : gs.map (fun g => g.flatten.length) = hs.map (fun g => g.flatten.length)) :
    gs = hs := by
  have key : ∀ (g h r s : List (List α)), g ++ r = h ++ s → (∀ ws ∈ g ++ r, ws ≠ []) →
      g.flatten.length = h.flatten.length → g = h := by
    intro g
    induction g with
    | nil =>
        intro h r s e hw hl
        cases h with
        | nil => rfl
        | cons b h =>
            have hb : b ≠ [] := hw b (by rw [e]; simp)
            have := List.length_pos_iff.2 hb
            simp at hl; omega
    | cons a g ih =>
        intro h r s e hw hl
        cases h with
        | nil =>
            have ha : a ≠ [] := hw a (by simp)
            have := List.length_pos_iff.2 ha
            rw [List.flatten_cons, List.length_append] at hl
            simp only [List.flatten_nil, List.length_nil] at hl; omega
        | cons b h =>
            simp only [List.cons_append, List.cons.injEq] at e
            obtain ⟨rfl, e⟩ := e
            rw [ih h r s e (fun ws hws => hw ws (by rw [List.cons_append]; exact List.mem_cons_of_mem _ hws))
              (by simpa using hl)]
  induction gs generalizing hs with
  | nil =>
      cases hs with
      | nil => rfl
      | cons _ _ => cases hc
  | cons g gs ih =>
      cases hs with
      | nil => cases hc
      | cons h hs =>
          simp only [List.map_cons, List.cons.injEq, List.flatten_cons] at hc hf hw
          have e := key g h _ _ hf hw hc.1
          subst e
          rw [ih hs (List.append_cancel_left hf) (fun ws hws => hw ws (List.mem_append_right _ hws)) hc.2]

/-- C68, exactly for `-L K` and parts that all have words: executing the offered parallelizer on these parts gives the
output of xargs for all commands exactly if in every part but the last the number of lines with words is a multiple of
K. -/
theorem C68_line_batches_exact (inv : CommandInvocationInitial) (hn : inv.cmdName = "xargs") (p : Parallelizer)
    (hp : Offered inv p) (words : String → List String)
    (c : CommandInvocationWithIOVars) (hb : Belongs inv c) (hcov : Covered "xargs" c.flagOptionList) (hc : OneStream c)
    (k : Nat) (hk : argOf c.flagOptionList "-L" = some (toString (k + 1)))
    (hx : ¬ ∃ n ∈ ["--null", "--delimiter", "-E", "-I", "-n", "-a"], Has inv n) (x : Stream)
    (hend : ∀ l ∈ x, l.toList.getLast? ≠ some ' ' ∧ l.toList.getLast? ≠ some '\t') (parts : List Stream)
    (hr : ∀ part ∈ parts, filled words part ≠ []) (hne : parts ≠ []) (hsp : Split p.splitter x parts) :
    (∀ prog run, CatProgram prog → XargsLineBatches prog words run → ∀ y, Executes prog p c parts y → y = sequential prog c x) ↔
      ∀ part ∈ parts.dropLast, k + 1 ∣ (filled words part).length := by
  constructor
  · intro hall
    obtain ⟨hcat, hxa⟩ := lineBatchProgs_ok words
    have hp' := (offered_line (by simp [hn]) p).1 hp
    obtain ⟨y, hy⟩ := executable_concatenation (lineBatchProgs words) hc hp' parts
    have e := hall _ _ hcat hxa y hy
    replace hsp := (split_concatenation hp').1 hsp
    subst hsp
    rw [executes_concatenation hcat hc hp' hy] at e
    let g : Stream → List (List (List String)) := fun z => groupsOf k (filled words z).length (filled words z)
    have hg : ∀ z, Grouped (k + 1) (filled words z) (g z) := fun z => grouped_groupsOf k _ _ (Nat.le_refl _)
    have hprint : ∀ gs : List (List (List String)),
        gs.flatMap (fun lines => [String.ofList (List.replicate lines.flatten.length 'x')]) =
        gs.map (fun lines => String.ofList (List.replicate lines.flatten.length 'x')) := by
      intro gs
      induction gs with
      | nil => rfl
      | cons a l ih => rw [List.flatMap_cons, ih]; rfl
    have hseq : ∀ z : Stream, (∀ l ∈ z, l.toList.getLast? ≠ some ' ' ∧ l.toList.getLast? ≠ some '\t') →
        filled words z ≠ [] → sequential (lineBatchProgs words) c z =
        (g z).map (fun lines => String.ofList (List.replicate lines.flatten.length 'x')) := by
      intro z hze hz
      rw [seq_lineBatches hn hxa hb hcov hk hx z hze (.inr hz) _ (hg z), hprint]
    rw [hseq _ hend (no_lines parts hne hr), List.map_congr_left (fun z hz => hseq z
      (fun l hl => hend l (List.mem_flatten.2 ⟨z, hz, hl⟩)) (hr z hz))] at e
    have e' : parts.flatMap g = g parts.flatten := by
      have h1 : (parts.flatMap g).map (fun lines => String.ofList (List.replicate lines.flatten.length 'x')) =
          (g parts.flatten).map (fun lines => String.ofList (List.replicate lines.flatten.length 'x')) := by
        rw [← e]
        clear e hy hall hne hr hend
        induction parts with
        | nil => rfl
        | cons a l ih => rw [List.flatMap_cons, List.map_append, ih, List.map_cons, List.flatten_cons]
      have hfl : (parts.flatMap g).flatten = filled words parts.flatten := by
        rw [filled_flatten]
        clear e hy hall hne hr hend h1
        induction parts with
        | nil => rfl
        | cons a l ih => rw [List.flatMap_cons, List.flatten_append, ih, List.flatMap_cons, (hg a).all]
      refine groups_counted _ _ (by rw [hfl, (hg _).all]) ?_ ?_
      · intro ws hws
        rw [hfl] at hws
        simpa using (List.mem_filter.1 hws).2
      · have h2 := congrArg (List.map (fun s : String => s.toList.length)) h1
        simpa [List.map_map, Function.comp_def] using h2
    have hfull : ∀ gr ∈ (parts.flatMap g).dropLast, gr.length = k + 1 := by
      rw [e']; exact (hg _).full
    clear e e' hseq hall hy hprint hend
    induction parts with
    | nil => exact absurd rfl hne
    | cons a l ih =>
        by_cases he : l = []
        · subst he; simp
        · have hl : l.flatMap g ≠ [] := by
            intro e0
            cases l with
            | nil => exact he rfl
            | cons b l =>
                rw [List.flatMap_cons] at e0
                exact hr b (by simp) ((grouped_nil (hg b)).1 (List.append_eq_nil_iff.1 e0).1)
          rw [List.flatMap_cons, List.dropLast_append_of_ne_nil hl] at hfull
          rw [List.dropLast_cons_of_ne_nil he]
          intro part hpart
          rcases List.mem_cons.1 hpart with rfl | hpart
          · exact (grouped_full (hg part)).1 (fun gr hgr => hfull gr (List.mem_append_left _ hgr))
          · exact ih (fun b hb => hr b (by simp [hb])) he (fun gr hgr => hfull gr (List.mem_append_right _ hgr)) part hpart
  · intro hd prog run hcat hxa y hy
    exact C68_line_batches_partial inv hn p hp prog hcat words run hxa c hb hcov hc k hk hx x hend parts (.inr hr) hne hd
      hsp y hy

example : ∃ inv, parse "xargs -L 2 echo" = .ok inv ∧
    (¬ ∃ n ∈ ["--null", "--delimiter", "-E", "-I", "-n", "-a"], Has inv n) ∧
    Belongs inv (xargsSample [.optionVar 0 "-L" (.str "2")]) ∧ OneStream (xargsSample [.optionVar 0 "-L" (.str "2")]) ∧
    Covered "xargs" (xargsSample [.optionVar 0 "-L" (.str "2")]).flagOptionList ∧
    argOf (xargsSample [.optionVar 0 "-L" (.str "2")]).flagOptionList "-L" = some (toString (1 + 1)) :=
  ⟨⟨"xargs", [.option "-L" "2"], ["echo"]⟩, by decide +kernel, by simp [Has], ⟨rfl, rfl⟩,
    xargsSample_ok _ (by simp [optionVar]), by decide +kernel, by decide +kernel⟩

/-- With `-L 2`, parts of two lines and one line are right, parts of one line and one line are wrong; a line without words
does not count. -/
example : (∀ part ∈ ([["a", "", "b"], ["c"]] : List Stream).dropLast,
      1 + 1 ∣ (filled (fun l => if l = "" then [] else [l]) part).length) ∧
    ¬ (∀ part ∈ ([["a", ""], ["b"]] : List Stream).dropLast,
      1 + 1 ∣ (filled (fun l => if l = "" then [] else [l]) part).length) := by
  decide

end PashAnn
