import Verif.Spec.Batches
import Verif.Props.Plans

/-! C68 for `xargs -n K` with any K. Specification: Spec/Batches.lean. -/

namespace PashAnn

open Spec

/-- Words in groups of `k + 1`. -/
def groupsOf {α : Type} (k : Nat) : Nat → List α → List (List α)
  | 0, _ => []
  | _ + 1, [] => []
  | f + 1, a :: l => (a :: l.take k) :: groupsOf k f (l.drop k)

theorem grouped_groupsOf {α : Type} (k f : Nat) (l : List α) (h : l.length ≤ f) : Grouped (k + 1) l (groupsOf k f l) := by
  induction f generalizing l with
  | zero => cases l with
    | nil => exact ⟨rfl, by simp [groupsOf], by simp [groupsOf]⟩
    | cons a l => simp at h
  | succ f ih =>
      cases l with
      | nil => exact ⟨rfl, by simp [groupsOf], by simp [groupsOf]⟩
      | cons a l =>
          have hl : (l.drop k).length ≤ f := by simp at h ⊢; omega
          have hi := ih (l.drop k) hl
          have hg : groupsOf k (f + 1) (a :: l) = (a :: l.take k) :: groupsOf k f (l.drop k) := rfl
          rw [hg]
          refine ⟨by simp [hi.all], ?_, ?_⟩
          · intro g hm
            by_cases he : groupsOf k f (l.drop k) = []
            · rw [he] at hm; simp at hm
            · rw [List.dropLast_cons_of_ne_nil he, List.mem_cons] at hm
              rcases hm with rfl | hm
              · have : l.drop k ≠ [] := by
                  intro e; rw [← hi.all] at e
                  apply he
                  cases hgs : groupsOf k f (l.drop k) with
                  | nil => rfl
                  | cons g gs =>
                      rw [hgs] at e
                      have := (hi.size g (by rw [hgs]; simp)).1
                      simp at e; exact absurd e.1 this
                have : k < l.length := by
                  refine Nat.lt_of_not_le (fun hle => this (List.drop_eq_nil_of_le hle))
                simp; omega
              · exact hi.full g hm
          · intro g hm
            rcases List.mem_cons.1 hm with rfl | hm
            · exact ⟨by simp, by simp; omega⟩
            · exact hi.size g hm

theorem grouped_exists {α : Type} (k : Nat) (l : List α) : ∃ gs, Grouped (k + 1) l gs :=
  ⟨_, grouped_groupsOf k l.length l (Nat.le_refl _)⟩

theorem grouped_nil {α : Type} {k : Nat} {l : List α} {gs : List (List α)} (h : Grouped k l gs) : gs = [] ↔ l = [] := by
  constructor
  · rintro rfl; exact h.all.symm
  · rintro rfl
    cases gs with
    | nil => rfl
    | cons g gs => exact absurd (List.append_eq_nil_iff.1 h.all).1 (h.size g (by simp)).1

/-- There is only one way to group. -/
theorem grouped_unique {α : Type} {k : Nat} {l : List α} {gs gs' : List (List α)} (h : Grouped k l gs)
    (h' : Grouped k l gs') : gs = gs' := by
  induction gs generalizing l gs' with
  | nil => exact ((grouped_nil h').2 ((grouped_nil h).1 rfl)).symm
  | cons g gs ih =>
      cases gs' with
      | nil => exact absurd ((grouped_nil h).2 ((grouped_nil h').1 rfl)) (by simp)
      | cons g' gs' =>
          have htail : ∀ {a : List α} {as : List (List α)} {m : List α}, Grouped k m (a :: as) → Grouped k as.flatten as := by
            intro a as m hm
            refine ⟨rfl, fun x hx => hm.full x ?_, fun x hx => hm.size x (by simp [hx])⟩
            cases as with
            | nil => simp at hx
            | cons b bs => rw [List.dropLast_cons_of_ne_nil (by simp)]; exact List.mem_cons_of_mem _ hx
          have hlen : ∀ {a : List α} {as : List (List α)} {m : List α}, Grouped k m (a :: as) → a = m.take k ∧ as.flatten = m.drop k := by
            intro a as m hm
            by_cases he : as = []
            · subst he
              have := (hm.size a (by simp)).2
              have e := hm.all
              simp only [List.flatten_cons, List.flatten_nil, List.append_nil] at e ⊢
              subst e
              rw [List.take_of_length_le this, List.drop_eq_nil_of_le this]; exact ⟨rfl, rfl⟩
            · have := hm.full a (by rw [List.dropLast_cons_of_ne_nil he]; simp)
              have e := hm.all
              simp only [List.flatten_cons] at e
              rw [← e, ← this]; simp
          have e1 := hlen h; have e2 := hlen h'
          rw [e1.1, e2.1, ih (htail h) (by rw [e1.2, ← e2.2]; exact htail h')]

/-- All groups are full exactly if the number of words is a multiple. -/
theorem grouped_full {α : Type} {k : Nat} {l : List α} {gs : List (List α)} (h : Grouped k l gs) :
    (∀ g ∈ gs, g.length = k) ↔ k ∣ l.length := by
  have hsum : ∀ hs : List (List α), (∀ g ∈ hs, g.length = k) → k ∣ hs.flatten.length := by
    intro hs hh
    induction hs with
    | nil => exact Nat.dvd_zero _
    | cons g hs ih =>
        rw [List.flatten_cons, List.length_append, hh g (by simp)]
        exact Nat.dvd_add (Nat.dvd_refl _) (ih (fun g hg => hh g (by simp [hg])))
  constructor
  · intro hf; rw [← h.all]; exact hsum gs hf
  · intro hd g hg
    rcases List.eq_nil_or_concat gs with rfl | ⟨gs', z, rfl⟩
    · simp at hg
    · have hfull : ∀ g ∈ gs', g.length = k := fun g hg => h.full g (by simpa using hg)
      simp only [List.concat_eq_append, List.mem_append, List.mem_singleton] at hg
      rcases hg with hg | rfl
      · exact hfull g hg
      · have hz := h.size g (by simp)
        rw [← h.all] at hd
        simp only [List.concat_eq_append, List.flatten_append, List.flatten_cons, List.flatten_nil, List.append_nil,
          List.length_append] at hd
        have hd' := (Nat.dvd_add_right (hsum gs' hfull)).1 hd
        exact Nat.le_antisymm hz.2 (Nat.le_of_dvd (List.length_pos_iff.2 hz.1) hd')

theorem grouped_append {α : Type} {k : Nat} {l m : List α} {gs hs : List (List α)} (h : Grouped k l gs)
    (hd : k ∣ l.length) (h' : Grouped k m hs) : Grouped k (l ++ m) (gs ++ hs) := by
  have hf := (grouped_full h).2 hd
  refine ⟨by rw [List.flatten_append, h.all, h'.all], ?_, ?_⟩
  · intro g hg
    by_cases he : hs = []
    · rw [he, List.append_nil] at hg; exact h.full g hg
    · rw [List.dropLast_append_of_ne_nil he, List.mem_append] at hg
      rcases hg with hg | hg
      · exact hf g hg
      · exact h'.full g hg
  · intro g hg
    rcases List.mem_append.1 hg with hg | hg
    · exact h.size g hg
    · exact h'.size g hg

/-- Parts of which all but the last have a multiple of words are grouped as the whole. -/
theorem grouped_parts {α β : Type} {k : Nat} (f : β → List α) (g : β → List (List α)) (hg : ∀ b, Grouped k (f b) (g b))
    (parts : List β) (hd : ∀ b ∈ parts.dropLast, k ∣ (f b).length) : Grouped k (parts.flatMap f) (parts.flatMap g) := by
  induction parts with
  | nil => exact ⟨rfl, by simp, by simp⟩
  | cons a l ih =>
      by_cases he : l = []
      · subst he; simpa using hg a
      · rw [List.dropLast_cons_of_ne_nil he] at hd
        exact grouped_append (hg a) (hd a (by simp)) (ih (fun b hb => hd b (by simp [hb])))

private theorem no_words {words : String → List String} (parts : List Stream) (hne : parts ≠ [])
    (hr : ∀ part ∈ parts, part.flatMap words ≠ []) : parts.flatten.flatMap words ≠ [] := by
  intro e
  cases parts with
  | nil => exact hne rfl
  | cons a l =>
      rw [List.flatten_cons, List.flatMap_append] at e
      exact hr a (by simp) (List.append_eq_nil_iff.1 e).1

private theorem flatten_words (words : String → List String) (parts : List Stream) :
    parts.flatten.flatMap words = parts.flatMap (fun z => z.flatMap words) := by
  induction parts with
  | nil => rfl
  | cons a l ih => rw [List.flatten_cons, List.flatMap_append, ih, List.flatMap_cons]

private theorem seq_batches {inv : CommandInvocationInitial} (hn : inv.cmdName = "xargs") {prog : Programs}
    {words : String → List String} {run : List FlagOptionWithIOVar → List String → List String → Stream}
    (hxa : XargsBatches prog words run) {c : CommandInvocationWithIOVars} (hb : Belongs inv c)
    (hcov : Covered "xargs" c.flagOptionList) {k : Nat} (hk : argOf c.flagOptionList "-n" = some (toString (k + 1)))
    (hx : ¬ ∃ n ∈ ["--null", "--delimiter", "-E", "-I", "-L", "-a"], Has inv n) (z : Stream)
    (hz : Has inv "-r" ∨ z.flatMap words ≠ []) (gs : List (List String)) (hg : Grouped (k + 1) (z.flatMap words) gs) :
    sequential prog c z = gs.flatMap (run c.flagOptionList (strOperands c)) := by
  have hx' : ¬ ∃ n ∈ ["--null", "--delimiter", "-E", "-I", "-L", "-a"], Given c.flagOptionList n := by
    rintro ⟨n, hn, hh⟩; exact hx ⟨n, hn, (has_iff_given hb n).2 hh⟩
  unfold sequential
  rw [hb.1, hn, hxa _ _ _ k gs hcov hk hx' hg]
  by_cases hw : z.flatMap words = []
  · rw [if_pos hw, if_pos ((has_iff_given hb _).1 (hz.resolve_right (fun h => h hw))), (grouped_nil hg).2 hw]; rfl
  · rw [if_neg hw]

/-- C68 for `-n K`: executing an offered parallelizer gives the output of xargs if every part but the last has a
multiple of K words, and every part has words or xargs does not run the command without words. Missing: other parts, for
which it is false (C68_batches_exact). -/
theorem C68_batches_partial (inv : CommandInvocationInitial) (hn : inv.cmdName = "xargs") (p : Parallelizer)
    (hp : Offered inv p) (prog : Programs) (hcat : CatProgram prog) (words : String → List String)
    (run : List FlagOptionWithIOVar → List String → List String → Stream) (hxa : XargsBatches prog words run)
    (c : CommandInvocationWithIOVars) (hb : Belongs inv c) (hcov : Covered "xargs" c.flagOptionList) (hc : OneStream c)
    (k : Nat) (hk : argOf c.flagOptionList "-n" = some (toString (k + 1)))
    (hx : ¬ ∃ n ∈ ["--null", "--delimiter", "-E", "-I", "-L", "-a"], Has inv n) (x : Stream) (parts : List Stream)
    (hr : Has inv "-r" ∨ ∀ part ∈ parts, part.flatMap words ≠ []) (hne : parts ≠ [])
    (hd : ∀ part ∈ parts.dropLast, k + 1 ∣ (part.flatMap words).length)
    (hsp : Split p.splitter x parts) (y : Stream) (h : Executes prog p c parts y) : y = sequential prog c x := by
  have hp := (offered_line (by simp [hn]) p).1 hp
  rw [executes_concatenation hcat hc hp h, ← (split_concatenation hp).1 hsp]
  have hz : Has inv "-r" ∨ parts.flatten.flatMap words ≠ [] := hr.imp id (no_words parts hne)
  let g : Stream → List (List String) := fun z => groupsOf k (z.flatMap words).length (z.flatMap words)
  have hg : ∀ z, Grouped (k + 1) (z.flatMap words) (g z) := fun z => grouped_groupsOf k _ _ (Nat.le_refl _)
  have hall := grouped_parts (fun z : Stream => z.flatMap words) g hg parts hd
  rw [← flatten_words] at hall
  rw [seq_batches hn hxa hb hcov hk hx _ hz _ hall]
  have : parts.map (sequential prog c) = parts.map (fun z => (g z).flatMap (run c.flagOptionList (strOperands c))) :=
    List.map_congr_left (fun z hz => seq_batches hn hxa hb hcov hk hx z (hr.imp id (fun hr => hr z hz)) _ (hg z))
  rw [this]
  clear this hall hz hd hne hr h hsp
  induction parts with
  | nil => rfl
  | cons a l ih => rw [List.map_cons, List.flatten_cons, ih, List.flatMap_cons, List.flatMap_append]

/-- Programs with `cat` and an `xargs` that runs a command printing one mark per argument. -/
def batchProgs (words : String → List String) : Programs := fun n fl _ ins =>
  if n = "cat" then ins.flatten
  else match argOf fl "-n" with
    | none => []
    | some s =>
        if ins.flatten.flatMap words = [] then (if Given fl "-r" then [] else [""])
        else (groupsOf (Nat.ofDigitChars 10 s.toList 0 - 1) (ins.flatten.flatMap words).length (ins.flatten.flatMap words)).map
          (fun g => String.ofList (List.replicate g.length 'x'))

theorem batchProgs_ok (words : String → List String) : CatProgram (batchProgs words) ∧
    XargsBatches (batchProgs words) words (fun _ _ ws => [String.ofList (List.replicate ws.length 'x')]) := by
  refine ⟨fun _ => rfl, ?_⟩
  intro fl strs x k gs _ hk _ hg
  have hnat : Nat.ofDigitChars 10 (toString (k + 1)).toList 0 = k + 1 := by
    rw [Nat.toString_eq_repr, Nat.toList_repr, Nat.ofDigitChars_ten_toDigits]
  simp only [batchProgs, show ("xargs" = "cat") = False by simp, if_false, hk, hnat, List.flatten_cons, List.flatten_nil,
    List.append_nil, Nat.add_sub_cancel]
  rw [grouped_unique (grouped_groupsOf k _ _ (Nat.le_refl _)) hg]
  congr 1
  clear hg
  induction gs with
  | nil => rfl
  | cons a l ih => rw [List.map_cons, ih]; rfl

/-- C68, exactly for `-n K` and parts that all have words: executing the offered parallelizer on these parts gives the
output of xargs for all commands exactly if every part but the last has a multiple of K words. -/
theorem C68_batches_exact (inv : CommandInvocationInitial) (hn : inv.cmdName = "xargs") (p : Parallelizer)
    (hp : Offered inv p) (words : String → List String)
    (c : CommandInvocationWithIOVars) (hb : Belongs inv c) (hcov : Covered "xargs" c.flagOptionList) (hc : OneStream c)
    (k : Nat) (hk : argOf c.flagOptionList "-n" = some (toString (k + 1)))
    (hx : ¬ ∃ n ∈ ["--null", "--delimiter", "-E", "-I", "-L", "-a"], Has inv n) (x : Stream) (parts : List Stream)
    (hr : ∀ part ∈ parts, part.flatMap words ≠ []) (hne : parts ≠ []) (hsp : Split p.splitter x parts) :
    (∀ prog run, CatProgram prog → XargsBatches prog words run → ∀ y, Executes prog p c parts y → y = sequential prog c x) ↔
      ∀ part ∈ parts.dropLast, k + 1 ∣ (part.flatMap words).length := by
  constructor
  · intro hall
    obtain ⟨hcat, hxa⟩ := batchProgs_ok words
    have hp' := (offered_line (by simp [hn]) p).1 hp
    obtain ⟨y, hy⟩ := executable_concatenation (batchProgs words) hc hp' parts
    have e := hall _ _ hcat hxa y hy
    rw [executes_concatenation hcat hc hp' hy, ← (split_concatenation hp').1 hsp] at e
    let g : Stream → List (List String) := fun z => groupsOf k (z.flatMap words).length (z.flatMap words)
    have hg : ∀ z, Grouped (k + 1) (z.flatMap words) (g z) := fun z => grouped_groupsOf k _ _ (Nat.le_refl _)
    have hprint : ∀ gs : List (List String), gs.flatMap (fun ws => [String.ofList (List.replicate ws.length 'x')]) =
        gs.map (fun ws => String.ofList (List.replicate ws.length 'x')) := by
      intro gs
      induction gs with
      | nil => rfl
      | cons a l ih => rw [List.flatMap_cons, ih]; rfl
    have hseq : ∀ z : Stream, z.flatMap words ≠ [] → sequential (batchProgs words) c z =
        (g z).map (fun ws => String.ofList (List.replicate ws.length 'x')) := by
      intro z hz
      rw [seq_batches hn hxa hb hcov hk hx z (.inr hz) _ (hg z), hprint]
    rw [hseq _ (no_words parts hne hr), List.map_congr_left (fun z hz => hseq z (hr z hz))] at e
    have e' : (parts.flatMap g).map List.length = (g parts.flatten).map List.length := by
      have h1 : (parts.flatMap g).map (fun ws => String.ofList (List.replicate ws.length 'x')) =
          (g parts.flatten).map (fun ws => String.ofList (List.replicate ws.length 'x')) := by
        rw [← e]
        clear e hy hall hsp hne hr
        induction parts with
        | nil => rfl
        | cons a l ih => rw [List.flatMap_cons, List.map_append, ih, List.map_cons, List.flatten_cons]
      have h2 := congrArg (List.map (fun s : String => s.toList.length)) h1
      simpa [List.map_map, Function.comp_def] using h2
    have hlens : ∀ gs : List (List String), (∀ g ∈ gs.dropLast, g.length = k + 1) ↔
        ∀ n ∈ (gs.map List.length).dropLast, n = k + 1 := by
      intro gs
      rw [← List.map_dropLast]
      constructor
      · rintro h n hn
        obtain ⟨g, hg, rfl⟩ := List.mem_map.1 hn
        exact h g hg
      · intro h g hg
        exact h _ (List.mem_map.2 ⟨g, hg, rfl⟩)
    have hfull : ∀ gr ∈ (parts.flatMap g).dropLast, gr.length = k + 1 := by
      rw [hlens, e', ← hlens]; exact (hg _).full
    clear e e' hseq hall hy hsp hlens hprint
    induction parts with
    | nil => exact absurd rfl hne
    | cons a l ih =>
        by_cases he : l = []
        · subst he; simp
        · have hl : l.flatMap g ≠ [] := by
            intro e0
            cases l with
            | nil => exact he rfl
            | cons b l =>
                rw [List.flatMap_cons] at e0
                exact hr b (by simp) ((grouped_nil (hg b)).1 (List.append_eq_nil_iff.1 e0).1)
          rw [List.flatMap_cons, List.dropLast_append_of_ne_nil hl] at hfull
          rw [List.dropLast_cons_of_ne_nil he]
          intro part hpart
          rcases List.mem_cons.1 hpart with rfl | hpart
          · exact (grouped_full (hg part)).1 (fun gr hgr => hfull gr (List.mem_append_left _ hgr))
          · exact ih (fun b hb => hr b (by simp [hb])) he (fun gr hgr => hfull gr (List.mem_append_right _ hgr)) part hpart
  · intro hd prog run hcat hxa y hy
    exact C68_batches_partial inv hn p hp prog hcat words run hxa c hb hcov hc k hk hx x parts (.inr hr) hne hd hsp y hy

example : ∃ inv, parse "xargs -n 2 echo" = .ok inv ∧
    (¬ ∃ n ∈ ["--null", "--delimiter", "-E", "-I", "-L", "-a"], Has inv n) ∧
    Belongs inv (xargsSample [.optionVar 0 "-n" (.str "2")]) ∧ OneStream (xargsSample [.optionVar 0 "-n" (.str "2")]) ∧
    Covered "xargs" (xargsSample [.optionVar 0 "-n" (.str "2")]).flagOptionList ∧
    argOf (xargsSample [.optionVar 0 "-n" (.str "2")]).flagOptionList "-n" = some (toString (1 + 1)) :=
  ⟨⟨"xargs", [.option "-n" "2"], ["echo"]⟩, by decide +kernel, by simp [Has], ⟨rfl, rfl⟩,
    xargsSample_ok _ (by simp [optionVar]), by decide +kernel, by decide +kernel⟩

/-- With `-n 2`, parts of two lines and one line are right, parts of one line and one line are wrong. -/
example : (∀ part ∈ ([["a", "b"], ["c"]] : List Stream).dropLast, 1 + 1 ∣ (part.flatMap (fun l => [l])).length) ∧
    ¬ (∀ part ∈ ([["a"], ["b"]] : List Stream).dropLast, 1 + 1 ∣ (part.flatMap (fun l => [l])).length) := by
  decide

end PashAnn
