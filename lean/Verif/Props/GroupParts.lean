import Verif.Props.UniqueParts

/-! Property C56, the methods of `uniq --group` that put empty lines around groups: exactly when the plan is right. -/

namespace PashAnn
open Spec

private theorem groups_length (same : String → String → Bool) (l : String) (x : Stream) :
    (groups same (l :: x)).length = (groups same x).length + 1 ∨
    (x ≠ [] ∧ (groups same (l :: x)).length = (groups same x).length) := by
  cases x with
  | nil => exact .inl rfl
  | cons k x =>
      obtain ⟨g, gs, e⟩ := groups_head same k x
      rw [groups_cons2 same e, e]
      split
      · exact .inr ⟨by simp, by simp⟩
      · exact .inl (by simp)

private theorem groups_subadd (same : String → String → Bool) (a b : Stream) :
    (groups same (a ++ b)).length ≤ (groups same a).length + (groups same b).length := by
  induction a with
  | nil => simp [groups]
  | cons l a ih =>
      cases a with
      | nil =>
          have h1 : (groups same [l]).length = 1 := rfl
          rcases groups_length same l b with h | ⟨_, h⟩ <;> simp only [List.cons_append, List.nil_append] <;> omega
      | cons k a =>
          obtain ⟨g, gs, e⟩ := groups_head same k (a ++ b)
          obtain ⟨g', gs', e'⟩ := groups_head same k a
          rw [List.cons_append] at ih
          rw [List.cons_append, List.cons_append, groups_cons2 same e, groups_cons2 same e']
          rw [e, e'] at ih
          split
          · simpa using ih
          · simp only [List.length_cons] at ih ⊢; omega

private theorem flatMap_around_length (f : List String → List String) (h : ∀ g, (f g).length = g.length + 1)
    (gs : List (List String)) : (gs.flatMap f).length = gs.flatten.length + gs.length := by
  induction gs with
  | nil => rfl
  | cons g gs ih => simp only [List.flatMap_cons, List.flatten_cons, List.length_append, List.length_cons, h, ih]; omega

/-- The number of lines that each of these methods prints. -/
private theorem around_length {m : String} (hm : m ∈ ["prepend", "append", "both"]) (same : String → String → Bool)
    (x : Stream) (hx : x ≠ []) : (separateGroups m (groups same x)).length =
      x.length + (groups same x).length + (if m = "both" then 1 else 0) := by
  have hg : (groups same x).isEmpty = false := by
    cases x with
    | nil => exact absurd rfl hx
    | cons l x => obtain ⟨g, gs, e⟩ := groups_head same l x; rw [e]; rfl
  have hf := congrArg List.length (groups_flatten same x)
  simp only [List.mem_cons, List.not_mem_nil, or_false] at hm
  rcases hm with rfl | rfl | rfl
  · have := flatMap_around_length ([""] ++ ·) (by intro g; simp) (groups same x)
    simp only [separateGroups, if_true]
    rw [this]; simp only [String.reduceEq, if_false]; omega
  · have := flatMap_around_length (· ++ [""]) (by intro g; simp) (groups same x)
    simp only [separateGroups, String.reduceEq, if_false, if_true]
    rw [this]; omega
  · have := flatMap_around_length ([""] ++ ·) (by intro g; simp) (groups same x)
    simp only [separateGroups, String.reduceEq, if_false, if_true, hg, Bool.false_eq_true, List.length_append, this,
      List.length_cons, List.length_nil]
    omega

private theorem around_nil {m : String} (hm : m ∈ ["prepend", "append", "both"]) (same : String → String → Bool) :
    separateGroups m (groups same []) = [] := by
  simp only [List.mem_cons, List.not_mem_nil, or_false] at hm
  rcases hm with rfl | rfl | rfl <;> simp [separateGroups, groups]

/-- The number of parts that are not empty. -/
def nonEmpty (parts : List Stream) : Nat := (parts.filter (fun p => !p.isEmpty)).length

private theorem splice_nil_left (f : Stream → Stream) (b : Stream) : splice f [] b = b := by simp [splice]

private theorem splice_nil_right (f : Stream → Stream) (a : Stream) : splice f a [] = a := by
  unfold splice; cases a.getLast? <;> simp

private theorem nonEmpty_append (a b : List Stream) : nonEmpty (a ++ b) = nonEmpty a + nonEmpty b := by
  simp [nonEmpty]

private theorem nonEmpty_zero {a : List Stream} (h : nonEmpty a = 0) : a.flatten = [] := by
  induction a with
  | nil => rfl
  | cons p a ih =>
      cases p with
      | nil => exact ih h
      | cons l p => simp [nonEmpty] at h

/-- Joining at adjacent lines where the command prints more than it is given. -/
private theorem spliced_longer {f : Stream → Stream} (h0 : f [] = []) (h1 : ∀ x, x ≠ [] → f x ≠ [])
    (h2 : ∀ l r, 3 ≤ (f [l, r]).length) (h3 : ∀ a b, (f (a ++ b)).length ≤ (f a).length + (f b).length)
    {outs : List Stream} {y : Stream} (h : Spliced f outs y) : ∀ parts : List Stream, outs = parts.map f →
      (nonEmpty parts = 0 → y = []) ∧ (nonEmpty parts = 1 → y = f parts.flatten ∧ y ≠ []) ∧
      (2 ≤ nonEmpty parts → (f parts.flatten).length < y.length) := by
  induction h with
  | leaf s =>
      intro parts hp
      obtain ⟨p, rfl⟩ := List.length_eq_one_iff.1 (show parts.length = 1 by simpa using (congrArg List.length hp).symm)
      simp only [List.map_cons, List.map_nil, List.cons.injEq, and_true] at hp
      subst hp
      cases p with
      | nil => simp [nonEmpty, h0]
      | cons l p => simpa [nonEmpty] using h1 _ (by simp)
  | @node l r a b hl hr ihl ihr =>
      intro parts hp
      obtain ⟨p, q, rfl, rfl, rfl⟩ := List.map_eq_append_iff.1 hp.symm
      obtain ⟨a0, a1, a2⟩ := ihl p rfl
      obtain ⟨b0, b1, b2⟩ := ihr q rfl
      rw [nonEmpty_append, List.flatten_append]
      by_cases hp0 : nonEmpty p = 0
      · rw [a0 hp0, nonEmpty_zero hp0, hp0, splice_nil_left, List.nil_append, Nat.zero_add]
        exact ⟨b0, b1, b2⟩
      · by_cases hq0 : nonEmpty q = 0
        · rw [b0 hq0, nonEmpty_zero hq0, hq0, splice_nil_right, List.append_nil, Nat.add_zero]
          exact ⟨a0, a1, a2⟩
        · refine ⟨fun h => by omega, fun h => by omega, fun _ => ?_⟩
          have hle : ∀ {s : List Stream} {z : Stream}, nonEmpty s ≠ 0 →
              (nonEmpty s = 1 → z = f s.flatten ∧ z ≠ []) →
              (2 ≤ nonEmpty s → (f s.flatten).length < z.length) → (f s.flatten).length ≤ z.length ∧ z ≠ [] := by
            intro s z h0 h1 h2
            by_cases h : nonEmpty s = 1
            · obtain ⟨e, hne⟩ := h1 h; exact ⟨by rw [← e]; exact Nat.le_refl _, hne⟩
            · have := h2 (by omega)
              exact ⟨by omega, by rintro rfl; simp at this⟩
          obtain ⟨la, na⟩ := hle hp0 a1 a2
          obtain ⟨lb, nb⟩ := hle hq0 b1 b2
          have := h3 p.flatten q.flatten
          obtain ⟨c, b', rfl⟩ : ∃ c b', b = c :: b' := by
            cases b with
            | nil => exact absurd rfl nb
            | cons c b' => exact ⟨c, b', rfl⟩
          have hla : 0 < a.length := List.length_pos_iff.2 na
          simp only [splice, List.getLast?_eq_some_getLast na, List.length_append, List.length_dropLast]
          have := h2 (a.getLast na) c
          simp only [List.length_cons] at lb
          omega

/-- The invocation is a plain `uniq --group` with a method other than `separate`. -/
structure PlainAround (inv : CommandInvocationInitial) (c : CommandInvocationWithIOVars) (m : String) : Prop where
  hname : inv.cmdName = "uniq"
  method : argOf c.flagOptionList "--group" = some m
  around : m ∈ ["prepend", "append", "both"]
  others : ¬ ∃ n ∈ ["-c", "-d", "-D", "--all-repeated", "-u", "-z"], Has inv n
  belongs : Belongs inv c
  covered : Covered "uniq" c.flagOptionList
  stream : OneStream c
  texts : strOperands c = []

private theorem argOf_given {fl : List FlagOptionWithIOVar} {n a : String} (h : argOf fl n = some a) : Given fl n := by
  unfold argOf argAmong at h
  obtain ⟨f, hf, h⟩ := List.exists_of_findSome?_eq_some h
  refine ⟨f, List.mem_reverse.1 hf, ?_⟩
  revert h
  cases f <;> simp only [FlagOptionWithIOVar.getName] <;> intro h
  all_goals (repeat' split at h) <;> simp_all

theorem around_sequential {inv : CommandInvocationInitial} {c : CommandInvocationWithIOVars} {m : String}
    (h : PlainAround inv c m) {prog : Programs} {same : List FlagOptionWithIOVar → String → String → Bool}
    (hprog : UniqProgram prog same) :
    sequential prog c = fun x => separateGroups m (groups (same c.flagOptionList) x) := by
  funext z
  unfold sequential
  rw [h.belongs.1, h.hname, h.texts, hprog.group _ _ h.covered (argOf_given h.method) (by
    rintro ⟨n, hm, hg⟩
    refine h.others ⟨n, ?_, (has_iff_given h.belongs n).2 hg⟩
    simp only [List.mem_cons, List.not_mem_nil, or_false] at hm ⊢
    rcases hm with rfl | rfl | rfl | rfl | rfl | rfl <;> simp), h.method]
  rfl

/-- C56 for the methods of `--group` that put empty lines before, after or around groups: an execution, for any number
of parts and any order of joining, gives the output of uniq exactly when at most one part is not empty, that is, when
nothing is done in parallel. -/
theorem C56_group_exact (inv : CommandInvocationInitial) (c : CommandInvocationWithIOVars) (m : String)
    (h : PlainAround inv c m) (p : Parallelizer) (hp : Offered inv p) (prog : Programs)
    (same : List FlagOptionWithIOVar → String → String → Bool) (hprog : UniqProgram prog same) (x : Stream)
    (parts : List Stream) (hs : Split p.splitter x parts) (y : Stream) (he : Executes prog p c parts y) :
    y = sequential prog c x ↔ nonEmpty parts ≤ 1 := by
  have hoff := (uniq_offered h.hname (by
    rintro ⟨n, hm, hh⟩
    refine h.others ⟨n, ?_, hh⟩
    simp only [List.mem_cons, List.not_mem_nil, or_false] at hm ⊢
    rcases hm with rfl | rfl | rfl <;> simp) (fun hh => h.others ⟨"-c", by simp, hh⟩) p).1 hp
  have hplan : ∃ s, s ≠ .roundRobinUnwrapFlag ∧ p = plan s (.nonFunc .adjLinesSeq false) := by
    simp only [bothPlans, List.mem_cons, List.not_mem_nil, or_false] at hoff
    rcases hoff with rfl | rfl
    · exact ⟨.consecChunks, by simp, rfl⟩
    · exact ⟨.roundRobinPlain, by simp, rfl⟩
  obtain ⟨s, hne, rfl⟩ := hplan
  have hx : parts.flatten = x := by
    cases s
    case roundRobinUnwrapFlag => exact absurd rfl hne
    all_goals exact hs
  have hsp : Spliced (sequential prog c) (parts.map (sequential prog c)) y := by
    obtain ⟨runs, hparts, hr, hrec⟩ := he
    rw [runs_outputs h.stream rfl rfl hr, ← hparts] at hrec
    generalize parts.map (sequential prog c) = outs at hrec ⊢
    cases hrec with
    | concatenate hk => cases hk
    | tree hk => cases hk
    | adjacent _ h => exact h
  have hseq := around_sequential h hprog
  have hlen : ∀ z, z ≠ [] → (sequential prog c z).length =
      z.length + (groups (same c.flagOptionList) z).length + (if m = "both" then 1 else 0) := by
    intro z hz; rw [hseq]; exact around_length h.around _ z hz
  have h0 : sequential prog c [] = [] := by rw [hseq]; exact around_nil h.around _
  have hpos : ∀ l z, 0 < (groups (same c.flagOptionList) (l :: z)).length := by
    intro l z; obtain ⟨g, gs, e⟩ := groups_head (same c.flagOptionList) l z; rw [e]; simp
  obtain ⟨r0, r1, r2⟩ := spliced_longer h0 (by
      intro z hz e
      have := hlen z hz
      rw [e] at this
      have := List.length_pos_iff.2 hz
      simp at *; omega) (by
      intro l r
      rw [hlen _ (by simp)]
      have := hpos l [r]
      simp only [List.length_cons, List.length_nil]; omega) (by
      intro a b
      by_cases ha : a = []
      · subst ha; simp [h0]
      by_cases hb : b = []
      · subst hb; simp [h0]
      rw [hlen a ha, hlen b hb, hlen (a ++ b) (by simp [ha])]
      have := groups_subadd (same c.flagOptionList) a b
      simp only [List.length_append]; omega) hsp parts rfl
  rw [← hx]
  constructor
  · intro e
    false_or_by_contra
    have := r2 (by omega)
    rw [e] at this
    exact Nat.lt_irrefl _ this
  · intro hle
    by_cases h1 : nonEmpty parts = 1
    · exact (r1 h1).1
    · have hz : nonEmpty parts = 0 := by omega
      rw [r0 hz, nonEmpty_zero hz, h0]

example : ∃ inv, parse "uniq --group both x" = .ok inv ∧
    PlainAround inv (uniqSample [.optionVar 0 "--group" (.str "both")]) "both" ∧
    Offered inv (plan .consecChunks (.nonFunc .adjLinesSeq false)) ∧ UniqProgram uniqProgs (fun _ => (· == ·)) ∧
    (∃ y, Executes uniqProgs (plan .consecChunks (.nonFunc .adjLinesSeq false))
      (uniqSample [.optionVar 0 "--group" (.str "both")]) [["a"], [], ["b", "b"]] y) ∧
    nonEmpty [["a"], [], ["b", "b"]] = 2 := by
  have hc : OneStream (uniqSample [.optionVar 0 "--group" (.str "both")]) := uniqSample_ok _ (by simp [optionVar])
  exact ⟨⟨"uniq", [.option "--group" "both"], ["x"]⟩, by decide +kernel,
    ⟨rfl, by decide +kernel, by simp, by simp [Has], ⟨rfl, rfl⟩, by decide +kernel, hc, rfl⟩,
    (uniq_offered rfl (by simp [Has]) (by simp [Has]) _).2 (by simp [bothPlans]), uniqProgs_ok,
    C56_executable _ _ hc _ _ (by simp), by decide +kernel⟩

end PashAnn
