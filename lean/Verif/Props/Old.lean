import Verif.Spec.Old
import Verif.Props.ParTable
import Verif.Props.Runs

/-! C110: the parallelizers that are offered and the classes of the older annotations. -/

namespace PashAnn
open Spec

theorem given_holds {inv : CommandInvocationInitial} {names : List String} :
    (OldPredicate.given names).holds inv = true ↔ HasAny inv names := by
  unfold OldPredicate.holds HasAny Has
  simp only [List.any_eq_true, beq_iff_eq]
  constructor
  · rintro ⟨n, hn, f, hf, rfl⟩
    refine ⟨_, hn, ?_⟩
    cases f with
    | flag m => exact .inl hf
    | option m a => exact .inr ⟨a, hf⟩
  · rintro ⟨n, hn, h | ⟨a, h⟩⟩
    · exact ⟨n, hn, _, h, rfl⟩
    · exact ⟨n, hn, _, h, rfl⟩

theorem value_holds {inv : CommandInvocationInitial} {names : List String} {v : String} :
    (OldPredicate.value names v).holds inv = true ↔ ∃ n ∈ names, .option n v ∈ inv.flagOptionList := by
  unfold OldPredicate.holds
  simp only [List.any_eq_true, decide_eq_true_eq]
  constructor
  · rintro ⟨n, hn, f, hf, rfl⟩; exact ⟨n, hn, hf⟩
  · rintro ⟨n, hn, hf⟩; exact ⟨n, hn, _, hf, rfl⟩

theorem arguments_holds {inv : CommandInvocationInitial} {n : Nat} :
    (OldPredicate.arguments n).holds inv = true ↔ inv.operandList.length = n := by
  unfold OldPredicate.holds; exact beq_iff_eq

theorem OldPredicate.holds_both {inv : CommandInvocationInitial} {p q : OldPredicate} :
    (OldPredicate.both p q).holds inv = true ↔ p.holds inv = true ∧ q.holds inv = true := by
  rw [OldPredicate.holds, Bool.and_eq_true]

/-- The only file about a command. -/
theorem oldSays_of {inv : CommandInvocationInitial} {k : OldClass} {a : OldAnnotation}
    (h : oldAnnotations.filter (fun a => a.command == inv.cmdName) = [a]) :
    OldSays inv k ↔ ∃ c, a.case inv = some c ∧ c.cls = k := by
  have hm : ∀ b, b ∈ oldAnnotations ∧ b.command = inv.cmdName ↔ b = a := by
    intro b
    rw [← List.mem_singleton (a := b) (b := a), ← h, List.mem_filter, beq_iff_eq]
  constructor
  · rintro ⟨b, hb, hn, hc⟩
    rw [← (hm b).1 ⟨hb, hn⟩]; exact hc
  · intro hc
    obtain ⟨h1, h2⟩ := (hm a).2 rfl
    exact ⟨a, h1, h2, hc⟩

theorem case_cons {p k g m b s cs cmd} {inv : CommandInvocationInitial} {q : OldClass} :
    (∃ c, (OldAnnotation.mk cmd (⟨p, k, g, m, b, s⟩ :: cs)).case inv = some c ∧ c.cls = q) ↔
      (p.holds inv = true ∧ q = k) ∨ (¬ p.holds inv = true ∧ ∃ c, (OldAnnotation.mk cmd cs).case inv = some c ∧ c.cls = q) := by
  unfold OldAnnotation.case
  by_cases h : p.holds inv = true
  · simp [List.find?, h, eq_comm]
  · simp [List.find?, h]

theorem case_otherwise {k g m b s cs cmd} {inv : CommandInvocationInitial} {q : OldClass} :
    (∃ c, (OldAnnotation.mk cmd (⟨.otherwise, k, g, m, b, s⟩ :: cs)).case inv = some c ∧ c.cls = q) ↔ q = k := by
  unfold OldAnnotation.case
  simp [List.find?, OldPredicate.holds, eq_comm]

/-- C110, the older classes of the commands that have parallelizers: what the files say. -/
theorem C110_classes (inv : CommandInvocationInitial) (k : OldClass) :
    (inv.cmdName ∈ ["col", "custom_tr", "set_diff", "xargs"] → (OldSays inv k ↔ k = .stateless)) ∧
    (inv.cmdName ∈ ["alt_bigrams_aux", "bigrams_aux", "test_one", "test_two"] → (OldSays inv k ↔ k = .parallelizablePure)) ∧
    (inv.cmdName ∈ ["sed", "uniq"] → (OldSays inv k ↔ k = .pureOnly)) ∧
    (inv.cmdName ∈ ["sort", "custom_sort"] →
      (OldSays inv k ↔ (HasAny inv ["-m"] ∧ k = .pureOnly) ∨ (¬ HasAny inv ["-m"] ∧ k = .parallelizablePure))) ∧
    (inv.cmdName ∈ ["cut"] → (OldSays inv k ↔
      (((∃ n ∈ ["-d", "--delimiter"], .option n "\n" ∈ inv.flagOptionList) ∧ HasAny inv ["-f", "--fields"]) ∧ k = .pureOnly) ∨
      (¬ ((∃ n ∈ ["-d", "--delimiter"], .option n "\n" ∈ inv.flagOptionList) ∧ HasAny inv ["-f", "--fields"]) ∧ k = .stateless))) ∧
    (inv.cmdName ∈ ["tr"] → (OldSays inv k ↔ (HasAny inv ["-d", "--delete"] ∧ k = .stateless) ∨ (¬ HasAny inv ["-d", "--delete"] ∧
      ((HasAny inv ["-s", "--squeeze-repeats"] ∧ k = .pureOnly) ∨ (¬ HasAny inv ["-s", "--squeeze-repeats"] ∧ k = .stateless))))) ∧
    (inv.cmdName ∈ ["grep"] → (OldSays inv k ↔ (HasAny inv ["-c"] ∧ k = .pureOnly) ∨ (¬ HasAny inv ["-c"] ∧
      ((inv.operandList.length = 1 ∧ k = .stateless) ∨ (¬ inv.operandList.length = 1 ∧
        ((HasAny inv ["-r", "--recursive", "-R", "--dereference-recursive"] ∧ k = .sideEffectful) ∨
         (¬ HasAny inv ["-r", "--recursive", "-R", "--dereference-recursive"] ∧ k = .stateless))))))) := by
  refine ⟨?_, ?_, ?_, ?_, ?_, ?_, ?_⟩ <;> intro h <;> simp only [List.mem_cons, List.not_mem_nil, or_false] at h
  · rcases h with h | h | h | h <;> rw [oldSays_of (by rw [h]; rfl)]
    · exact case_otherwise
    · exact case_otherwise
    · exact case_otherwise
    · rw [case_cons, case_otherwise]; by_cases hv : (OldPredicate.value ["-L"] "1").holds inv = true <;> simp [hv]
  · rcases h with h | h | h | h <;> rw [oldSays_of (by rw [h]; rfl)] <;> exact case_otherwise
  · rcases h with h | h <;> rw [oldSays_of (by rw [h]; rfl)] <;> exact case_otherwise
  · rcases h with h | h <;> rw [oldSays_of (by rw [h]; rfl), case_cons, case_otherwise, given_holds]
  · rw [oldSays_of (by rw [h]; rfl), case_cons, case_otherwise]
    simp only [OldPredicate.holds_both, given_holds, value_holds]
  · rw [oldSays_of (by rw [h]; rfl), case_cons, case_cons, case_otherwise, given_holds, given_holds]
  · rw [oldSays_of (by rw [h]; rfl), case_cons, case_cons, case_cons, case_otherwise, given_holds, given_holds, arguments_holds]

theorem any_offered {inv : CommandInvocationInitial} :
    (∃ p, Offered inv p) ↔ ∃ plans comm, Offers inv plans comm ∧ plans ≠ [] := by
  constructor
  · rintro ⟨p, h⟩
    obtain ⟨i, hi, hp⟩ := offered_iff.1 h
    obtain ⟨plans, comm, ho, hpl, -, -⟩ := (C64_table _ _).1 hi
    refine ⟨plans, comm, ho, ?_⟩
    rintro rfl
    rcases hp with hp | ⟨_, q, hq, _⟩
    · rw [hpl] at hp; cases hp
    · rw [hpl] at hq; cases hq
  · rintro ⟨plans, comm, ho, hne⟩
    obtain ⟨p, hp⟩ := List.exists_mem_of_ne_nil _ hne
    exact ⟨p, offered_of ho hp⟩

theorem conc_offered {inv : CommandInvocationInitial} :
    (∃ p, Offered inv p ∧ p.coreAggregatorSpec.kind = .concatenate) ↔
      ∃ plans comm, Offers inv plans comm ∧ ∃ p ∈ plans, p.coreAggregatorSpec.kind = .concatenate := by
  constructor
  · rintro ⟨p, h, hk⟩
    obtain ⟨i, hi, hp⟩ := offered_iff.1 h
    obtain ⟨plans, comm, ho, hpl, -, -⟩ := (C64_table _ _).1 hi
    refine ⟨plans, comm, ho, ?_⟩
    rcases hp with hp | ⟨_, q, hq, _, rfl⟩
    · exact ⟨p, hpl ▸ hp, hk⟩
    · exact ⟨q, hpl ▸ hq, hk⟩
  · rintro ⟨plans, comm, ho, p, hp, hk⟩
    exact ⟨p, offered_of ho hp, hk⟩

theorem hasAny_one {inv : CommandInvocationInitial} {n : String} : HasAny inv [n] ↔ Has inv n := by
  simp [HasAny]

/-- The names of flags and options of `tr` in parsed lines are the short ones. -/
theorem tr_short {s : String} {inv : CommandInvocationInitial} (h : parse s = .ok inv) (hn : inv.cmdName = "tr") :
    ∀ n ∈ ["--delete", "--squeeze-repeats"], ¬ Has inv n := by
  obtain ⟨name, ws, d, hs, hp, hd, rfl⟩ := parse_ok h
  have hn : name = "tr" := hn
  subst hn
  have hd' : d = Data.d_tr := databaseFor_unique hd (databaseFor_table (by decide +kernel))
  subst hd'
  have key : ∀ {ws fs ops}, Derives Data.d_tr ws fs ops → ∀ f ∈ fs, f.getName ∉ ["--delete", "--squeeze-repeats"] := by
    intro ws fs ops h
    induction h with
    | done | operands => simp
    | flag h1 h2 h3 _ ih =>
        intro f hf
        rcases List.mem_cons.1 hf with rfl | hf
        · obtain ⟨g, hg, hh⟩ := canonical_head h2 h3
          intro hc
          have : ∀ g ∈ flagGroups Data.d_tr, ∀ p ∈ g.head?, p ∉ ["--delete", "--squeeze-repeats"] := by decide +kernel
          exact this g hg _ hh hc
        · exact ih f hf
    | option h1 h2 h3 =>
        have : optionGroups Data.d_tr = [] := by decide +kernel
        obtain ⟨g, hg, _⟩ := h3
        rw [this] at hg; cases hg
    | cluster h1 h2 h3 _ ih =>
        intro f hf
        rcases List.mem_append.1 hf with hf | hf
        · obtain ⟨c, hc, rfl⟩ := List.mem_map.1 hf
          intro hm
          have : (String.ofList ['-', c]).toList.length = 2 := by simp
          simp only [FlagOption.getName, List.mem_cons, List.not_mem_nil, or_false] at hm
          rcases hm with hm | hm <;> rw [hm] at this <;> exact absurd this (by decide)
        · exact ih f hf
  intro n hn' hh
  rcases hh with hh | ⟨a, hh⟩
  · exact key (derives_parseLoop _ ws) _ hh hn'
  · exact key (derives_parseLoop _ ws) _ hh hn'

theorem bolder_name {inv : CommandInvocationInitial} (h : Bolder inv) : inv.cmdName ∈ ["uniq", "sed", "cut", "tr", "grep"] := by
  cases h <;> simp [*]

theorem shyer_name {inv : CommandInvocationInitial} (h : Shyer inv) : inv.cmdName ∈ ["tr", "grep", "sort", "custom_sort"] := by
  cases h with
  | sort h =>
      simp only [List.mem_cons, List.not_mem_nil, or_false] at h
      rcases h with h | h <;> simp [h]
  | _ => simp [*]

/-- C110, exactly: where the library and an older file are about the same command, what is offered fits the older class
except in the listed cases. -/
theorem C110_exact {s : String} {inv : CommandInvocationInitial} (hp : parse s = .ok inv) (hn : inv.cmdName ∈ parCommands)
    {k : OldClass} (hk : OldSays inv k) : FitsClass inv k ↔ ¬ Bolder inv ∧ ¬ Shyer inv := by
  obtain ⟨c1, c2, c3, c4, c5, c6, c7⟩ := C110_classes inv k
  simp only [parCommands, List.mem_cons, List.not_mem_nil, or_false] at hn
  have notB : inv.cmdName ∉ ["uniq", "sed", "cut", "tr", "grep"] → ¬ Bolder inv := fun h hb => h (bolder_name hb)
  have notS : inv.cmdName ∉ ["tr", "grep", "sort", "custom_sort"] → ¬ Shyer inv := fun h hb => h (shyer_name hb)
  have simple : inv.cmdName ∈ ["col", "custom_tr", "set_diff", "xargs", "alt_bigrams_aux", "bigrams_aux", "test_one", "test_two"] →
      ¬ Bolder inv ∧ ¬ Shyer inv := by
    intro h
    simp only [List.mem_cons, List.not_mem_nil, or_false] at h
    refine ⟨notB ?_, notS ?_⟩ <;> rcases h with h | h | h | h | h | h | h | h <;> rw [h] <;> decide
  have sorting : inv.cmdName ∈ ["sort", "custom_sort"] → (FitsClass inv k ↔ ¬ Bolder inv ∧ ¬ Shyer inv) := by
    intro h
    have hb : ¬ Bolder inv := by
      apply notB
      simp only [List.mem_cons, List.not_mem_nil, or_false] at h
      rcases h with h | h <;> rw [h] <;> decide
    have hsh : Shyer inv ↔ ¬ Has inv "-m" ∧ HasAny inv ["-c", "-C", "-u", "-z", "-R", "-s", "--files0-from", "--random-source"] := by
      constructor
      · intro hh
        cases hh with
        | sort _ h1 h2 => exact ⟨h1, h2⟩
        | trDelete h' | trNothing h' | grep h' => rw [h'] at h; exact absurd h (by decide)
      · rintro ⟨h1, h2⟩; exact .sort h h1 h2
    have hof : (∃ p, Offered inv p) ↔ ¬ HasAny inv sortStops := by
      rw [any_offered]
      constructor
      · rintro ⟨plans, comm, ho, hne⟩ hx
        have := (C64_unambiguous _ _ _ _ _ ho (.sortStop h hx)).1
        exact hne this
      · intro hx; exact ⟨_, _, .sort h hx, by simp⟩
    have hst : HasAny inv sortStops ↔ Has inv "-m" ∨ HasAny inv ["-c", "-C", "-u", "-z", "-R", "-s", "--files0-from", "--random-source"] := by
      simp only [HasAny, sortStops, List.mem_cons, List.not_mem_nil, or_false, or_and_right, exists_or, exists_eq_left]
      grind
    rcases (c4 h).1 hk with ⟨hm, rfl⟩ | ⟨hm, rfl⟩ <;> rw [hasAny_one] at hm
    · refine iff_of_true (fun hf => hof.1 hf (hst.2 (.inl hm))) ⟨hb, fun hf => (hsh.1 hf).1 hm⟩
    · show (∃ p, Offered inv p) ↔ _
      rw [hof, hst, hsh]
      simp [hb, hm]
  rcases hn with h | h | h | h | h | h | h | h | h | h | h | h | h | h | h
  · refine iff_of_true ?_ (simple (by simp [h]))
    rw [(c2 (by simp [h])).1 hk]
    exact any_offered.2 ⟨_, _, .altBigrams h, by simp⟩
  · refine iff_of_true ?_ (simple (by simp [h]))
    rw [(c2 (by simp [h])).1 hk]
    exact any_offered.2 ⟨_, _, .bigrams h, by simp⟩
  · refine iff_of_true ?_ (simple (by simp [h]))
    rw [(c1 (by simp [h])).1 hk]
    exact conc_offered.2 ⟨_, _, .conc (by simp [h]), _, List.mem_cons_self, rfl⟩
  · exact sorting (by simp [h])
  · refine iff_of_true ?_ (simple (by simp [h]))
    rw [(c1 (by simp [h])).1 hk]
    exact conc_offered.2 ⟨_, _, .conc (by simp [h]), _, List.mem_cons_self, rfl⟩
  · -- cut
    have hs : ¬ Shyer inv := notS (by rw [h]; decide)
    rcases (c5 (by simp [h])).1 hk with ⟨hx, rfl⟩ | ⟨hx, rfl⟩
    · exact iff_of_false (fun hf => hf (any_offered.2 ⟨_, _, .conc (by simp [h]), by simp [bothPlans]⟩)) (fun hf => hf.1 (.cut h hx.1 hx.2))
    · refine iff_of_true (conc_offered.2 ⟨_, _, .conc (by simp [h]), _, List.mem_cons_self, rfl⟩) ⟨?_, hs⟩
      intro hb
      cases hb with
      | cut _ h1 h2 => exact hx ⟨h1, h2⟩
      | uniq h' | sed h' | trSqueeze h' | grepCount h' | grepRecursive h' => rw [h] at h'; exact absurd h' (by decide)
  · -- grep
    have hB : Bolder inv ↔ (Has inv "-c" ∧ ¬ Has inv "-q" ∧ HasAny inv ["-A", "-B", "-C", "-m"]) ∨
        (¬ Has inv "-c" ∧ inv.operandList.length ≠ 1 ∧ HasAny inv ["-r", "--recursive", "-R", "--dereference-recursive"] ∧
          ¬ Has inv "-q" ∧ (HasAny inv ["-A", "-B", "-C", "-m"] ∨ ¬ HasAny inv ["-L", "-l", "-n", "-b"])) := by
      constructor
      · intro hb
        cases hb with
        | grepCount _ h1 h2 h3 => exact .inl ⟨h1, h2, h3⟩
        | grepRecursive _ h1 h2 h3 h4 h5 => exact .inr ⟨h1, h2, h3, h4, h5⟩
        | uniq h' | sed h' | cut h' | trSqueeze h' => rw [h] at h'; exact absurd h' (by decide)
      · rintro (⟨h1, h2, h3⟩ | ⟨h1, h2, h3, h4, h5⟩)
        · exact .grepCount h h1 h2 h3
        · exact .grepRecursive h h1 h2 h3 h4 h5
    have hS : Shyer inv ↔ ¬ Has inv "-c" ∧
        (inv.operandList.length = 1 ∨ ¬ HasAny inv ["-r", "--recursive", "-R", "--dereference-recursive"]) ∧
        (Has inv "-q" ∨ (¬ HasAny inv ["-A", "-B", "-C", "-m"] ∧ HasAny inv ["-L", "-l", "-n", "-b"])) := by
      constructor
      · intro hb
        cases hb with
        | grep _ h1 h2 h3 => exact ⟨h1, h2, h3⟩
        | trDelete h' | trNothing h' => rw [h] at h'; exact absurd h' (by decide)
        | sort h' => rw [h] at h'; exact absurd h' (by decide)
      · rintro ⟨h1, h2, h3⟩; exact .grep h h1 h2 h3
    have hC : HasAny inv ["-L", "-l", "-c", "-n", "-b"] ↔ Has inv "-c" ∨ HasAny inv ["-L", "-l", "-n", "-b"] := by
      simp only [HasAny, List.mem_cons, List.not_mem_nil, or_false, or_and_right, exists_or, exists_eq_left]
      grind
    have stop : Has inv "-q" ∨ (¬ HasAny inv ["-A", "-B", "-C", "-m"] ∧ HasAny inv ["-L", "-l", "-c", "-n", "-b"]) →
        ¬ ∃ p, Offered inv p := by
      intro hx hf
      obtain ⟨plans, comm, ho, hne⟩ := any_offered.1 hf
      exact hne (C64_unambiguous _ _ _ _ _ ho (.grepStop h hx)).1
    have go : ¬ (Has inv "-q" ∨ (¬ HasAny inv ["-A", "-B", "-C", "-m"] ∧ HasAny inv ["-L", "-l", "-c", "-n", "-b"])) →
        ∃ p, Offered inv p ∧ p.coreAggregatorSpec.kind = .concatenate := by
      intro hx
      refine conc_offered.2 ⟨_, _, .grep h (fun hq => hx (.inl hq)) ?_, _, List.mem_cons_self, rfl⟩
      grind
    have hany : (∃ p, Offered inv p) ↔
        ¬ (Has inv "-q" ∨ (¬ HasAny inv ["-A", "-B", "-C", "-m"] ∧ HasAny inv ["-L", "-l", "-c", "-n", "-b"])) :=
      ⟨fun hf hx => stop hx hf, fun hx => (go hx).imp fun _ hh => hh.1⟩
    have hconc : (∃ p, Offered inv p ∧ p.coreAggregatorSpec.kind = .concatenate) ↔
        ¬ (Has inv "-q" ∨ (¬ HasAny inv ["-A", "-B", "-C", "-m"] ∧ HasAny inv ["-L", "-l", "-c", "-n", "-b"])) :=
      ⟨fun hf hx => stop hx (hf.imp fun _ hh => hh.1), go⟩
    have hk := (c7 (by simp [h])).1 hk
    rw [hasAny_one] at hk
    rw [hC] at hany hconc
    rw [hB, hS]
    rcases hk with ⟨hc, rfl⟩ | ⟨hc, ⟨hl, rfl⟩ | ⟨hl, ⟨hr, rfl⟩ | ⟨hr, rfl⟩⟩⟩
    · show ¬ (∃ p, Offered inv p) ↔ _
      rw [hany]; grind
    · show (∃ p, Offered inv p ∧ p.coreAggregatorSpec.kind = .concatenate) ↔ _
      rw [hconc]; grind
    · show ¬ (∃ p, Offered inv p) ↔ _
      rw [hany]; grind
    · show (∃ p, Offered inv p ∧ p.coreAggregatorSpec.kind = .concatenate) ↔ _
      rw [hconc]; grind
  · -- sed
    rw [(c3 (by simp [h])).1 hk]
    have hS : ¬ Shyer inv := notS (by rw [h]; decide)
    show ¬ (∃ p, Offered inv p) ↔ _
    rw [any_offered]
    constructor
    · intro hx
      refine ⟨fun hb => ?_, hS⟩
      cases hb with
      | sed _ h1 h2 => exact hx ⟨_, _, .sed h h1 h2, by simp [bothPlans]⟩
      | uniq h' | cut h' | trSqueeze h' | grepCount h' | grepRecursive h' => rw [h] at h'; exact absurd h' (by decide)
    · rintro ⟨hb, -⟩ ⟨plans, comm, ho, hne⟩
      cases ho with
      | sed h' h1 h2 => exact hb (.sed h' h1 h2)
      | sedStop | sortStop | grepStop | uniqStop => exact hne rfl
      | conc h' | test h' | sort h' => rw [h] at h'; exact absurd h' (by decide)
      | setDiff h' | altBigrams h' | bigrams h' | grep h' | tr h' | trSets h' | trDelete h' | trSqueeze h' | uniq h' | uniqCount h' =>
          rw [h] at h'; exact absurd h' (by decide)
  · refine iff_of_true ?_ (simple (by simp [h]))
    rw [(c1 (by simp [h])).1 hk]
    exact conc_offered.2 ⟨_, _, .setDiff h, _, List.mem_cons_self, rfl⟩
  · exact sorting (by simp [h])
  · refine iff_of_true ?_ (simple (by simp [h]))
    rw [(c2 (by simp [h])).1 hk]
    exact any_offered.2 ⟨_, _, .test (by simp [h]), by simp⟩
  · refine iff_of_true ?_ (simple (by simp [h]))
    rw [(c2 (by simp [h])).1 hk]
    exact any_offered.2 ⟨_, _, .test (by simp [h]), by simp⟩
  · -- tr
    have short := tr_short hp h
    have hd : HasAny inv ["-d", "--delete"] ↔ Has inv "-d" := by
      simp only [HasAny, List.mem_cons, List.not_mem_nil, or_false, or_and_right, exists_or, exists_eq_left]
      exact ⟨fun hh => hh.resolve_right (short _ (by simp)), .inl⟩
    have hsq : HasAny inv ["-s", "--squeeze-repeats"] ↔ Has inv "-s" := by
      simp only [HasAny, List.mem_cons, List.not_mem_nil, or_false, or_and_right, exists_or, exists_eq_left]
      exact ⟨fun hh => hh.resolve_right (short _ (by simp)), .inl⟩
    have hB : Bolder inv ↔ ¬ Has inv "-d" ∧ Has inv "-s" ∧ inv.operandList ≠ [] := by
      constructor
      · intro hb
        cases hb with
        | trSqueeze _ h1 h2 h3 => exact ⟨h1, h2, h3⟩
        | uniq h' | sed h' | cut h' | grepCount h' | grepRecursive h' => rw [h] at h'; exact absurd h' (by decide)
      · rintro ⟨h1, h2, h3⟩; exact .trSqueeze h h1 h2 h3
    have hS : Shyer inv ↔ Has inv "-d" ∧ (inv.operandList = [] ∨ ∃ os o, inv.operandList = os ++ [o] ∧ LastSetHasNewline inv os o) := by
      constructor
      · intro hb
        cases hb with
        | trDelete _ h1 h2 h3 => exact ⟨h1, .inr ⟨_, _, h2, h3⟩⟩
        | trNothing _ h1 h2 => exact ⟨h1, .inl h2⟩
        | grep h' => rw [h] at h'; exact absurd h' (by decide)
        | sort h' => rw [h] at h'; exact absurd h' (by decide)
      · rintro ⟨h1, h2 | ⟨os, o, h2, h3⟩⟩
        · exact .trNothing h h1 h2
        · exact .trDelete h h1 h2 h3
    have last : inv.operandList = [] ∨ ∃ os o, inv.operandList = os ++ [o] := by
      simpa using List.eq_nil_or_concat inv.operandList
    have hnone : inv.operandList = [] → Has inv "-d" ∨ Has inv "-s" → ¬ ∃ p, Offered inv p := by
      intro he hx hf
      obtain ⟨plans, comm, ho, hne⟩ := any_offered.1 hf
      cases ho with
      | tr h' h1 h2 => exact hx.elim h1 h2
      | trSets _ _ h3 | trDelete _ _ h3 | trSqueeze _ _ _ h3 => rw [he] at h3; simp at h3
      | sedStop | sortStop | grepStop | uniqStop => exact hne rfl
      | conc h' | test h' | sort h' => rw [h] at h'; exact absurd h' (by decide)
      | setDiff h' | altBigrams h' | bigrams h' | grep h' | sed h' | uniq h' | uniqCount h' =>
          rw [h] at h'; exact absurd h' (by decide)
    have hk := (c6 (by simp [h])).1 hk
    rw [hd, hsq] at hk
    rw [hB, hS]
    rcases hk with ⟨hd', rfl⟩ | ⟨hd', ⟨hs', rfl⟩ | ⟨hs', rfl⟩⟩
    · show (∃ p, Offered inv p ∧ p.coreAggregatorSpec.kind = .concatenate) ↔ _
      rcases last with he | ⟨os, o, he⟩
      · exact iff_of_false (fun hf => hnone he (.inl hd') (hf.imp fun _ hh => hh.1)) (fun hf => hf.2 ⟨hd', .inl he⟩)
      · by_cases hl : LastSetHasNewline inv os o
        · refine iff_of_false ?_ (fun hf => hf.2 ⟨hd', .inr ⟨os, o, he, hl⟩⟩)
          intro hf
          obtain ⟨plans, comm, ho, p, hp, hk⟩ := conc_offered.1 hf
          rw [(C64_unambiguous _ _ _ _ _ ho (.trDelete h hd' he hl)).1] at hp
          simp only [bothPlans, List.mem_cons, List.not_mem_nil, or_false] at hp
          rcases hp with rfl | rfl <;> cases hk
        · refine iff_of_true (conc_offered.2 ⟨_, _, .trSets h (.inl hd') he hl, _, List.mem_cons_self, rfl⟩)
            ⟨fun hh => hh.1 hd', ?_⟩
          rintro ⟨-, h2 | ⟨os', o', h2, h3⟩⟩
          · rw [he] at h2; simp at h2
          · rw [he] at h2
            obtain ⟨rfl, e⟩ := List.append_inj' h2 rfl
            cases e
            exact hl h3
    · show ¬ (∃ p, Offered inv p) ↔ _
      rcases last with he | ⟨os, o, he⟩
      · exact iff_of_true (hnone he (.inr hs')) ⟨fun hh => hh.2.2 he, fun hh => hd' hh.1⟩
      · refine iff_of_false (fun hf => hf (any_offered.2 ?_)) (fun hh => hh.1 ⟨hd', hs', by rw [he]; simp⟩)
        by_cases hl : LastSetHasNewline inv os o
        · exact ⟨_, _, .trSqueeze h hd' hs' he hl, by simp [bothPlans]⟩
        · exact ⟨_, _, .trSets h (.inr hs') he hl, by simp [bothPlans]⟩
    · exact iff_of_true (conc_offered.2 ⟨_, _, .tr h hd' hs', _, List.mem_cons_self, rfl⟩)
        ⟨fun hh => hs' hh.2.1, fun hh => hd' hh.1⟩
  · -- uniq
    rw [(c3 (by simp [h])).1 hk]
    have hS : ¬ Shyer inv := notS (by rw [h]; decide)
    show ¬ (∃ p, Offered inv p) ↔ _
    rw [any_offered]
    by_cases hx : HasAny inv ["-d", "-D", "--all-repeated"]
    · refine iff_of_true ?_ ⟨fun hb => ?_, hS⟩
      · rintro ⟨plans, comm, ho, hne⟩
        exact hne (C64_unambiguous _ _ _ _ _ ho (.uniqStop h hx)).1
      · cases hb with
        | uniq _ h1 => exact h1 hx
        | sed h' | cut h' | trSqueeze h' | grepCount h' | grepRecursive h' => rw [h] at h'; exact absurd h' (by decide)
    · refine iff_of_false (fun hf => hf ?_) (fun hf => hf.1 (.uniq h hx))
      by_cases hc : Has inv "-c"
      · exact ⟨_, _, .uniqCount h hx hc, by simp [bothPlans]⟩
      · exact ⟨_, _, .uniq h hx hc, by simp [bothPlans]⟩
  · refine iff_of_true ?_ (simple (by simp [h]))
    rw [(c1 (by simp [h])).1 hk]
    exact conc_offered.2 ⟨_, _, .conc (by simp [h]), _, List.mem_cons_self, rfl⟩

/-- What is offered for the commands of the class `parallelizable_pure`. -/
theorem custom_offered {inv : CommandInvocationInitial} {p : Parallelizer} (h : Offered inv p) :
    (inv.cmdName ∈ ["sort", "custom_sort"] → p.coreAggregatorSpec = mergeSorted ∧ p.coreMapperSpec = sameCommand ∧
      p.infoMapperAggregator = 0) ∧
    (inv.cmdName ∈ ["test_one", "test_two"] → p.coreAggregatorSpec = .funcString .customNAry "runtime/agg/opt/concat.sh" false) ∧
    (inv.cmdName = "alt_bigrams_aux" → p.coreAggregatorSpec = .funcString .custom2Ary "alt_bigram_aux_reduce" true) ∧
    (inv.cmdName = "bigrams_aux" → p.coreAggregatorSpec = .funcString .custom2Ary "bigram_aux_reduce" true ∧
      p.coreMapperSpec.specMapperCmdName = some "bigram_aux_map" ∧ p.infoMapperAggregator = 2) := by
  obtain ⟨i, hi, hp⟩ := offered_iff.1 h
  obtain ⟨plans, comm, ho, hpl, -, -⟩ := (C64_table _ _).1 hi
  obtain ⟨q, hq, e1, e2, e3⟩ : ∃ q ∈ plans, p.coreAggregatorSpec = q.coreAggregatorSpec ∧ p.coreMapperSpec = q.coreMapperSpec ∧
      p.infoMapperAggregator = q.infoMapperAggregator := by
    rcases hp with hp | ⟨_, q, hq, _, rfl⟩
    · exact ⟨p, hpl ▸ hp, rfl, rfl, rfl⟩
    · exact ⟨q, hpl ▸ hq, rfl, rfl, rfl⟩
  rw [e1, e2, e3]
  refine ⟨fun hn => ?_, fun hn => ?_, fun hn => ?_, fun hn => ?_⟩
  · by_cases hx : HasAny inv sortStops
    · rw [(C64_unambiguous _ _ _ _ _ ho (.sortStop hn hx)).1] at hq; cases hq
    · rw [(C64_unambiguous _ _ _ _ _ ho (.sort hn hx)).1, List.mem_singleton] at hq
      subst hq; exact ⟨rfl, rfl, rfl⟩
  · rw [(C64_unambiguous _ _ _ _ _ ho (.test hn)).1, List.mem_singleton] at hq
    subst hq; rfl
  · rw [(C64_unambiguous _ _ _ _ _ ho (.altBigrams hn)).1, List.mem_singleton] at hq
    subst hq; rfl
  · rw [(C64_unambiguous _ _ _ _ _ ho (.bigrams hn)).1, List.mem_singleton] at hq
    subst hq; exact ⟨rfl, rfl, rfl⟩

/-- C110 for the commands that recombine: an older file and an offered parallelizer name the same command for it, except for
`custom_sort` and `test_two`, and the same mapper with as many outputs. -/
theorem C110_aggregators {inv : CommandInvocationInitial} {p : Parallelizer} (h : Offered inv p) {a : OldAnnotation}
    (ha : a ∈ oldAnnotations) (hn : a.command = inv.cmdName) {c : OldCase} (hc : a.case inv = some c) {cmd : String}
    {opts : List String} (hg : c.aggregator = some (cmd, opts)) :
    (recombiner inv p.coreAggregatorSpec = some cmd ↔ inv.cmdName ∉ ["custom_sort", "test_two"]) ∧
    (opts = [] ∨ opts = ["-m"] ∧ p.coreAggregatorSpec = mergeSorted) ∧
    ∀ m n, c.mapper = some (m, n) → p.coreMapperSpec.specMapperCmdName = some m ∧ p.infoMapperAggregator + 1 = n := by
  have hfind : c ∈ a.cases := by
    unfold OldAnnotation.case at hc; exact List.mem_of_find?_eq_some hc
  have table : ∀ a ∈ oldAnnotations, ∀ c ∈ a.cases, ∀ g, c.aggregator = some g →
      (a.command, g, c.mapper) ∈ [("alt_bigrams_aux", ("alt_bigram_aux_reduce", []), none),
        ("bigrams_aux", ("bigram_aux_reduce", []), some ("bigram_aux_map", 3)), ("custom_sort", ("sort", ["-m"]), none),
        ("sort", ("sort", ["-m"]), none), ("test_one", ("runtime/agg/opt/concat.sh", []), none),
        ("test_two", ("runtime/agg/py/cat.py", []), none), ("test_uniq_1", ("runtime/agg/bin/uniq", []), none),
        ("test_uniq_2", ("runtime/agg/bin/uniq", ["-c"]), none)] := by
    intro a ha c hc
    have key : ∀ a ∈ oldAnnotations, ∀ c ∈ a.cases, ∀ g ∈ c.aggregator,
      (a.command, g, c.mapper) ∈ [("alt_bigrams_aux", ("alt_bigram_aux_reduce", []), none),
        ("bigrams_aux", ("bigram_aux_reduce", []), some ("bigram_aux_map", 3)), ("custom_sort", ("sort", ["-m"]), none),
        ("sort", ("sort", ["-m"]), none), ("test_one", ("runtime/agg/opt/concat.sh", []), none),
        ("test_two", ("runtime/agg/py/cat.py", []), none), ("test_uniq_1", ("runtime/agg/bin/uniq", []), none),
        ("test_uniq_2", ("runtime/agg/bin/uniq", ["-c"]), none)] := by decide +kernel
    exact fun g hg => key a ha c hc g hg
  have ht := table a ha c hfind _ hg
  obtain ⟨o1, o2, o3, o4⟩ := custom_offered h
  have hpar := (offered_facts h).1
  simp only [List.mem_cons, List.not_mem_nil, or_false, Prod.mk.injEq] at ht
  rw [hn] at ht
  rcases ht with ⟨h1, ⟨rfl, rfl⟩, h3⟩ | ⟨h1, ⟨rfl, rfl⟩, h3⟩ | ⟨h1, ⟨rfl, rfl⟩, h3⟩ | ⟨h1, ⟨rfl, rfl⟩, h3⟩ | ⟨h1, ⟨rfl, rfl⟩, h3⟩ |
    ⟨h1, ⟨rfl, rfl⟩, h3⟩ | ⟨h1, ⟨rfl, rfl⟩, h3⟩ | ⟨h1, ⟨rfl, rfl⟩, h3⟩
  · rw [o3 h1, h3, h1]; exact ⟨by simp [recombiner], .inl rfl, by simp⟩
  · rw [(o4 h1).1, (o4 h1).2.1, (o4 h1).2.2, h3, h1]
    refine ⟨by simp [recombiner], .inl rfl, ?_⟩
    intro m n e; cases e; exact ⟨rfl, rfl⟩
  · rw [(o1 (by simp [h1])).1, h3]
    refine ⟨?_, .inr ⟨rfl, rfl⟩, by simp⟩
    simp [recombiner, mergeSorted, h1]
  · rw [(o1 (by simp [h1])).1, h3]
    refine ⟨?_, .inr ⟨rfl, rfl⟩, by simp⟩
    simp [recombiner, mergeSorted, h1]
  · rw [o2 (by simp [h1]), h3, h1]; exact ⟨by simp [recombiner], .inl rfl, by simp⟩
  · rw [o2 (by simp [h1]), h3, h1]; exact ⟨by simp [recombiner], .inl rfl, by simp⟩
  · rw [h1] at hpar; exact absurd hpar (by decide)
  · rw [h1] at hpar; exact absurd hpar (by decide)

/-- C110 for the other commands: the library offers nothing for commands that have no parallelizability generator, also where an
older file calls them stateless. -/
theorem C110_missing (inv : CommandInvocationInitial) (hn : inv.cmdName ∉ parCommands) (k : OldClass) :
    FitsClass inv k ↔ k = .pureOnly ∨ k = .sideEffectful := by
  have : ¬ ∃ p, Offered inv p := fun ⟨p, h⟩ => hn (offered_facts h).1
  cases k
  · exact iff_of_false (fun ⟨p, h, _⟩ => this ⟨p, h⟩) (by simp)
  · exact iff_of_false this (by simp)
  · exact iff_of_true this (by simp)
  · exact iff_of_true this (by simp)

/-- C110 is false of the code: `cut -d '\n' -f 1` is split although the older file forbids it, and for `grep -n a` and `cat` nothing
is offered although the older files call them stateless. -/
theorem C110_false : ∃ cut grep cat k k' k'', parse "cut -d '\n' -f 1" = .ok cut ∧ parse "grep -n a" = .ok grep ∧ parse "cat" = .ok cat ∧
    OldSays cut k ∧ OldSays grep k' ∧ OldSays cat k'' ∧ ¬ FitsClass cut k ∧ ¬ FitsClass grep k' ∧ ¬ FitsClass cat k'' := by
  refine ⟨⟨"cut", [.option "-d" "\n", .option "-f" "1"], []⟩, ⟨"grep", [.flag "-n"], ["a"]⟩, ⟨"cat", [], []⟩,
    .pureOnly, .stateless, .stateless, by decide +kernel, by decide +kernel, by decide +kernel, ?_, ?_, ?_, ?_, ?_, ?_⟩
  · exact ((C110_classes _ _).2.2.2.2.1 (by simp)).2 (.inl ⟨by unfold HasAny; decide +kernel, rfl⟩)
  · exact ((C110_classes _ _).2.2.2.2.2.2 (by simp)).2 (.inr ⟨by unfold HasAny; decide +kernel, .inl ⟨rfl, rfl⟩⟩)
  · refine (oldSays_of rfl).2 ⟨_, rfl, rfl⟩
  · rw [C110_exact (s := "cut -d '\n' -f 1") (by decide +kernel) (by decide)
      (((C110_classes _ _).2.2.2.2.1 (by simp)).2 (.inl ⟨by unfold HasAny; decide +kernel, rfl⟩))]
    exact fun hh => hh.1 (.cut rfl (by decide +kernel) (by unfold HasAny; decide +kernel))
  · rw [C110_exact (s := "grep -n a") (by decide +kernel) (by decide)
      (((C110_classes _ _).2.2.2.2.2.2 (by simp)).2 (.inr ⟨by unfold HasAny; decide +kernel, .inl ⟨rfl, rfl⟩⟩))]
    exact fun hh => hh.2 (.grep rfl (by decide +kernel) (.inl rfl) (.inr (by unfold HasAny; decide +kernel)))
  · rw [C110_missing _ (by decide)]
    simp

/-- `sort -r f` is an invocation for which the library and the older file agree. -/
example : ∃ inv, parse "sort -r f" = .ok inv ∧ inv.cmdName ∈ parCommands ∧ OldSays inv .parallelizablePure ∧
    FitsClass inv .parallelizablePure := by
  refine ⟨⟨"sort", [.flag "-r"], ["f"]⟩, by decide +kernel, by decide, ?_, ?_⟩
  · exact ((C110_classes _ _).2.2.2.1 (by simp)).2 (.inr ⟨by unfold HasAny; decide +kernel, rfl⟩)
  · exact ⟨_, offered_of (.sort (by simp) (by unfold HasAny; decide +kernel)) List.mem_cons_self⟩

end PashAnn
