import Verif.Lemmas.Registry

/-!
C98: adding a command to the library. For every table of commands, every set of modules and every invocation: when the library
can be imported at all, whose answers are given, and what adding a command changes.
-/

namespace PashAnn.Registry
open Spec

/-- C98. The library can be imported exactly if for no registered command a module is there that raises something else than that
a module is missing, or that does not define the class with the expected name. -/
theorem C98_loads_exact {α : Type} (modules : Modules α) (table : List (String × String)) :
    (∃ ns, load modules table = .ok ns) ↔ ∀ kind ∈ kinds, ∀ name r, (name, r) ∈ table → Harmless modules (kind ++ r) := by
  unfold load
  rw [pairs_names, load_ok]
  constructor
  · intro h kind hk name r hm
    exact h _ ((mem_names hk).2 ⟨name, hm⟩)
  · intro h n hn
    rcases List.mem_append.1 hn with hn | hn
    · obtain ⟨e, he, rfl⟩ := List.mem_map.1 hn
      exact h ioPrefix (by simp [kinds_eq]) e.1 e.2 he
    · obtain ⟨e, he, rfl⟩ := List.mem_map.1 hn
      exact h parPrefix (by simp [kinds_eq]) e.1 e.2 he

/-- C98. The answer for a registered command is that of the class with the registered name, if there is one and it does not
raise; otherwise there is no answer. -/
theorem C98_answers_exact {α : Type} {modules : Modules α} {table : List (String × String)}
    (hd : (table.map Prod.fst).Nodup) {ns : Namespace α} (h : load modules table = .ok ns) {kind : String} (hk : kind ∈ kinds)
    (c : CommandInvocationInitial) {r : String} (hr : (c.cmdName, r) ∈ table) (i : α) :
    ask kind ns table c = some i ↔ ∃ g, Provides modules (kind ++ r) g ∧ g c = .ok i := by
  rw [ask_some, (lookup_mem hd _ _).2 hr]
  simp only [Option.getD_some, bound_iff h hk]
  constructor
  · rintro ⟨g, ⟨hg, _⟩, hi⟩; exact ⟨g, hg, hi⟩
  · rintro ⟨g, hg, hi⟩; exact ⟨g, ⟨hg, _, hr⟩, hi⟩

/-- C98. A command that is not registered gets no answer, unless some command is registered under the name `None`. -/
theorem C98_unknown {α : Type} {modules : Modules α} {table : List (String × String)} {ns : Namespace α}
    (h : load modules table = .ok ns) {kind : String} (hk : kind ∈ kinds) (c : CommandInvocationInitial)
    (hc : ∀ r, (c.cmdName, r) ∉ table) (hn : ∀ n, (n, "None") ∉ table) : ask kind ns table c = none := by
  cases ha : ask kind ns table c with
  | none => rfl
  | some i =>
      obtain ⟨g, hg, _⟩ := ask_some.1 ha
      have hl : table.lookup c.cmdName = none := by
        cases hl : table.lookup c.cmdName with
        | none => rfl
        | some r =>
            obtain ⟨a, b, he, _⟩ := List.lookup_eq_some_iff.1 hl
            exact absurd (he ▸ List.mem_append_right a (.head b)) (hc r)
      rw [hl] at hg
      obtain ⟨_, n, hn'⟩ := (bound_iff h hk _ _).1 hg
      exact absurd hn' (hn n)

/-- C98 (refuted without that exception). If a command is registered under the name `None`, its class answers for every command
that is not registered. -/
theorem C98_none_false {α : Type} {modules : Modules α} {table : List (String × String)} {ns : Namespace α}
    (h : load modules table = .ok ns) {kind : String} (hk : kind ∈ kinds) {n : String} (hn : (n, "None") ∈ table) {g : Class α}
    (hg : Provides modules (kind ++ "None") g) (c : CommandInvocationInitial) (hc : ∀ r, (c.cmdName, r) ∉ table) {i : α}
    (hi : g c = .ok i) : ask kind ns table c = some i := by
  have hl : table.lookup c.cmdName = none := by
    cases hl : table.lookup c.cmdName with
    | none => rfl
    | some r =>
        obtain ⟨a, b, he, _⟩ := List.lookup_eq_some_iff.1 hl
        exact absurd (he ▸ List.mem_append_right a (.head b)) (hc r)
  exact ask_some.2 ⟨g, by rw [hl]; exact (bound_iff h hk _ _).2 ⟨hg, n, hn⟩, hi⟩

/-- A module for the name `None`, and the answer for a command that nobody registered. -/
example : ∃ ns : Namespace Nat, load (fun m => if m = moduleOf "InputOutputInfoGeneratorNone" then
      .defines [("InputOutputInfoGeneratorNone", fun _ => .ok 1)] else .absent) [("n", "None")] = .ok ns ∧
    ask "InputOutputInfoGenerator" ns [("n", "None")] ⟨"zzz", [], []⟩ = some 1 := by
  have h := (C98_loads_exact (fun m => if m = moduleOf "InputOutputInfoGeneratorNone" then
      ModuleFile.defines [("InputOutputInfoGeneratorNone", fun _ => (.ok 1 : Py Nat))] else .absent) [("n", "None")]).2 (by
    intro kind hk name r hm
    simp only [List.mem_singleton, Prod.mk.injEq] at hm
    rw [hm.2]
    simp only [kinds, List.mem_cons, List.not_mem_nil, or_false] at hk
    rcases hk with rfl | rfl
    · exact .inr (.inr ⟨_, _, if_pos (by decide +kernel), by
        have : "InputOutputInfoGenerator" ++ "None" = "InputOutputInfoGeneratorNone" := by decide +kernel
        rw [this]; rfl⟩)
    · exact .inl (if_neg (by decide +kernel)))
  obtain ⟨ns, h⟩ := h
  exact ⟨ns, h, C98_none_false h (by simp [kinds]) (n := "n") (by simp) (g := fun _ => .ok 1)
    ⟨_, if_pos (by decide +kernel), by
      have : "InputOutputInfoGenerator" ++ "None" = "InputOutputInfoGeneratorNone" := by decide +kernel
      rw [this]; rfl⟩ _ (by simp) rfl⟩

/-- C98. Registering a new command under a new name, with modules for it that can be imported, changes no answer for another
command, and the new command is answered by its own classes. -/
theorem C98_adding {α : Type} {modules modules' : Modules α} {table : List (String × String)}
    (hd : (table.map Prod.fst).Nodup) {ns : Namespace α} (h : load modules table = .ok ns) {n r : String}
    (hn : ∀ q, (n, q) ∉ table) (hr : ∀ m, (m, r) ∉ table) (hnone : r ≠ "None")
    (hsame : ∀ m, (∀ kind ∈ kinds, m ≠ moduleOf (kind ++ r)) → modules' m = modules m)
    (hnew : ∀ kind ∈ kinds, Harmless modules' (kind ++ r)) :
    ∃ ns', load modules' (table ++ [(n, r)]) = .ok ns' ∧
      (∀ kind ∈ kinds, ∀ c, c.cmdName ≠ n → ask kind ns' (table ++ [(n, r)]) c = ask kind ns table c) ∧
      ∀ kind ∈ kinds, ∀ c, c.cmdName = n → ∀ i,
        (ask kind ns' (table ++ [(n, r)]) c = some i ↔ ∃ g, Provides modules' (kind ++ r) g ∧ g c = .ok i) := by
  have old : ∀ {kind q}, kind ∈ kinds → q ≠ r → modules' (moduleOf (kind ++ q)) = modules (moduleOf (kind ++ q)) := by
    intro kind q hk hq
    apply hsame
    intro kind' hk' e
    exact hq (kinds_apart hk hk' (moduleOf_inj e)).2
  have oldP : ∀ {kind q}, kind ∈ kinds → q ≠ r → ∀ g, Provides modules' (kind ++ q) g ↔ Provides modules (kind ++ q) g := by
    intro kind q hk hq g
    unfold Provides
    rw [old hk hq]
  have hload : ∃ ns', load modules' (table ++ [(n, r)]) = .ok ns' := by
    rw [C98_loads_exact]
    intro kind hk name q hm
    rcases List.mem_append.1 hm with hm | hm
    · have hq : q ≠ r := fun e => hr name (e ▸ hm)
      have := (C98_loads_exact modules table).1 ⟨ns, h⟩ kind hk name q hm
      unfold Harmless at this ⊢
      rw [old hk hq]
      simpa only [oldP hk hq] using this
    · simp only [List.mem_singleton, Prod.mk.injEq] at hm
      rw [hm.2]; exact hnew kind hk
  obtain ⟨ns', h'⟩ := hload
  have hd' : ((table ++ [(n, r)]).map Prod.fst).Nodup := by
    rw [List.map_append, List.nodup_append]
    refine ⟨hd, by simp, ?_⟩
    rintro a ha b hb rfl
    simp only [List.map_cons, List.map_nil, List.mem_singleton] at hb
    subst hb
    obtain ⟨e, he, rfl⟩ := List.mem_map.1 ha
    exact hn e.2 he
  refine ⟨ns', h', ?_, ?_⟩
  · intro kind hk c hc
    have hl : (table ++ [(n, r)]).lookup c.cmdName = table.lookup c.cmdName := by
      rw [List.lookup_append]
      have : (c.cmdName == n) = false := by simp [hc]
      cases table.lookup c.cmdName <;> simp [List.lookup_cons, this]
    have hq : (table.lookup c.cmdName).getD "None" ≠ r := by
      cases hx : table.lookup c.cmdName with
      | none => simpa using Ne.symm hnone
      | some q =>
          rintro e
          simp only [Option.getD_some] at e
          subst e
          exact hr _ ((lookup_mem hd _ _).1 hx)
    apply Option.ext
    intro i
    rw [ask_some, ask_some, hl]
    simp only [bound_iff h' hk, bound_iff h hk, oldP hk hq, List.mem_append, List.mem_singleton, Prod.mk.injEq, hq, and_false,
      or_false]
  · intro kind hk c hc i
    exact C98_answers_exact hd' h' hk c (List.mem_append_right _ (by simp [hc])) i

/-- C98. A class whose module needs something that is missing is left out without a word: its command gets no answer. -/
theorem C98_missing {α : Type} {modules : Modules α} {table : List (String × String)}
    (hd : (table.map Prod.fst).Nodup) {ns : Namespace α} (h : load modules table = .ok ns) {kind : String} (hk : kind ∈ kinds)
    (c : CommandInvocationInitial) {r : String} (hr : (c.cmdName, r) ∈ table)
    (hm : modules (moduleOf (kind ++ r)) = .absent ∨ modules (moduleOf (kind ++ r)) = .raises true) :
    ask kind ns table c = none := by
  cases ha : ask kind ns table c with
  | none => rfl
  | some i =>
      obtain ⟨g, ⟨l, hl, _⟩, _⟩ := (C98_answers_exact hd h hk c hr i).1 ha
      rw [hl] at hm
      simp at hm

/-- C98 (refuted for one name in the guide, docs/adding-annotations.md, Step 2). A file called `ParallelizabilityInfo` and the
name of the command is not looked at: whatever it defines, there is no parallelizability information for the command. -/
theorem C98_guide_false {α : Type} {modules modules' : Modules α} {table : List (String × String)}
    (hd : (table.map Prod.fst).Nodup) {n r : String} (hn : (n, r) ∈ table)
    (habs : modules (moduleOf ("ParallelizabilityInfoGenerator" ++ r)) = .absent)
    (hsame : ∀ m, m ≠ moduleOf ("ParallelizabilityInfo" ++ r) → modules' m = modules m) (hr : ∀ q, r ≠ "Generator" ++ q)
    {ns : Namespace α} (h : load modules' table = .ok ns) (c : CommandInvocationInitial) (hc : c.cmdName = n) :
    ask "ParallelizabilityInfoGenerator" ns table c = none := by
  refine C98_missing hd h (by simp [kinds]) c (r := r) (by rw [hc]; exact hn) (.inl ?_)
  rw [hsame, habs]
  intro e
  have := moduleOf_inj e
  have e2 : "ParallelizabilityInfoGenerator" ++ r = "ParallelizabilityInfo" ++ ("Generator" ++ r) := by
    apply String.toList_inj.1
    simp only [String.toList_append, ← List.append_assoc]
    congr 1
  rw [e2] at this
  exact hr r (append_inj_left this).symm

/-- The file name of the guide for its command `cat-wrapper`. -/
example : ∃ ns : Namespace Nat, load (fun m => if m = moduleOf "ParallelizabilityInfoCatWrapper" then
      .defines [("ParallelizabilityInfoGeneratorCatWrapper", fun _ => .ok 1)] else .absent) [("cat-wrapper", "CatWrapper")] = .ok ns ∧
    ask "ParallelizabilityInfoGenerator" ns [("cat-wrapper", "CatWrapper")] ⟨"cat-wrapper", [], []⟩ = none := by
  obtain ⟨ns, h⟩ := (C98_loads_exact (fun m => if m = moduleOf "ParallelizabilityInfoCatWrapper" then
      ModuleFile.defines [("ParallelizabilityInfoGeneratorCatWrapper", fun _ => (.ok 1 : Py Nat))] else .absent)
      [("cat-wrapper", "CatWrapper")]).2 (by
    intro kind hk name r hm
    simp only [List.mem_singleton, Prod.mk.injEq] at hm
    rw [hm.2]
    simp only [kinds, List.mem_cons, List.not_mem_nil, or_false] at hk
    rcases hk with rfl | rfl
    · exact .inl (if_neg (by decide +kernel))
    · exact .inl (if_neg (by decide +kernel)))
  exact ⟨ns, h, C98_guide_false (modules := fun _ => .absent) (by simp) (n := "cat-wrapper") (r := "CatWrapper") (by simp) rfl
    (fun m hm => if_neg (by intro e; exact hm (by rw [e]; decide +kernel)))
    (fun q e => by
      have := congrArg (fun s : String => s.toList.head?) e
      simp only [String.toList_append] at this
      have h1 : "Generator".toList = 'G' :: "enerator".toList := by decide +kernel
      have h2 : "CatWrapper".toList = 'C' :: "atWrapper".toList := by decide +kernel
      rw [h1, h2] at this
      simp at this) h _ rfl⟩

theorem lookup_map_inj {α β : Type} (f : String → String) (hf : ∀ a b, f a = f b → a = b) (F : String → α → β)
    (l : List (String × α)) (k : String) : (l.map fun e => (f e.1, F e.1 e.2)).lookup (f k) = (l.lookup k).map (F k) := by
  induction l with
  | nil => rfl
  | cons e l ih =>
      obtain ⟨a, x⟩ := e
      by_cases h : k = a
      · subst h; simp
      · have h1 : (k == a) = false := by simp [h]
        have h2 : (f k == f a) = false := by
          simp only [beq_eq_false_iff_ne, ne_eq]; exact fun e => h (hf _ _ e)
        simp only [List.map_cons, List.lookup_cons, h1, h2, ih]

theorem lookup_map_none {α β : Type} (f : String → String) (F : String → α → β) (l : List (String × α)) (k : String)
    (h : ∀ a, f a ≠ k) : (l.map fun e => (f e.1, F e.1 e.2)).lookup k = none := by
  induction l with
  | nil => rfl
  | cons e l ih =>
      have h2 : (k == f e.1) = false := by simp only [beq_eq_false_iff_ne, ne_eq]; exact fun x => h _ x.symm
      simp only [List.map_cons, List.lookup_cons, h2, ih]

theorem package_kind (pre r : String) : package ++ pre ++ r = moduleOf (pre ++ r) := String.append_assoc

theorem shipped_io (r : String) : shipped (moduleOf (ioPrefix ++ r)) = match ioGeneratorClasses.lookup r with
    | none => .absent
    | some g => .defines [(ioPrefix ++ r, ioClass g)] := by
  unfold shipped shippedFiles
  rw [← package_kind]
  have hi : ∀ a b, package ++ ioPrefix ++ a = package ++ ioPrefix ++ b → a = b := fun a b h => append_inj_left h
  have hn : ∀ a, package ++ parPrefix ++ a ≠ package ++ ioPrefix ++ r := by
    intro a h
    rw [package_kind, package_kind] at h
    have := (kinds_apart (by simp [kinds_eq]) (by simp [kinds_eq]) (moduleOf_inj h)).1
    revert this; decide +kernel
  rw [List.lookup_append,
    lookup_map_inj (fun a => package ++ ioPrefix ++ a) hi (fun a g => (ioPrefix ++ a, ioClass g)),
    lookup_map_none (fun a => package ++ parPrefix ++ a) (fun a g => (parPrefix ++ a, parClass g)) _ _ hn]
  cases ioGeneratorClasses.lookup r <;> rfl

theorem shipped_par (r : String) : shipped (moduleOf (parPrefix ++ r)) = match parGeneratorClasses.lookup r with
    | none => .absent
    | some g => .defines [(parPrefix ++ r, parClass g)] := by
  unfold shipped shippedFiles
  rw [← package_kind]
  have hi : ∀ a b, package ++ parPrefix ++ a = package ++ parPrefix ++ b → a = b := fun a b h => append_inj_left h
  have hn : ∀ a, package ++ ioPrefix ++ a ≠ package ++ parPrefix ++ r := by
    intro a h
    rw [package_kind, package_kind] at h
    have := (kinds_apart (by simp [kinds_eq]) (by simp [kinds_eq]) (moduleOf_inj h)).1
    revert this; decide +kernel
  rw [List.lookup_append,
    lookup_map_none (fun a => package ++ ioPrefix ++ a) (fun a g => (ioPrefix ++ a, ioClass g)) _ _ hn,
    lookup_map_inj (fun a => package ++ parPrefix ++ a) hi (fun a g => (parPrefix ++ a, parClass g))]
  cases parGeneratorClasses.lookup r <;> rfl

theorem commandDict_nodup : (commandDict.map Prod.fst).Nodup := by decide +kernel

theorem commandRepr_eq (n : String) : commandRepr n = (commandDict.lookup n).getD "None" := by
  have hr : (commandDict.reverse.map Prod.fst).Nodup := by decide +kernel
  have : dictGet? commandDict n = commandDict.lookup n := by
    apply Option.ext
    intro r
    rw [dictGet?, lookup_mem hr, lookup_mem commandDict_nodup, List.mem_reverse]
  unfold commandRepr
  rw [this]
  cases commandDict.lookup n <;> rfl

/-- C98. The library with the table and the modules that are shipped can be imported, and asking it is asking the generators. -/
theorem C98_shipped : ∃ ns, load shipped commandDict = .ok ns ∧ ∀ c,
    ask "InputOutputInfoGenerator" ns commandDict c = (getInputOutputInfo c).map Sum.inl ∧
    ask "ParallelizabilityInfoGenerator" ns commandDict c = (getParallelizabilityInfo c).map Sum.inr := by
  have hio : ∀ r g, Provides shipped (ioPrefix ++ r) g ↔ ∃ gen, ioGeneratorClasses.lookup r = some gen ∧
      g = ioClass gen := by
    intro r g
    unfold Provides
    rw [shipped_io]
    cases ioGeneratorClasses.lookup r with
    | none => simp
    | some gen =>
        constructor
        · rintro ⟨_, ⟨⟩, h2⟩
          simp only [List.lookup_cons, beq_self_eq_true, Option.some.injEq] at h2
          exact ⟨gen, rfl, h2.symm⟩
        · rintro ⟨_, ⟨⟩, rfl⟩
          exact ⟨_, rfl, by simp only [List.lookup_cons, beq_self_eq_true]⟩
  have hpar : ∀ r g, Provides shipped (parPrefix ++ r) g ↔ ∃ gen, parGeneratorClasses.lookup r = some gen ∧
      g = parClass gen := by
    intro r g
    unfold Provides
    rw [shipped_par]
    cases parGeneratorClasses.lookup r with
    | none => simp
    | some gen =>
        constructor
        · rintro ⟨_, ⟨⟩, h2⟩
          simp only [List.lookup_cons, beq_self_eq_true, Option.some.injEq] at h2
          exact ⟨gen, rfl, h2.symm⟩
        · rintro ⟨_, ⟨⟩, rfl⟩
          exact ⟨_, rfl, by simp only [List.lookup_cons, beq_self_eq_true]⟩
  have hload : ∃ ns, load shipped commandDict = .ok ns := by
    rw [C98_loads_exact]
    intro kind hk name r _
    simp only [kinds_eq, List.mem_cons, List.not_mem_nil, or_false] at hk
    unfold Harmless
    rcases hk with rfl | rfl
    · simp only [hio]
      rw [shipped_io]
      cases ioGeneratorClasses.lookup r with
      | none => exact .inl rfl
      | some g => exact .inr (.inr ⟨_, g, rfl, rfl⟩)
    · simp only [hpar]
      rw [shipped_par]
      cases parGeneratorClasses.lookup r with
      | none => exact .inl rfl
      | some g => exact .inr (.inr ⟨_, g, rfl, rfl⟩)
  obtain ⟨ns, h⟩ := hload
  -- every class that is shipped is registered
  have hregio : ∀ r gen, ioGeneratorClasses.lookup r = some gen → ∃ n, (n, r) ∈ commandDict := by
    intro r gen hg
    obtain ⟨a, b, he, _⟩ := List.lookup_eq_some_iff.1 hg
    have hm : r ∈ ioGeneratorClasses.map Prod.fst := by rw [he]; simp
    have key : ∀ r ∈ ioGeneratorClasses.map Prod.fst, r ∈ commandDict.map Prod.snd := by decide +kernel
    obtain ⟨e, hmem, rfl⟩ := List.mem_map.1 (key r hm)
    exact ⟨e.1, hmem⟩
  have hregpar : ∀ r gen, parGeneratorClasses.lookup r = some gen → ∃ n, (n, r) ∈ commandDict := by
    intro r gen hg
    obtain ⟨a, b, he, _⟩ := List.lookup_eq_some_iff.1 hg
    have hm : r ∈ parGeneratorClasses.map Prod.fst := by rw [he]; simp
    have key : ∀ r ∈ parGeneratorClasses.map Prod.fst, r ∈ commandDict.map Prod.snd := by decide +kernel
    obtain ⟨e, hmem, rfl⟩ := List.mem_map.1 (key r hm)
    exact ⟨e.1, hmem⟩
  refine ⟨ns, h, fun c => ⟨?_, ?_⟩⟩
  · apply Option.ext
    intro i
    show ask ioPrefix ns commandDict c = some i ↔ _
    rw [ask_some, ← commandRepr_eq]
    simp only [bound_iff h (show ioPrefix ∈ kinds by simp [kinds_eq]), hio]
    unfold getInputOutputInfo tryInputOutputInfo
    cases hg : ioGeneratorClasses.lookup (commandRepr c.cmdName) with
    | none => simp
    | some gen =>
        have hreg := hregio _ _ hg
        simp only [Option.some.injEq, exists_eq_left', hreg, and_true, exists_eq_left]
        unfold ioClass
        cases initialInfo c with
        | error x => simp [bind, Except.bind]
        | ok j =>
            simp only [bind, Except.bind]
            cases gen c j with
            | error x => simp [Except.map]
            | ok k => simp [Except.map]
  · apply Option.ext
    intro i
    show ask parPrefix ns commandDict c = some i ↔ _
    rw [ask_some, ← commandRepr_eq]
    simp only [bound_iff h (show parPrefix ∈ kinds by simp [kinds_eq]), hpar]
    unfold getParallelizabilityInfo tryParallelizabilityInfo
    cases hg : parGeneratorClasses.lookup (commandRepr c.cmdName) with
    | none => simp
    | some gen =>
        have hreg := hregpar _ _ hg
        simp only [Option.some.injEq, exists_eq_left', hreg, and_true, exists_eq_left]
        unfold parClass
        cases gen c with
        | error x => simp [Except.map]
        | ok k => simp [Except.map]

/-- Registering the command `cat-wrapper` of the guide in the shipped library, with a class that knows nothing about it. -/
example : ∃ ns ns', load shipped commandDict = .ok ns ∧
    load (fun m => if m = moduleOf "InputOutputInfoGeneratorCatWrapper" then
        .defines [("InputOutputInfoGeneratorCatWrapper", fun _ => .error .notImplementedError)] else shipped m)
      (commandDict ++ [("cat-wrapper", "CatWrapper")]) = .ok ns' ∧
    ∀ c, c.cmdName ≠ "cat-wrapper" → ask "InputOutputInfoGenerator" ns' (commandDict ++ [("cat-wrapper", "CatWrapper")]) c =
      (getInputOutputInfo c).map Sum.inl := by
  obtain ⟨ns, h, ha⟩ := C98_shipped
  have hn : ∀ q, ("cat-wrapper", q) ∉ commandDict := by
    intro q hq
    have : "cat-wrapper" ∈ commandDict.map Prod.fst := List.mem_map.2 ⟨_, hq, rfl⟩
    revert this; decide +kernel
  have hr : ∀ m, (m, "CatWrapper") ∉ commandDict := by
    intro m hm
    have : "CatWrapper" ∈ commandDict.map Prod.snd := List.mem_map.2 ⟨_, hm, rfl⟩
    revert this; decide +kernel
  have e1 : ioPrefix ++ "CatWrapper" = "InputOutputInfoGeneratorCatWrapper" := by decide +kernel
  have e2 : moduleOf (parPrefix ++ "CatWrapper") ≠ moduleOf "InputOutputInfoGeneratorCatWrapper" := by decide +kernel
  obtain ⟨ns', h', ho, _⟩ := C98_adding (modules' := fun m => if m = moduleOf "InputOutputInfoGeneratorCatWrapper" then
        .defines [("InputOutputInfoGeneratorCatWrapper", fun _ => .error .notImplementedError)] else shipped m)
    commandDict_nodup h hn hr (by decide) (by
      intro m hm
      have := hm ioPrefix (by simp [kinds_eq])
      rw [e1] at this
      exact if_neg this) (by
      intro kind hk
      simp only [kinds_eq, List.mem_cons, List.not_mem_nil, or_false] at hk
      rcases hk with rfl | rfl
      · rw [e1]
        exact .inr (.inr ⟨_, _, if_pos rfl, rfl⟩)
      · left
        have hx : parGeneratorClasses.lookup "CatWrapper" = none := by
          rw [List.lookup_eq_none_iff]
          have key : ∀ r ∈ parGeneratorClasses.map Prod.fst, ("CatWrapper" == r) = false := by decide +kernel
          intro p hp
          exact by simpa using key p.1 (List.mem_map.2 ⟨p, hp, rfl⟩)
        show (if _ then _ else shipped _) = _
        rw [if_neg e2, shipped_par, hx])
  exact ⟨ns, ns', h, h', fun c hc => by
    rw [← (ha c).1]; exact ho "InputOutputInfoGenerator" (by simp [kinds]) c hc⟩

/-- C98 (refuted for the functions in config/definitions.py). They never give the classes: for every table with a command in it,
and for both kinds, an exception is raised. -/
theorem C98_definitions_false (kind : String) (hk : kind ∈ kinds) (table : List (String × String)) (h : table ≠ []) :
    generatorModules kind table = .error .attributeError := by
  have hno : ∀ r, strToClass (kind ++ r) = .error .attributeError := by
    intro r
    unfold strToClass
    rw [if_neg]
    have key : ∀ kind ∈ kinds, ∀ n ∈ definitionsNames, kind.toList.isPrefixOf n.toList = false := by decide +kernel
    intro hm
    have := key kind hk _ hm
    rw [String.toList_append] at this
    have h2 : kind.toList.isPrefixOf (kind.toList ++ r.toList) = true := List.isPrefixOf_iff_prefix.2 (List.prefix_append _ _)
    rw [h2] at this; cases this
  cases table with
  | nil => exact absurd rfl h
  | cons e table =>
      unfold generatorModules
      rw [List.mapM_cons, hno]
      rfl

/-- C98 (refuted for the lists of files in config/definitions.py). For every table they name the right classes, one for each command
in the order of the table, but every one in a module that is not there. -/
theorem C98_files_false (kind : String) (table : List (String × String)) :
    (fileAndModuleNames kind table).map Prod.snd = table.map (fun e => kind ++ e.2) ∧
    ∀ p ∈ fileAndModuleNames kind table, p.1 ≠ moduleOf p.2 ∧ shipped p.1 = .absent := by
  refine ⟨by simp [fileAndModuleNames], fun p hp => ?_⟩
  obtain ⟨e, _, rfl⟩ := List.mem_map.1 hp
  have hhead : ∀ x y : String, "annotation_generation.annotation_generators" ++ "." ++ kind ++ x ≠ package ++ y := by
    intro x y he
    have := congrArg (fun s => s.toList.head?) he
    simp only [String.toList_append, package] at this
    revert this
    simp
  refine ⟨hhead _ _, ?_⟩
  have hl : shippedFiles.lookup ("annotation_generation.annotation_generators" ++ "." ++ kind ++ e.2) = none := by
    rw [List.lookup_eq_none_iff]
    intro q hq
    have : ∃ y, q.1 = package ++ y := by
      unfold shippedFiles at hq
      rcases List.mem_append.1 hq with h | h <;> obtain ⟨r, _, rfl⟩ := List.mem_map.1 h <;>
        exact ⟨_, String.append_assoc ..⟩
    obtain ⟨y, hy⟩ := this
    rw [hy]
    simpa using hhead e.2 y
  unfold shipped
  simp only [hl]

/-- The table there is not empty; two commands of the library are not in it, and the names of the modules are others. -/
example : definitionsTable ≠ [] ∧ (∀ e ∈ definitionsTable, e ∈ commandDict) ∧
    commandDict.filter (· ∉ definitionsTable) = [("awk", "Awk"), ("wc", "Wc")] ∧
    ∀ p ∈ fileAndModuleNames ioPrefix definitionsTable, p ∉ pairs ioPrefix commandDict := by decide +kernel

end PashAnn.Registry
