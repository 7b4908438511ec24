import Verif.Spec.Registry

/-! Lemmas for C98. -/

namespace PashAnn.Registry
open Spec

theorem append_inj_left {a b c : String} (h : a ++ b = a ++ c) : b = c := by
  have := congrArg String.toList h
  rw [String.toList_append, String.toList_append] at this
  exact String.toList_inj.1 (List.append_cancel_left this)

theorem moduleOf_inj {m n : String} (h : moduleOf m = moduleOf n) : m = n := append_inj_left h

theorem kinds_eq : kinds = [ioPrefix, parPrefix] := rfl

theorem kinds_apart {pre pre' r r' : String} (hp : pre ∈ kinds) (hp' : pre' ∈ kinds) (h : pre ++ r = pre' ++ r') :
    pre = pre' ∧ r = r' := by
  have hh := congrArg (fun s => s.toList.head?) h
  simp only [String.toList_append] at hh
  simp only [kinds, List.mem_cons, List.not_mem_nil, or_false] at hp hp'
  have e1 : "InputOutputInfoGenerator".toList = 'I' :: "nputOutputInfoGenerator".toList := by decide +kernel
  have e2 : "ParallelizabilityInfoGenerator".toList = 'P' :: "arallelizabilityInfoGenerator".toList := by decide +kernel
  rcases hp with rfl | rfl <;> rcases hp' with rfl | rfl
  · exact ⟨rfl, append_inj_left h⟩
  · rw [e1, e2] at hh; simp at hh
  · rw [e1, e2] at hh; simp at hh
  · exact ⟨rfl, append_inj_left h⟩

/-- The pairs as a list of names. -/
theorem pairs_eq (pre : String) (table : List (String × String)) :
    pairs pre table = (table.map fun e => pre ++ e.2).map fun n => (moduleOf n, n) := by
  unfold pairs
  rw [List.map_map]
  apply List.map_congr_left
  intro e _
  have : package ++ pre ++ e.2 = package ++ (pre ++ e.2) := String.append_assoc
  show (package ++ pre ++ e.2, pre ++ e.2) = (package ++ (pre ++ e.2), pre ++ e.2)
  rw [this]

theorem importOne_ok {α : Type} (modules : Modules α) (ns : Namespace α) (n : String) :
    (∃ ns', importOne modules ns (moduleOf n, n) = .ok ns') ↔ Harmless modules n := by
  unfold importOne Harmless Provides
  cases h : modules (moduleOf n) with
  | absent => simp
  | raises b => cases b <;> simp
  | defines names =>
      cases h2 : names.lookup n with
      | none => simp [h2]
      | some g => simp [h2]

theorem importOne_lookup {α : Type} {modules : Modules α} {ns ns' : Namespace α} {n : String}
    (h : importOne modules ns (moduleOf n, n) = .ok ns') (m : String) (g : Class α) :
    ns'.lookup m = some g ↔ (m = n ∧ Provides modules n g) ∨ ((m ≠ n ∨ ¬ ∃ g', Provides modules n g') ∧ ns.lookup m = some g) := by
  unfold importOne at h
  unfold Provides
  cases hm : modules (moduleOf n) with
  | absent => rw [hm] at h; cases h; simp
  | raises b =>
      rw [hm] at h
      cases b with
      | true => cases h; simp
      | false => cases h
  | defines names =>
      rw [hm] at h
      cases h2 : names.lookup n with
      | none => simp only [h2] at h; cases h
      | some g' =>
          simp only [h2] at h
          cases h
          by_cases e : m = n
          · subst e
            simp [h2]
          · have : (m == n) = false := by simp [e]
            simp [List.lookup_cons, this, e]

/-- Importing a list of names. -/
theorem load_ok {α : Type} (modules : Modules α) (names : List String) (ns : Namespace α) :
    (∃ ns', (names.map fun n => (moduleOf n, n)).foldlM (importOne modules) ns = .ok ns') ↔ ∀ n ∈ names, Harmless modules n := by
  induction names generalizing ns with
  | nil => simp [pure, Except.pure]
  | cons n names ih =>
      rw [List.map_cons, List.foldlM_cons]
      have h1 := importOne_ok modules ns n
      cases h : importOne modules ns (moduleOf n, n) with
      | error u =>
          constructor
          · rintro ⟨ns', h'⟩; cases h'
          · intro h'
            obtain ⟨ns', e⟩ := h1.2 (h' n (.head _))
            rw [h] at e; cases e
      | ok ns1 =>
          show (∃ ns', List.foldlM _ ns1 _ = _) ↔ _
          rw [ih ns1]
          have := h1.1 ⟨ns1, h⟩
          simp [this]

theorem load_lookup {α : Type} {modules : Modules α} (names : List String) {ns ns' : Namespace α}
    (h : (names.map fun n => (moduleOf n, n)).foldlM (importOne modules) ns = .ok ns')
    (hns : ∀ m g, ns.lookup m = some g → Provides modules m g) (m : String) (g : Class α) :
    ns'.lookup m = some g ↔ Provides modules m g ∧ (m ∈ names ∨ ns.lookup m = some g) := by
  have unique : ∀ {m g g'}, Provides modules m g → Provides modules m g' → g = g' := by
    rintro m g g' ⟨l, h1, h2⟩ ⟨l', h1', h2'⟩
    rw [h1] at h1'; cases h1'
    rw [h2] at h2'; cases h2'; rfl
  induction names generalizing ns with
  | nil =>
      cases h
      constructor
      · intro h; exact ⟨hns _ _ h, .inr h⟩
      · rintro ⟨_, h | h⟩
        · cases h
        · exact h
  | cons n names ih =>
      rw [List.map_cons, List.foldlM_cons] at h
      cases h1 : importOne modules ns (moduleOf n, n) with
      | error u => rw [h1] at h; cases h
      | ok ns1 =>
          rw [h1] at h
          have hl := importOne_lookup h1
          have hns1 : ∀ m g, ns1.lookup m = some g → Provides modules m g := by
            intro m g hm
            rcases (hl m g).1 hm with ⟨rfl, hp⟩ | ⟨_, hm⟩
            · exact hp
            · exact hns _ _ hm
          have hi : ns'.lookup m = some g ↔ Provides modules m g ∧ (m ∈ names ∨ ns1.lookup m = some g) := ih h hns1
          rw [hi, hl]
          constructor
          · rintro ⟨hp, hm | ⟨rfl, _⟩ | ⟨_, hm⟩⟩
            · exact ⟨hp, .inl (.tail _ hm)⟩
            · exact ⟨hp, .inl (.head _)⟩
            · exact ⟨hp, .inr hm⟩
          · rintro ⟨hp, hm | hm⟩
            · rcases List.mem_cons.1 hm with rfl | hm
              · exact ⟨hp, .inr (.inl ⟨rfl, hp⟩)⟩
              · exact ⟨hp, .inl hm⟩
            · by_cases e : m = n
              · subst e; exact ⟨hp, .inr (.inl ⟨rfl, hp⟩)⟩
              · exact ⟨hp, .inr (.inr ⟨.inl e, hm⟩)⟩

theorem pairs_names (table : List (String × String)) : pairs ioPrefix table ++ pairs parPrefix table =
    ((table.map fun e => ioPrefix ++ e.2) ++ table.map fun e => parPrefix ++ e.2).map fun n => (moduleOf n, n) := by
  rw [pairs_eq, pairs_eq, List.map_append]

theorem mem_names {table : List (String × String)} {pre r : String} (hp : pre ∈ kinds) :
    pre ++ r ∈ ((table.map fun e => ioPrefix ++ e.2) ++ table.map fun e => parPrefix ++ e.2) ↔ ∃ n, (n, r) ∈ table := by
  rw [List.mem_append, List.mem_map, List.mem_map]
  constructor
  · rintro (⟨e, he, h⟩ | ⟨e, he, h⟩)
    · exact ⟨e.1, (kinds_apart (by simp [kinds_eq]) hp h).2 ▸ he⟩
    · exact ⟨e.1, (kinds_apart (by simp [kinds_eq]) hp h).2 ▸ he⟩
  · rintro ⟨n, hn⟩
    simp only [kinds_eq, List.mem_cons, List.not_mem_nil, or_false] at hp
    rcases hp with rfl | rfl
    · exact .inl ⟨(n, r), hn, rfl⟩
    · exact .inr ⟨(n, r), hn, rfl⟩

/-- What is bound after the loop. -/
theorem bound_iff {α : Type} {modules : Modules α} {table : List (String × String)} {ns : Namespace α}
    (h : load modules table = .ok ns) {pre : String} (hp : pre ∈ kinds) (r : String) (g : Class α) :
    ns.lookup (pre ++ r) = some g ↔ Provides modules (pre ++ r) g ∧ ∃ n, (n, r) ∈ table := by
  unfold load at h
  rw [pairs_names] at h
  rw [load_lookup _ h (by simp), mem_names hp]
  simp

theorem lookup_mem {table : List (String × String)} (hd : (table.map Prod.fst).Nodup) (n r : String) :
    table.lookup n = some r ↔ (n, r) ∈ table := by
  induction table with
  | nil => simp
  | cons e table ih =>
      obtain ⟨m, q⟩ := e
      simp only [List.map_cons, List.nodup_cons] at hd
      by_cases h : n = m
      · subst h
        simp only [List.lookup_cons, beq_self_eq_true, Option.some.injEq, List.mem_cons, Prod.mk.injEq, true_and]
        constructor
        · intro h; exact .inl h.symm
        · rintro (h | h)
          · exact h.symm
          · exact absurd (List.mem_map.2 ⟨_, h, rfl⟩) hd.1
      · have : (n == m) = false := by simp [h]
        simp [List.lookup_cons, this, ih hd.2, h]

theorem ask_some {α : Type} {ns : Namespace α} {table : List (String × String)} {pre : String} {c : CommandInvocationInitial}
    {i : α} : ask pre ns table c = some i ↔
      ∃ g, ns.lookup (pre ++ (table.lookup c.cmdName).getD "None") = some g ∧ g c = .ok i := by
  unfold ask
  cases h : ns.lookup (pre ++ (table.lookup c.cmdName).getD "None") with
  | none => simp
  | some g =>
      cases h2 : g c with
      | ok i' => simp [h2]
      | error x => simp [h2]

end PashAnn.Registry
