import Verif.Model.Transformers

/-! Properties C50 (transformers of flag lists) and C51 (deduplication). -/

namespace PashAnn

/-- C50. Same-as-sequential is the identity; empty and custom ignore the original. -/
theorem C50_constant (l l' : List FlagOptionWithIOVar) :
    Transformer.seq.apply l = l ∧ Transformer.empty.apply l = [] ∧ (Transformer.custom l').apply l = l' := by
  refine ⟨?_, ?_, ?_⟩ <;> simp [Transformer.apply]

/-- C50. Remove and filter keep a sublist, by name, and every element goes to exactly one of them. -/
theorem C50_remove_filter (names : List String) (l : List FlagOptionWithIOVar) :
    ((Transformer.remove names).apply l).Sublist l ∧ ((Transformer.filter names).apply l).Sublist l ∧
    (∀ x ∈ (Transformer.remove names).apply l, x.getName ∉ names) ∧
    (∀ x ∈ (Transformer.filter names).apply l, x.getName ∈ names) ∧
    ((Transformer.filter names).apply l ++ (Transformer.remove names).apply l).Perm l := by
  simp only [Transformer.apply]
  refine ⟨List.filter_sublist, List.filter_sublist, fun x hx => by simpa using (List.mem_filter.1 hx).2,
    fun x hx => by simpa using (List.mem_filter.1 hx).2, ?_⟩
  have : l.filter (fun x => decide (x.getName ∉ names)) = l.filter (fun x => !decide (x.getName ∈ names)) := by
    apply List.filter_congr; intro x _; simp
  rw [this]
  exact List.filter_append_perm _ l

example : (Transformer.remove ["-r"]).apply [.flag "-r", .optionVar 0 "-k" (.str "1"), .flag "-n"] =
    [.optionVar 0 "-k" (.str "1"), .flag "-n"] ∧
    (Transformer.filter ["-r"]).apply [.flag "-r", .optionVar 0 "-k" (.str "1"), .flag "-n"] = [.flag "-r"] := by
  decide +kernel

/-- C50. Add keeps the original as a prefix; what follows are elements of the given list, in their order, that are
equal to none of the original's; and every given element is afterwards present. -/
theorem C50_add (toAdd l : List FlagOptionWithIOVar) :
    ∃ new, (Transformer.add toAdd).apply l = l ++ new ∧ new.Sublist toAdd ∧
      (∀ x ∈ new, ∀ y ∈ l, y.pyEq x = false) ∧
      (∀ x ∈ toAdd, (∀ y ∈ l, y.pyEq x = false) → x ∈ new) ∧
      ∀ x ∈ toAdd, ∃ y ∈ (Transformer.add toAdd).apply l, y.pyEq x = true := by
  refine ⟨toAdd.filter fun x => !pyIn x l, by simp [Transformer.apply], List.filter_sublist, ?_, ?_, ?_⟩
  · intro x hx y hy
    have := (List.mem_filter.1 hx).2
    simp only [pyIn, Bool.not_eq_true', List.any_eq_false] at this
    simpa using this y hy
  · intro x hx h
    refine List.mem_filter.2 ⟨hx, ?_⟩
    simp only [pyIn, Bool.not_eq_true', List.any_eq_false]
    intro y hy
    simp [h y hy]
  · intro x hx
    simp only [Transformer.apply, List.mem_append, List.mem_filter]
    by_cases h : pyIn x l = true
    · simp only [pyIn, List.any_eq_true] at h
      obtain ⟨y, hy, he⟩ := h
      exact ⟨y, .inl hy, he⟩
    · refine ⟨x, .inr ⟨hx, by simpa using h⟩, ?_⟩
      cases x <;> simp [FlagOptionWithIOVar.pyEq]

/-- C50. For flags this is ordinary membership: exactly the flags not yet there are added. -/
theorem C50_add_flags (names : List String) (l : List FlagOptionWithIOVar) :
    (Transformer.add (names.map .flag)).apply l =
      l ++ (names.filter fun n => decide (.flag n ∉ l)).map .flag := by
  have h : ∀ n, pyIn (.flag n) l = decide (FlagOptionWithIOVar.flag n ∈ l) := by
    intro n
    rw [Bool.eq_iff_iff]
    simp only [pyIn, List.any_eq_true, decide_eq_true_eq]
    constructor
    · rintro ⟨y, hy, he⟩
      cases y with
      | flag m => simp only [FlagOptionWithIOVar.pyEq, beq_iff_eq] at he; subst he; exact hy
      | optionVar => simp [FlagOptionWithIOVar.pyEq] at he
      | optionIO => simp [FlagOptionWithIOVar.pyEq] at he
    · intro hy; exact ⟨_, hy, by simp [FlagOptionWithIOVar.pyEq]⟩
  simp only [Transformer.apply, List.filter_map, Function.comp_def, h, decide_not]

example : (Transformer.add [.flag "-m", .flag "-r"]).apply [.flag "-r"] = [.flag "-r", .flag "-m"] := by
  decide +kernel

/-- C50. The same for all elements but options that hold a variable: exactly those not yet there are added. -/
theorem C50_add_contents (toAdd l : List FlagOptionWithIOVar) (h : ∀ i n a, .optionVar i n a ∉ toAdd) :
    (Transformer.add toAdd).apply l = l ++ toAdd.filter fun x => decide (x ∉ l) := by
  have key : ∀ x ∈ toAdd, pyIn x l = decide (x ∈ l) := by
    intro x hx
    rw [Bool.eq_iff_iff]
    simp only [pyIn, List.any_eq_true, decide_eq_true_eq]
    constructor
    · rintro ⟨y, hy, he⟩
      cases y <;> cases x <;> simp [FlagOptionWithIOVar.pyEq] at he
      · subst he; exact hy
      · exact absurd hx (h _ _ _)
      · obtain ⟨rfl, rfl⟩ := he; exact hy
    · intro hy
      refine ⟨_, hy, ?_⟩
      cases x <;> simp [FlagOptionWithIOVar.pyEq]
  simp only [Transformer.apply]
  congr 1
  refine List.filter_congr fun x hx => ?_
  rw [key x hx, decide_not]

example : (Transformer.add [.optionIO "-k" (.str "2"), .flag "-r"]).apply [.optionIO "-k" (.str "1"), .flag "-r"] =
    [.optionIO "-k" (.str "1"), .flag "-r", .optionIO "-k" (.str "2")] := by decide +kernel

/-- C50, what add does not do: it does not compare the given elements with each other, and it takes an
`OptionWithIOVar` with the same name and argument as new if it is another object. -/
theorem C50_add_repeats (n : String) (a : VArg) (i j : Nat) (h : i ≠ j) :
    (Transformer.add [.flag n, .flag n]).apply [] = [.flag n, .flag n] ∧
    (Transformer.add [.optionVar j n a]).apply [.optionVar i n a] = [.optionVar i n a, .optionVar j n a] := by
  simp [Transformer.apply, pyIn, FlagOptionWithIOVar.pyEq, h]

/-- The meaning of a chain: apply the first, then the next. -/
def Spec.inOrder (ts : List Transformer) (l : List FlagOptionWithIOVar) : List FlagOptionWithIOVar :=
  ts.foldl (fun acc t => t.apply acc) l

/-- C50. A chain is composition in order; chains concatenate and nest accordingly. -/
theorem C50_chain (ts us : List Transformer) (t : Transformer) (l : List FlagOptionWithIOVar) :
    (Transformer.chain ts).apply l = Spec.inOrder ts l ∧ (Transformer.chain []).apply l = l ∧
    (Transformer.chain [t]).apply l = t.apply l ∧
    (Transformer.chain (ts ++ us)).apply l = (Transformer.chain us).apply ((Transformer.chain ts).apply l) ∧
    (Transformer.chain [.chain ts, .chain us]).apply l = (Transformer.chain (ts ++ us)).apply l := by
  have key : ∀ (ts : List Transformer) l, (Transformer.chain ts).apply l = Spec.inOrder ts l := by
    intro ts
    induction ts with
    | nil => intro l; simp [Transformer.apply, Transformer.applyChain, Spec.inOrder]
    | cons t ts ih =>
        intro l
        have := ih (t.apply l)
        simp only [Transformer.apply] at this
        simp only [Transformer.apply, Transformer.applyChain, this]
        simp [Spec.inOrder]
  refine ⟨key ts l, ?_, ?_, ?_, ?_⟩
  · rw [key]; rfl
  · rw [key]; rfl
  · rw [key, key, key]; simp [Spec.inOrder]
  · rw [key, key]; simp only [Spec.inOrder, List.foldl_cons, List.foldl_nil, List.foldl_append, key]

example : (Transformer.chain [.filter ["-r"], .add [.flag "-m"]]).apply [.flag "-n", .flag "-r"] =
    [.flag "-r", .flag "-m"] ∧
    (Transformer.chain [.add [.flag "-m"], .filter ["-r"]]).apply [.flag "-n", .flag "-r"] = [.flag "-r"] := by
  decide +kernel

/-- C50. Applying remove, filter, custom, empty or same-as-sequential a second time changes nothing; the same for
adding flags. -/
theorem C50_idempotent (t : Transformer) (l : List FlagOptionWithIOVar)
    (ht : ∀ ts, t ≠ .chain ts) : t.apply (t.apply l) = t.apply l := by
  cases t with
  | seq => simp [Transformer.apply]
  | empty => simp [Transformer.apply]
  | custom => simp [Transformer.apply]
  | remove names => simp [Transformer.apply]
  | filter names => simp [Transformer.apply]
  | chain ts => exact absurd rfl (ht ts)
  | add toAdd =>
      simp only [Transformer.apply]
      have : toAdd.filter (fun x => !pyIn x (l ++ toAdd.filter fun x => !pyIn x l)) = [] := by
        rw [List.filter_eq_nil_iff]
        intro x hx
        simp only [pyIn, List.any_append, Bool.not_or, Bool.and_eq_true, Bool.not_eq_true', not_and]
        intro h1 h2
        rw [List.any_eq_false] at h2
        refine h2 x (List.mem_filter.2 ⟨hx, ?_⟩) ?_
        · simp [h1]
        · cases x <;> simp [FlagOptionWithIOVar.pyEq]
      rw [this, List.append_nil]

/-- The first occurrences in a list: an element is kept if it did not occur before. -/
inductive Spec.FirstOccurrences {α : Type} : List α → List α → Prop
  | nil : FirstOccurrences [] []
  | new {l r : List α} {x : α} (h : FirstOccurrences l r) (hx : x ∉ l) : FirstOccurrences (l ++ [x]) (r ++ [x])
  | old {l r : List α} {x : α} (h : FirstOccurrences l r) (hx : x ∈ l) : FirstOccurrences (l ++ [x]) r

/-- C51. `list_deduplication` keeps exactly the first occurrences, hence the same elements, each once, in order. -/
theorem C51_deduplication {α : Type} [DecidableEq α] (l : List α) :
    Spec.FirstOccurrences l (listDeduplication l) ∧ (listDeduplication l).Nodup ∧
      (∀ x, x ∈ listDeduplication l ↔ x ∈ l) ∧ (listDeduplication l).Sublist l := by
  have mem : ∀ l r : List α, Spec.FirstOccurrences l r → ∀ x, x ∈ r ↔ x ∈ l := by
    intro l r h
    induction h with
    | nil => intro x; rfl
    | new h hx ih => intro x; simp [ih]
    | old h hx ih =>
        intro x
        rw [ih, List.mem_append, List.mem_singleton]
        constructor
        · exact .inl
        · rintro (h | rfl)
          · exact h
          · exact hx
  have nodup : ∀ l r : List α, Spec.FirstOccurrences l r → r.Nodup := by
    intro l r h
    induction h with
    | nil => exact List.nodup_nil
    | new h hx ih =>
        rw [List.nodup_append]
        refine ⟨ih, by simp, ?_⟩
        intro a ha b hb he
        rw [List.mem_singleton] at hb
        exact hx ((mem _ _ h _).1 (hb ▸ he ▸ ha))
    | old h hx ih => exact ih
  have sub : ∀ l r : List α, Spec.FirstOccurrences l r → r.Sublist l := by
    intro l r h
    induction h with
    | nil => exact .slnil
    | new h hx ih => exact ih.append (List.Sublist.refl _)
    | old h hx ih => exact ih.trans (List.sublist_append_left _ _)
  have key : ∀ (l done acc : List α), Spec.FirstOccurrences done acc →
      Spec.FirstOccurrences (done ++ l) (listDeduplicationGo acc l) := by
    intro l
    induction l with
    | nil => intro done acc h; simpa [listDeduplicationGo] using h
    | cons x l ih =>
        intro done acc h
        rw [show done ++ x :: l = (done ++ [x]) ++ l by simp]
        by_cases hx : x ∈ acc
        · simp only [listDeduplicationGo, hx, if_true]
          exact ih _ _ (.old h ((mem _ _ h x).1 hx))
        · simp only [listDeduplicationGo, hx, if_false]
          exact ih _ _ (.new h (fun h' => hx ((mem _ _ h x).2 h')))
  have := key l [] [] .nil
  rw [List.nil_append] at this
  exact ⟨this, nodup _ _ this, mem _ _ this, sub _ _ this⟩

example : listDeduplication [3, 1, 3, 2, 1] = [3, 1, 2] := by decide +kernel

/-- C51. Deduplicating twice is deduplicating once, and a list without repetitions is unchanged. -/
theorem C51_stable {α : Type} [DecidableEq α] (l : List α) :
    listDeduplication (listDeduplication l) = listDeduplication l ∧ (l.Nodup → listDeduplication l = l) := by
  have key : ∀ (l acc : List α), (acc ++ l).Nodup → listDeduplicationGo acc l = acc ++ l := by
    intro l
    induction l with
    | nil => intro acc _; simp [listDeduplicationGo]
    | cons x l ih =>
        intro acc h
        have hx : x ∉ acc := fun hx => (List.nodup_append.1 h).2.2 x hx x (by simp) rfl
        simp only [listDeduplicationGo, hx, if_false]
        rw [ih _ (by simpa using h)]; simp
  have h1 : ∀ l : List α, l.Nodup → listDeduplication l = l := fun l h => by
    unfold listDeduplication; rw [key l [] (by simpa using h)]; simp
  exact ⟨h1 _ (C51_deduplication l).2.1, h1 l⟩

/-- C50. The defaults for "no transformer given": one helper stands for the unchanged list, the other for the empty
list, and a given transformer is used as it is. -/
theorem C50_defaults (t : Transformer) (l : List FlagOptionWithIOVar) :
    (transformerSameAsSeqIfNone none).apply l = l ∧ (transformerEmptyIfNone none).apply l = [] ∧
    (transformerSameAsSeqIfNone (some t)).apply l = t.apply l ∧
    (transformerEmptyIfNone (some t)).apply l = t.apply l := by
  refine ⟨?_, ?_, ?_, ?_⟩ <;> simp [transformerSameAsSeqIfNone, transformerEmptyIfNone, Transformer.apply]

example : (transformerSameAsSeqIfNone none).apply [.flag "-r"] = [.flag "-r"] ∧
    (transformerEmptyIfNone none).apply [.flag "-r"] = [] := by decide +kernel

end PashAnn
