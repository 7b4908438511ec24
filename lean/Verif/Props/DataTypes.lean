import Verif.Props.DataFiles

/-! C100, continued: data files of any form from which the arguments of options can be typed. -/

namespace PashAnn
open Spec DataFiles

theorem ends_iff (e first last : Json) : Ends e first last ↔ e.index 0 = .ok first ∧ e.last = .ok last := by
  constructor
  · rintro (⟨h1, h2⟩ | ⟨h1, h2⟩)
    · rw [List.head?_eq_getElem?] at h1
      simp [Json.index, Json.last, h1, h2]
    · rw [List.head?_eq_getElem?] at h1
      simp [Json.index, Json.last, h1, h2]
  · rintro ⟨h1, h2⟩
    cases e with
    | arr l =>
        simp only [Json.index, Json.last] at h1 h2
        cases h3 : l[0]? <;> rw [h3] at h1 <;> cases h1
        cases h4 : l.getLast? <;> rw [h4] at h2 <;> cases h2
        exact .list (by rw [List.head?_eq_getElem?, h3]) h4
    | str s =>
        simp only [Json.index, Json.last] at h1 h2
        cases h3 : s.toList[0]? <;> rw [h3] at h1 <;> cases h1
        cases h4 : s.toList.getLast? <;> rw [h4] at h2 <;> cases h2
        simpa using Ends.text (s := s) (by rw [List.head?_eq_getElem?, h3]) h4
    | _ => cases h1

theorem isIndicator_iff (j : Json) : isIndicator j = true ↔ ∃ w ∈ ["FILE", "DIR", "DIRECTORY"], j = .str w := by
  unfold isIndicator
  rw [List.any_eq_true]
  constructor
  · rintro ⟨w, hw, h⟩
    cases j with
    | str s => exact ⟨w, hw, by rw [show s = w by simpa [Json.isStr] using h]⟩
    | _ => cases h
  · rintro ⟨w, hw, rfl⟩
    exact ⟨w, hw, by simp [Json.isStr]⟩

theorem accessFrom_iff (j : Json) (a : AccessKind) : accessFrom j = .ok a ↔ ∃ s, j = .str s ∧ (s, a) ∈ accessNames := by
  cases j with
  | str s =>
      simp only [accessFrom, Json.str.injEq, exists_eq_left']
      exact ofString_iff s a
  | _ => simp [accessFrom]

theorem classForArg_name {e : Json} {r : Json × Typer} (h : classForArg e = .ok r) : e.index 0 = .ok r.1 := by
  unfold classForArg at h
  obtain ⟨first, h1, h⟩ := (bind_ok_iff _ _ _).1 h
  obtain ⟨info, h2, h⟩ := (bind_ok_iff _ _ _).1 h
  rw [h1]
  split at h
  · obtain ⟨kind, h3, h⟩ := (bind_ok_iff _ _ _).1 h
    obtain ⟨acc, h4, h⟩ := (bind_ok_iff _ _ _).1 h
    obtain ⟨a, h5, h⟩ := (bind_ok_iff _ _ _).1 h
    obtain ⟨u, h6, h⟩ := (bind_ok_iff _ _ _).1 h
    split at h <;> cases h <;> rfl
  · obtain ⟨u, h3, h⟩ := (bind_ok_iff _ _ _).1 h
    obtain ⟨u', h4, h⟩ := (bind_ok_iff _ _ _).1 h
    cases h; rfl

theorem classForArg_ok (e : Json) : (∃ r, classForArg e = .ok r) ↔ EntryTyped e := by
  unfold EntryTyped
  constructor
  · rintro ⟨r, h⟩
    unfold classForArg at h
    obtain ⟨first, h1, h⟩ := (bind_ok_iff _ _ _).1 h
    obtain ⟨info, h2, h⟩ := (bind_ok_iff _ _ _).1 h
    refine ⟨first, info, (ends_iff _ _ _).2 ⟨h1, h2⟩, ?_⟩
    split at h
    · rename_i l
      obtain ⟨kind, h3, h⟩ := (bind_ok_iff _ _ _).1 h
      obtain ⟨acc, h4, h⟩ := (bind_ok_iff _ _ _).1 h
      obtain ⟨a, h5, h⟩ := (bind_ok_iff _ _ _).1 h
      obtain ⟨u, h6, h⟩ := (bind_ok_iff _ _ _).1 h
      obtain ⟨s, rfl, hs⟩ := (accessFrom_iff _ _).1 h5
      refine ⟨(hash_iff _).1 h6, .inl ⟨kind, s, a, ?_⟩⟩
      cases l with
      | nil => cases h3
      | cons k l =>
          cases l with
          | nil => cases h4
          | cons x l =>
              cases h3; cases h4
              exact ⟨l, rfl, hs⟩
    · rename_i hl
      obtain ⟨u, h3, h⟩ := (bind_ok_iff _ _ _).1 h
      obtain ⟨u', h4, h⟩ := (bind_ok_iff _ _ _).1 h
      refine ⟨(hash_iff _).1 h4, .inr ⟨fun l e => hl l e, fun w hw e => ?_⟩⟩
      have : isIndicator info = true := (isIndicator_iff _).2 ⟨w, hw, e⟩
      rw [this] at h3; cases h3
  · rintro ⟨first, info, he, hs, hi⟩
    obtain ⟨h1, h2⟩ := (ends_iff _ _ _).1 he
    have h3 := (hash_iff _).2 hs
    unfold classForArg
    simp only [h1, h2, bind, Except.bind]
    rcases hi with ⟨kind, access, a, more, rfl, ha⟩ | ⟨hl, hw⟩
    · have h4 : accessFrom (.str access) = .ok a := (accessFrom_iff _ _).2 ⟨_, rfl, ha⟩
      simp only [Json.index, List.getElem?_cons_zero, List.getElem?_cons_succ, h4, h3]
      cases isIndicator kind <;> exact ⟨_, rfl⟩
    · have h4 : isIndicator info = false := by
        rw [Bool.eq_false_iff]
        intro h
        obtain ⟨w, hw', e⟩ := (isIndicator_iff _).1 h
        exact hw w hw' e
      cases info with
      | arr l => exact absurd rfl (hl l)
      | _ => exact ⟨(first, .argString), by simp only [h4, h3]; rfl⟩

theorem dictClass_ok (j : Json) :
    (∃ r, DataFiles.dictOptionToClassForArg j = .ok r) ↔ ∃ ol, OptionEntries j ol ∧ ∀ e ∈ ol, EntryTyped e := by
  unfold DataFiles.dictOptionToClassForArg OptionEntries
  constructor
  · rintro ⟨r, h0⟩
    obtain ⟨o, h1, h0'⟩ := (bind_ok_iff _ _ _).1 h0
    obtain ⟨ol, h2, h⟩ := (bind_ok_iff _ _ _).1 h0'
    obtain ⟨items, rfl, hl⟩ := (item_ok _ _ _).1 h1
    refine ⟨ol, ⟨items, o, rfl, hl, (elements_iff _ _).2 h2⟩, fun e he => ?_⟩
    exact (classForArg_ok e).1 ((mapM_isOk_iff _ _).1 ⟨r, h⟩ e he)
  · rintro ⟨ol, ⟨items, o, rfl, hl, he⟩, ht⟩
    obtain ⟨r, hr⟩ := (mapM_isOk_iff classForArg ol).2 fun e h => (classForArg_ok e).2 (ht e h)
    exact ⟨r, (bind_ok_iff _ _ _).2 ⟨o, (item_ok _ _ _).2 ⟨items, rfl, hl⟩, (bind_ok_iff _ _ _).2 ⟨ol, (elements_iff _ _).1 he, hr⟩⟩⟩

theorem mapM_mem {α β : Type} {f : α → Py β} {l : List α} {r : List β} (h : l.mapM f = .ok r) :
    (∀ x ∈ l, ∃ y ∈ r, f x = .ok y) ∧ ∀ y ∈ r, ∃ x ∈ l, f x = .ok y := by
  induction l generalizing r with
  | nil => cases h; simp
  | cons a l ih =>
      rw [List.mapM_cons] at h
      obtain ⟨x, h1, h'⟩ := (bind_ok_iff _ _ _).1 h
      obtain ⟨y, h2, h3⟩ := (bind_ok_iff _ _ _).1 h'
      cases h3
      obtain ⟨g1, g2⟩ := ih h2
      constructor
      · intro z hz
        rcases List.mem_cons.1 hz with rfl | hz
        · exact ⟨x, by simp, h1⟩
        · obtain ⟨w, hw, e⟩ := g1 z hz
          exact ⟨w, by simp [hw], e⟩
      · intro z hz
        rcases List.mem_cons.1 hz with rfl | hz
        · exact ⟨a, by simp, h1⟩
        · obtain ⟨w, hw, e⟩ := g2 z hz
          exact ⟨w, by simp [hw], e⟩

theorem isStr_iff (j : Json) (n : String) : j.isStr n = true ↔ j = .str n := by
  cases j <;> simp [Json.isStr]

theorem typerOf_ok (dict : List (Json × Typer)) (x : FlagOption) :
    (∃ t, typerOf dict x = .ok t) ↔ ∀ n a, x = .option n a → ∃ p ∈ dict, p.1 = .str n := by
  cases x with
  | flag n => simp [typerOf]
  | option n a =>
      simp only [typerOf, FlagOption.option.injEq, and_imp]
      constructor
      · rintro ⟨t, h⟩ n' a' rfl rfl
        cases hf : dict.reverse.find? fun e => e.1.isStr n with
        | none => rw [hf] at h; cases h
        | some p => exact ⟨p, List.mem_reverse.1 (List.mem_of_find?_eq_some hf), (isStr_iff _ _).1 (List.find?_some (p := fun e : Json × Typer => e.1.isStr n) hf)⟩
      · intro h
        obtain ⟨p, hp, e⟩ := h n a rfl rfl
        cases hf : dict.reverse.find? fun e => e.1.isStr n with
        | none =>
            have := List.find?_eq_none.1 hf p (List.mem_reverse.2 hp)
            exact absurd ((isStr_iff _ _).2 e) this
        | some p => exact ⟨_, rfl⟩

/-- Which files of any form can be used for an invocation: every entry of an option has a first spelling that is simple and says
something understood about the argument, and each option of the invocation is the first spelling of an entry. -/
theorem C100_types_fits (dir : Dir) (name : String) (hn : PlainName name) (f : Option Json) (hj : dir.lookup name = some f)
    (fs : List FlagOption) (ops : List String) :
    (∃ i, initialInfoIn dir ⟨name, fs, ops⟩ = .ok i) ↔
      ∃ j ol, f = some j ∧ OptionEntries j ol ∧ (∀ e ∈ ol, EntryTyped e) ∧
        ∀ n a, FlagOption.option n a ∈ fs → ∃ e ∈ ol, ∃ info, Ends e (.str n) info := by
  have hg : getJson dir name = loads f := by rw [getJson_plain dir hn, hj]
  constructor
  · rintro ⟨i, h0⟩
    unfold initialInfoIn at h0
    obtain ⟨j, h1, h2⟩ := (bind_ok_iff _ _ _).1 h0
    obtain ⟨dict, h3, h4⟩ := (bind_ok_iff _ _ _).1 h2
    obtain ⟨ts, h5, -⟩ := (bind_ok_iff _ _ _).1 h4
    rw [hg] at h1
    have hf : f = some j := by cases f <;> cases h1; rfl
    have h6 := h3
    unfold DataFiles.dictOptionToClassForArg at h6
    obtain ⟨o, h7, h8⟩ := (bind_ok_iff _ _ _).1 h6
    obtain ⟨ol, h9, h10⟩ := (bind_ok_iff _ _ _).1 h8
    obtain ⟨items, hit, hl⟩ := (item_ok _ _ _).1 h7
    refine ⟨j, ol, hf, ⟨items, o, hit, hl, (elements_iff _ _).2 h9⟩, fun e he => (classForArg_ok e).1 ?_, fun n a hx => ?_⟩
    · obtain ⟨y, _, e'⟩ := (mapM_mem h10).1 e he
      exact ⟨y, e'⟩
    · obtain ⟨p, hp, e⟩ := (typerOf_ok dict _).1 ((mapM_isOk_iff _ _).1 ⟨ts, h5⟩ _ hx) n a rfl
      obtain ⟨x, hx', e'⟩ := (mapM_mem h10).2 p hp
      obtain ⟨first, info, hends, -⟩ := (classForArg_ok x).1 ⟨p, e'⟩
      refine ⟨x, hx', info, (ends_iff _ _ _).2 ⟨?_, ((ends_iff _ _ _).1 hends).2⟩⟩
      rw [classForArg_name e', e]
  · rintro ⟨j, ol, rfl, ⟨items, o, rfl, hl, he⟩, ht, ho⟩
    obtain ⟨dict, hd⟩ := (mapM_isOk_iff classForArg ol).2 fun e h => (classForArg_ok e).2 (ht e h)
    have h1 : DataFiles.dictOptionToClassForArg (.obj items) = .ok dict :=
      (bind_ok_iff _ _ _).2 ⟨o, (item_ok _ _ _).2 ⟨items, rfl, hl⟩, (bind_ok_iff _ _ _).2 ⟨ol, (elements_iff _ _).1 he, hd⟩⟩
    obtain ⟨ts, h2⟩ := (mapM_isOk_iff (typerOf dict) fs).2 fun x hx => (typerOf_ok dict x).2 fun n a e => by
      subst e
      obtain ⟨e, he', info, hends⟩ := ho n a hx
      obtain ⟨p, hp, e'⟩ := (mapM_mem hd).1 e he'
      have h3 := classForArg_name e'
      rw [((ends_iff _ _ _).1 hends).1] at h3
      exact ⟨p, hp, (Except.ok.inj h3).symm⟩
    unfold initialInfoIn
    simp only [hg, loads, bind, Except.bind, h1, h2]
    exact ⟨_, rfl⟩

/-- Entries that are understood although they are not as documented, and one that is not: `null` is not a kind of access. -/
example : EntryTyped (.str "ab") ∧ EntryTyped (.arr [.num "1", .arr [.null, .str "OTHER_OUTPUT", .null]]) ∧
    ¬ EntryTyped (.arr [.str "-o", .arr [.str "FILE", .null]]) := by
  simp only [← classForArg_ok]
  refine ⟨⟨_, rfl⟩, ⟨_, rfl⟩, ?_⟩
  rintro ⟨r, h⟩
  cases h

end PashAnn
