import Verif.Spec.DataFiles
import Verif.Lemmas.Parser
import Verif.Lemmas.IOInfo

namespace PashAnn
open Spec

/-! FileLists of computations. -/

theorem mapM_isOk_iff {α β : Type} (f : α → Py β) (l : List α) :
    (∃ r, l.mapM f = .ok r) ↔ ∀ x ∈ l, ∃ y, f x = .ok y := by
  induction l with
  | nil => exact ⟨fun _ x hx => absurd hx (by simp), fun _ => ⟨[], rfl⟩⟩
  | cons a l ih =>
      constructor
      · rintro ⟨r, hr⟩
        obtain ⟨b, r', h1, h2, rfl⟩ := (mapM_cons_ok f a l r).1 hr
        intro x hx
        rcases List.mem_cons.1 hx with rfl | hx
        · exact ⟨b, h1⟩
        · exact ih.1 ⟨r', h2⟩ x hx
      · intro h
        obtain ⟨b, hb⟩ := h a (by simp)
        obtain ⟨r, hr⟩ := ih.2 fun x hx => h x (by simp [hx])
        exact ⟨b :: r, (mapM_cons_ok f a l _).2 ⟨b, r, hb, hr, rfl⟩⟩

namespace DataFiles
open Json

theorem hash_iff (j : Json) : j.hash = .ok () ↔ Simple j := by cases j <;> simp [Json.hash, Simple]

theorem hash_cases (j : Json) : j.hash = .ok () ∨ j.hash = .error .typeError := by cases j <;> simp [Json.hash]

theorem forM_hash (l : List Json) : l.forM Json.hash = .ok () ↔ ∀ x ∈ l, Simple x := by
  induction l with
  | nil => simp [pure, Except.pure]
  | cons a l ih =>
      have hc : (a :: l).forM Json.hash = (do a.hash; l.forM Json.hash) := rfl
      rw [hc]
      rcases hash_cases a with h | h
      · simp only [h, bind, Except.bind, List.mem_cons, forall_eq_or_imp, (hash_iff a).1 h, true_and, ih]
      · have : ¬ Simple a := fun hs => by rw [(hash_iff a).2 hs] at h; cases h
        simp [h, bind, Except.bind, this]

theorem addAll_ok (l r : List Json) : addAll l = .ok r ↔ r = l ∧ ∀ x ∈ l, Simple x := by
  unfold addAll
  cases h : l.forM Json.hash with
  | ok u =>
      have hs : ∀ x ∈ l, Simple x := (forM_hash l).1 (by rw [h])
      simp only [bind, Except.bind, Except.ok.injEq]
      exact ⟨fun e => ⟨e.symm, hs⟩, fun e => e.1.symm⟩
  | error e =>
      have : ¬ ∀ x ∈ l, Simple x := fun hs => by rw [(forM_hash l).2 hs] at h; cases h
      simp only [bind, Except.bind, this, and_false, reduceCtorEq]

theorem elements_iff (j : Json) (l : List Json) : Elements j l ↔ j.iter = .ok l := by
  have hs : (fun c : Char => Json.str (String.singleton c)) = fun c => Json.str (String.ofList [c]) := by
    funext c; simp
  constructor
  · rintro (_ | _ | _)
    · rfl
    · simp only [Json.iter, hs]
    · rfl
  · intro h
    cases j <;> simp only [Json.iter, reduceCtorEq, Except.ok.injEq] at h <;> subst h
    · rw [← hs]; exact .text _
    · exact .list _
    · exact .keys _

theorem length_of_iter {j : Json} {l : List Json} (h : j.iter = .ok l) : j.length = .ok l.length := by
  cases j <;> simp only [Json.iter, reduceCtorEq, Except.ok.injEq] at h <;> subst h <;> simp [Json.length]

theorem index_of_iter {j : Json} {l : List Json} (h : j.iter = .ok l) (ho : ∀ m, j ≠ .obj m) (i : Nat) (hi : i < l.length) :
    j.index i = .ok l[i] := by
  cases j <;> simp only [Json.iter, reduceCtorEq, Except.ok.injEq] at h
  · subst h
    simp only [List.length_map] at hi
    simp [Json.index, List.getElem?_eq_getElem hi]
  · subst h
    simp [Json.index, List.getElem?_eq_getElem hi]
  · exact absurd rfl (ho _)

/-! Files that list flags and options. -/

/-- A pair of strings among the values. -/
def strPair (p : String × String) : Json × Json := (.str p.1, .str p.2)

theorem assignments_ok (e : Json) (names : List String)
    (h : ∀ i (hi : i < names.length), e.index i = .ok (.str names[i])) :
    (List.range' 1 (names.length - 1)).mapM (assignment e) = .ok ((synonymAssignments names).map strPair) := by
  cases names with
  | nil => rfl
  | cons p syns =>
      rw [mapM_ok_of_forall (assignment e) (fun i => (.str ((p :: syns)[i]?.getD ""), .str p)) _ ?_]
      · congr 1
        apply List.ext_getElem
        · simp [synonymAssignments]
        · intro i h1 h2
          simp only [List.length_map, List.length_range', List.length_cons, Nat.add_sub_cancel] at h1
          simp only [List.getElem_map, List.getElem_range', synonymAssignments, strPair, Prod.mk.injEq, Json.str.injEq,
            and_true]
          have : 1 + 1 * i = i + 1 := by omega
          rw [this, List.getElem?_cons_succ, List.getElem?_eq_getElem h1]
          rfl
      · intro i hi
        simp only [List.mem_range', List.length_cons, Nat.add_sub_cancel] at hi
        obtain ⟨k, hk, rfl⟩ := hi
        have h0 := h 0 (by simp)
        have hk' : 1 + 1 * k < (p :: syns).length := by simp; omega
        have h1 := h (1 + 1 * k) hk'
        simp only [assignment, h0, h1, bind, Except.bind, Json.hash, List.getElem_cons_zero, List.getElem?_eq_getElem hk',
          Option.getD_some]

theorem flagText_iter (e : FlagEntry) : (flagText e).iter = .ok (spellings (flagSpellings e)) := by
  cases e with
  | group names => rfl
  | bare s => simp [flagText, Json.iter, spellings, flagSpellings]

theorem flagText_not_obj (e : FlagEntry) (m) : flagText e ≠ .obj m := by cases e <;> simp [flagText]

theorem optionText_butLast (e : OptionEntry) : (optionText e).butLast = .ok (spellings e.names) := by
  simp [optionText, Json.butLast]

theorem simple_spellings (names : List String) : ∀ x ∈ spellings names, Simple x := by
  intro x hx
  obtain ⟨s, _, rfl⟩ := List.mem_map.1 hx
  trivial

theorem flatten_spellings (gs : List (List String)) : (gs.map spellings).flatten = spellings gs.flatten := by
  simp only [spellings, List.map_flatten]
  rfl

theorem lists_flags {j : Json} {d : JsonData} (h : FileLists j d) :
    setOfAllFlags j = .ok (spellings (PashAnn.setOfAllFlags d)) := by
  obtain ⟨items, rfl, hf, -⟩ := h
  have h1 : (Json.obj items).item "flag" = .ok (.arr (d.flag.map flagText)) := by simp [Json.item, hf]
  have h2 : (d.flag.map flagText).mapM (fun e => do addAll (← e.iter)) =
      Except.ok ((flagGroups d).map spellings) := by
    rw [List.mapM_map, mapM_ok_of_forall _ (fun e => spellings (flagSpellings e))]
    · simp [flagGroups]
    · intro e _
      simp only [Function.comp, flagText_iter, bind, Except.bind]
      exact (addAll_ok _ _).2 ⟨rfl, simple_spellings _⟩
  simp only [setOfAllFlags, h1, bind, Except.bind, Json.iter] at h2 ⊢
  rw [h2]
  simp only [flatten_spellings, flagGroups, PashAnn.setOfAllFlags, List.flatMap_def]
  congr 4

theorem lists_options {j : Json} {d : JsonData} (h : FileLists j d) :
    setOfAllOptions j = .ok (spellings (PashAnn.setOfAllOptions d)) := by
  obtain ⟨items, rfl, -, hf⟩ := h
  have h1 : (Json.obj items).item "option" = .ok (.arr (d.option.map optionText)) := by simp [Json.item, hf]
  have h2 : (d.option.map optionText).mapM (fun e => do addAll (← e.butLast)) =
      Except.ok ((optionGroups d).map spellings) := by
    rw [List.mapM_map, mapM_ok_of_forall _ (fun e => spellings e.names)]
    · simp [optionGroups]
    · intro e _
      simp only [Function.comp, optionText_butLast, bind, Except.bind]
      exact (addAll_ok _ _).2 ⟨rfl, simple_spellings _⟩
  simp only [setOfAllOptions, h1, bind, Except.bind, Json.iter] at h2 ⊢
  rw [h2]
  simp only [flatten_spellings, optionGroups, PashAnn.setOfAllOptions, List.flatMap_def]

theorem lists_primaryFlags {j : Json} {d : JsonData} (h : FileLists j d) :
    dictFlagToPrimaryRepr j = .ok ((PashAnn.dictFlagToPrimaryRepr d).map strPair) := by
  obtain ⟨items, rfl, hf, -⟩ := h
  have h1 : (Json.obj items).item "flag" = .ok (.arr (d.flag.map flagText)) := by simp [Json.item, hf]
  have h2 : (d.flag.map flagText).mapM (fun e => do
      let n ← e.length
      (List.range' 1 (n - 1)).mapM (assignment e)) =
      Except.ok (d.flag.map fun e => (synonymAssignments e.items).map strPair) := by
    rw [List.mapM_map, mapM_ok_of_forall _ (fun e => (synonymAssignments e.items).map strPair)]
    intro e _
    have hi := flagText_iter e
    rw [flagSpellings_eq] at hi
    simp only [Function.comp, length_of_iter hi, bind, Except.bind, spellings, List.length_map]
    exact assignments_ok _ _ fun i hi' => by
      rw [index_of_iter hi (flagText_not_obj e) i (by simpa [spellings] using hi')]
      simp [spellings]
  simp only [dictFlagToPrimaryRepr, h1, bind, Except.bind, Json.iter] at h2 ⊢
  rw [h2]
  simp [PashAnn.dictFlagToPrimaryRepr, List.flatMap_def, List.map_flatten, Function.comp_def]

theorem lists_primaryOptions {j : Json} {d : JsonData} (h : FileLists j d) :
    dictOptionToPrimaryRepr j = .ok ((PashAnn.dictOptionToPrimaryRepr d).map strPair) := by
  obtain ⟨items, rfl, -, hf⟩ := h
  have h1 : (Json.obj items).item "option" = .ok (.arr (d.option.map optionText)) := by simp [Json.item, hf]
  have h2 : (d.option.map optionText).mapM (fun e => do
      let n ← e.length
      (List.range' 1 (n - 2)).mapM (assignment e)) =
      Except.ok (d.option.map fun e => (synonymAssignments e.names).map strPair) := by
    rw [List.mapM_map, mapM_ok_of_forall _ (fun e => (synonymAssignments e.names).map strPair)]
    intro e _
    have hl : (optionText e).length = .ok (e.names.length + 1) := by simp [optionText, Json.length, spellings]
    simp only [Function.comp, hl, bind, Except.bind]
    have := assignments_ok (optionText e) e.names fun i hi' => by
      have : i < (spellings e.names).length := by simpa [spellings] using hi'
      simp only [optionText, Json.index, List.getElem?_append_left this, List.getElem?_eq_getElem this]
      simp [spellings]
    rw [show e.names.length + 1 - 2 = e.names.length - 1 by omega]
    exact this
  simp only [dictOptionToPrimaryRepr, h1, bind, Except.bind, Json.iter] at h2 ⊢
  rw [h2]
  simp [PashAnn.dictOptionToPrimaryRepr, List.flatMap_def, List.map_flatten, Function.comp_def]

theorem contains_spellings (l : List String) (w : String) : contains (spellings l) w = decide (w ∈ l) := by
  induction l with
  | nil => rfl
  | cons a l ih =>
      simp only [contains, spellings, List.map_cons, List.any_cons, Json.isStr] at ih ⊢
      rw [ih]
      by_cases h : w = a
      · simp [h]
      · have : (a == w) = false := by simpa using fun e => h e.symm
        simp [this, h]

theorem find_strPair (A : List (String × String)) (w : String) :
    (A.map strPair).find? (fun e => e.1.isStr w) = (A.lookup w).map fun v => (.str w, .str v) := by
  induction A with
  | nil => rfl
  | cons a A ih =>
      obtain ⟨k, v⟩ := a
      rw [List.map_cons, List.find?_cons, List.lookup_cons, ih]
      by_cases h : w = k
      · simp [strPair, Json.isStr, h]
      · have h1 : (k == w) = false := by simpa using fun e => h e.symm
        have h2 : (w == k) = false := by simpa using h
        simp [strPair, Json.isStr, h1, h2]

theorem primary_strPair (A : List (String × String)) (w : String) :
    primary (A.map strPair) w = .str (dictGetD A w w) := by
  unfold primary dictGetD dictGet?
  rw [← List.map_reverse, find_strPair]
  cases A.reverse.lookup w <;> rfl

theorem anyNames_append (a b : List FlagOption) : anyNames (a ++ b) = anyNames a ++ anyNames b := List.map_append

theorem areAll_eq (d : JsonData) (c : Char) (cs : List Char) :
    areAllIndividuallyFlags (spellings (PashAnn.setOfAllFlags d)) (c :: cs) =
      PashAnn.areAllIndividuallyFlags (PashAnn.setOfAllFlags d) c cs := by
  unfold areAllIndividuallyFlags PashAnn.areAllIndividuallyFlags
  simp only [contains_spellings]
  by_cases h : c = '-'
  · subst h
    cases cs with
    | nil => rfl
    | cons x xs => simp
  · split
    · rename_i heq
      cases heq
      exact absurd rfl h
    · simp [h]

theorem loop_eq (d : JsonData) (n : Nat) : ∀ ws : List String, ws.length ≤ n →
    loop (spellings (PashAnn.setOfAllFlags d)) (spellings (PashAnn.setOfAllOptions d))
      ((PashAnn.dictFlagToPrimaryRepr d).map strPair) ((PashAnn.dictOptionToPrimaryRepr d).map strPair) ws =
      (anyNames (parseLoop d ws).1, (parseLoop d ws).2) := by
  induction n with
  | zero =>
      intro ws h
      cases ws with
      | nil => rfl
      | cons => simp at h
  | succ n ih =>
      intro ws h
      cases ws with
      | nil => rfl
      | cons t rest =>
          have hr := ih rest (by simpa using h)
          by_cases ht : t = ""
          · subst ht
            rw [parseLoop_empty]
            unfold loop
            rw [if_pos rfl]
            rfl
          obtain ⟨c, cs, hc⟩ := exists_cons ht
          unfold loop parseLoop
          rw [if_neg ht]
          simp only [hc, contains_spellings, decide_eq_true_eq, primary_strPair, areAll_eq, hr]
          by_cases hf : t ∈ PashAnn.setOfAllFlags d
          · simp only [hf, if_true]
            rfl
          · simp only [hf, if_false]
            have hcl : (if PashAnn.areAllIndividuallyFlags (PashAnn.setOfAllFlags d) c cs = true then
                  (List.map (fun x => AnyFlagOption.flag (Json.str (dashed x))) (List.drop 1 (c :: cs)) ++
                    anyNames (parseLoop d rest).1, (parseLoop d rest).2)
                else ([], t :: rest)) =
                (anyNames (if PashAnn.areAllIndividuallyFlags (PashAnn.setOfAllFlags d) c cs = true then
                  (List.map (fun x => FlagOption.flag (dashed x)) cs ++ (parseLoop d rest).1, (parseLoop d rest).2)
                  else ([], t :: rest)).1,
                (if PashAnn.areAllIndividuallyFlags (PashAnn.setOfAllFlags d) c cs = true then
                  (List.map (fun x => FlagOption.flag (dashed x)) cs ++ (parseLoop d rest).1, (parseLoop d rest).2)
                  else ([], t :: rest)).2) := by
              by_cases ha : PashAnn.areAllIndividuallyFlags (PashAnn.setOfAllFlags d) c cs = true
              · simp only [ha, if_true, anyNames_append]
                simp [anyNames]
              · simp only [ha]
                rfl
            cases rest with
            | nil => exact hcl
            | cons arg rest' =>
                by_cases ho : t ∈ PashAnn.setOfAllOptions d
                · simp only [ho, if_true]
                  rw [ih rest' (by simp at h; omega)]
                  rfl
                · simp only [ho, if_false]
                  exact hcl

theorem readWords_lists {j : Json} {d : JsonData} (h : FileLists j d) (ws : List String) :
    readWords j ws = .ok (anyNames (parseLoop d ws).1, (parseLoop d ws).2) := by
  simp only [readWords, lists_flags h, lists_primaryFlags h, lists_options h, lists_primaryOptions h, bind, Except.bind]
  rw [loop_eq d ws.length ws (Nat.le_refl _)]

/-! Files with any contents. -/

theorem assignment_ok_of {e : Json} {l : List Json} (h : e.iter = .ok l) (ho : ∀ m, e ≠ .obj m) (i : Nat) (h0 : i < l.length)
    (hs : Simple l[i]) : ∃ p, assignment e i = .ok p := by
  have h1 := index_of_iter h ho i h0
  have h2 := index_of_iter h ho 0 (by omega)
  exact ⟨(l[i], l[0]), by simp only [assignment, h1, h2, (hash_iff _).2 hs, bind, Except.bind]⟩

/-- The entries of the list of flags that are not rejected. -/
theorem flagFits_iff (e : Json) : FlagFits e ↔
    (∃ r, (do addAll (← e.iter)) = Except.ok (ε := PyErr) r) ∧
    ∃ r, (do
      let n ← e.length
      (List.range' 1 (n - 1)).mapM (assignment e)) = Except.ok (ε := PyErr) r := by
  constructor
  · rintro (⟨l, rfl, hl⟩ | ⟨s, rfl⟩ | ⟨l, rfl, hl⟩)
    · refine ⟨⟨l, (addAll_ok l l).2 ⟨rfl, hl⟩⟩, (mapM_isOk_iff _ _).2 fun i hi => ?_⟩
      simp only [List.mem_range'] at hi
      obtain ⟨k, hk, rfl⟩ := hi
      exact assignment_ok_of (l := l) rfl (by simp) _ (by omega) (hl _ (List.getElem_mem _))
    · have hx : ∀ x ∈ s.toList.map fun c => Json.str (String.ofList [c]), Simple x := by
        intro x hx
        obtain ⟨c, _, rfl⟩ := List.mem_map.1 hx
        trivial
      refine ⟨⟨_, (addAll_ok _ _).2 ⟨rfl, hx⟩⟩, (mapM_isOk_iff _ _).2 fun i hi => ?_⟩
      simp only [List.mem_range'] at hi
      obtain ⟨k, hk, rfl⟩ := hi
      exact assignment_ok_of (l := s.toList.map fun c => Json.str (String.ofList [c])) rfl (by simp) _
        (by simp only [List.length_map]; omega) (hx _ (List.getElem_mem _))
    · refine ⟨⟨_, (addAll_ok _ _).2 ⟨rfl, fun x hx => ?_⟩⟩, (mapM_isOk_iff _ _).2 fun i hi => ?_⟩
      · obtain ⟨c, _, rfl⟩ := List.mem_map.1 hx
        trivial
      · simp only [List.mem_range'] at hi
        obtain ⟨k, hk, rfl⟩ := hi
        omega
  · rintro ⟨⟨r, h1⟩, h2⟩
    cases e with
    | arr l => exact .inl ⟨l, rfl, ((addAll_ok l r).1 h1).2⟩
    | str s => exact .inr (.inl ⟨s, rfl⟩)
    | obj l =>
        refine .inr (.inr ⟨l, rfl, ?_⟩)
        have h2 := (mapM_isOk_iff _ _).1 h2
        rcases Nat.lt_or_ge 1 l.length with hl | hl
        · obtain ⟨y, hy⟩ := h2 1 (by simp only [List.mem_range']; exact ⟨0, by omega, rfl⟩)
          simp [assignment, Json.index, bind, Except.bind] at hy
        · exact hl
    | null => cases h1
    | bool => cases h1
    | num => cases h1

/-- The entries of the list of options that are not rejected. -/
theorem optionFits_iff (e : Json) : OptionFits e ↔
    (∃ r, (do addAll (← e.butLast)) = Except.ok (ε := PyErr) r) ∧
    ∃ r, (do
      let n ← e.length
      (List.range' 1 (n - 2)).mapM (assignment e)) = Except.ok (ε := PyErr) r := by
  constructor
  · rintro (⟨l, rfl, hl⟩ | ⟨s, rfl⟩)
    · refine ⟨⟨l.dropLast, (addAll_ok _ _).2 ⟨rfl, hl⟩⟩, (mapM_isOk_iff _ _).2 fun i hi => ?_⟩
      simp only [List.mem_range'] at hi
      obtain ⟨k, hk, rfl⟩ := hi
      have hk' : 1 + 1 * k < l.dropLast.length := by simp; omega
      refine assignment_ok_of (l := l) rfl (by simp) _ (by omega) (hl _ ?_)
      rw [← List.getElem_dropLast hk']
      exact List.getElem_mem _
    · have hx : ∀ x ∈ s.toList.map fun c => Json.str (String.ofList [c]), Simple x := by
        intro x hx
        obtain ⟨c, _, rfl⟩ := List.mem_map.1 hx
        trivial
      refine ⟨⟨_, (addAll_ok _ _).2 ⟨rfl, fun x hx' => ?_⟩⟩, (mapM_isOk_iff _ _).2 fun i hi => ?_⟩
      · obtain ⟨c, _, rfl⟩ := List.mem_map.1 hx'
        trivial
      simp only [List.mem_range'] at hi
      obtain ⟨k, hk, rfl⟩ := hi
      exact assignment_ok_of (l := s.toList.map fun c => Json.str (String.ofList [c])) rfl (by simp) _
        (by simp only [List.length_map]; omega) (hx _ (List.getElem_mem _))
  · rintro ⟨⟨r, h1⟩, h2⟩
    cases e with
    | arr l => exact .inl ⟨l, rfl, ((addAll_ok _ r).1 h1).2⟩
    | str s => exact .inr ⟨s, rfl⟩
    | obj l => cases h1
    | null => cases h1
    | bool => cases h1
    | num => cases h1

theorem bind_ok_iff {α β : Type} (x : Py α) (f : α → Py β) (b : β) : (x >>= f) = .ok b ↔ ∃ a, x = .ok a ∧ f a = .ok b := by
  cases x with
  | error e => simp [bind, Except.bind]
  | ok a => simp [bind, Except.bind]

theorem item_ok (j : Json) (k : String) (v : Json) :
    j.item k = .ok v ↔ ∃ items, j = .obj items ∧ items.lookup k = some v := by
  cases j with
  | obj l =>
      simp only [Json.item, Json.obj.injEq, exists_eq_left']
      cases l.lookup k <;> simp
  | _ => simp [Json.item]

theorem readWords_isOk (j : Json) (ws : List String) : (∃ r, readWords j ws = .ok r) ↔ Fits j := by
  constructor
  · rintro ⟨r, h⟩
    simp only [readWords, bind_ok_iff, setOfAllFlags, setOfAllOptions, dictFlagToPrimaryRepr, dictOptionToPrimaryRepr] at h
    obtain ⟨s, ⟨flags, hi, fl, hit, l1, hm1, -⟩, pf, ⟨flags', hi', fl', hit', l2, hm2, -⟩, so,
      ⟨options, hj, ol, hjt, l3, hm3, -⟩, po, ⟨options', hj', ol', hjt', l4, hm4, -⟩, -⟩ := h
    rw [hi] at hi'; cases hi'
    rw [hit] at hit'; cases hit'
    rw [hj] at hj'; cases hj'
    rw [hjt] at hjt'; cases hjt'
    obtain ⟨items, rfl, hlf⟩ := (item_ok _ _ _).1 hi
    obtain ⟨_, he, hlo⟩ := (item_ok _ _ _).1 hj
    cases he
    refine ⟨items, flags, options, fl, ol, rfl, hlf, hlo, (elements_iff _ _).2 hit, fun e he => ?_, (elements_iff _ _).2 hjt,
      fun e he => ?_⟩
    · exact (flagFits_iff e).2 ⟨(mapM_isOk_iff _ _).1 ⟨_, hm1⟩ e he, (mapM_isOk_iff _ _).1 ⟨_, hm2⟩ e he⟩
    · exact (optionFits_iff e).2 ⟨(mapM_isOk_iff _ _).1 ⟨_, hm3⟩ e he, (mapM_isOk_iff _ _).1 ⟨_, hm4⟩ e he⟩
  · rintro ⟨items, flags, options, fl, ol, rfl, hlf, hlo, hf, hff, ho, hof⟩
    have hi := (item_ok (.obj items) _ _).2 ⟨items, rfl, hlf⟩
    have hj := (item_ok (.obj items) _ _).2 ⟨items, rfl, hlo⟩
    have hit := (elements_iff _ _).1 hf
    have hjt := (elements_iff _ _).1 ho
    obtain ⟨l1, hm1⟩ := (mapM_isOk_iff _ _).2 fun e he => ((flagFits_iff e).1 (hff e he)).1
    obtain ⟨l2, hm2⟩ := (mapM_isOk_iff _ _).2 fun e he => ((flagFits_iff e).1 (hff e he)).2
    obtain ⟨l3, hm3⟩ := (mapM_isOk_iff _ _).2 fun e he => ((optionFits_iff e).1 (hof e he)).1
    obtain ⟨l4, hm4⟩ := (mapM_isOk_iff _ _).2 fun e he => ((optionFits_iff e).1 (hof e he)).2
    refine ⟨loop l1.flatten l3.flatten l2.flatten l4.flatten ws, ?_⟩
    simp only [readWords, bind_ok_iff, setOfAllFlags, setOfAllOptions, dictFlagToPrimaryRepr, dictOptionToPrimaryRepr]
    exact ⟨_, ⟨flags, hi, fl, hit, l1, hm1, rfl⟩, _, ⟨flags, hi, fl, hit, l2, hm2, rfl⟩, _,
      ⟨options, hj, ol, hjt, l3, hm3, rfl⟩, _, ⟨options, hj, ol, hjt, l4, hm4, rfl⟩, rfl⟩

theorem readWords_error (j : Json) (ws ws' : List String) (e : PyErr) (h : readWords j ws = .error e) :
    readWords j ws' = .error e := by
  unfold readWords at h ⊢
  cases h1 : setOfAllFlags j with
  | error x => rw [h1] at h; exact h
  | ok a =>
    cases h2 : dictFlagToPrimaryRepr j with
    | error x => rw [h1, h2] at h; exact h
    | ok b =>
      cases h3 : setOfAllOptions j with
      | error x => rw [h1, h2, h3] at h; exact h
      | ok c =>
        cases h4 : dictOptionToPrimaryRepr j with
        | error x => rw [h1, h2, h3, h4] at h; exact h
        | ok f => rw [h1, h2, h3, h4] at h; cases h

/-! Directories. -/

theorem getJson_plain (dir : Dir) {name : String} (h : PlainName name) :
    getJson dir name = match dir.lookup name with
      | some f => loads f
      | none => defaultData dir := by
  obtain ⟨h1, h2, h3⟩ := h
  have hs := splitSlash_no_slash h1
  have hd : dirParts name = [] := by simp [dirParts, hs]
  have hb : basePart name = name := by simp [basePart, hs]
  have h2' : name.toList.contains (Char.ofNat 0) = false := by simpa using h2
  unfold getJson
  rw [h2', if_neg (by simp), if_neg (by omega), hd, hb]
  cases dir.lookup name <;> rfl

theorem parseIn_split (dir : Dir) {s name : String} {ws : List String} (h : Shlex.split s = .ok (name :: ws)) :
    parseIn dir s = (do
      let j ← getJson dir name
      let r ← readWords j ws
      .ok ⟨name, r.1, r.2⟩) := by
  simp only [parseIn, h, bind, Except.bind]

theorem parseIn_join (dir : Dir) (name : String) (ws : List String) :
    parseIn dir (Shlex.join (name :: ws)) = (do
      let j ← getJson dir name
      let r ← readWords j ws
      .ok ⟨name, r.1, r.2⟩) := parseIn_split dir (Shlex.split_join _)

theorem parseIn_lists {dir : Dir} {name : String} {j : Json} {d : JsonData} (hn : PlainName name)
    (hd : dir.lookup name = some (some j)) (h : FileLists j d) (ws : List String) :
    parseIn dir (Shlex.join (name :: ws)) = .ok ⟨name, anyNames (parseLoop d ws).1, (parseLoop d ws).2⟩ := by
  rw [parseIn_join, getJson_plain dir hn, hd]
  simp only [loads, bind, Except.bind, readWords_lists h]

theorem anyNames_inj {a b : List FlagOption} (h : anyNames a = anyNames b) : a = b := by
  refine (List.map_inj_right ?_).1 h
  intro x y hxy
  cases x <;> cases y <;> simp_all

/-! Types of arguments. -/

/-- The name of an option among the values. -/
def strKey (p : String × Typer) : Json × Typer := (.str p.1, p.2)

theorem isIndicator_str (kind : String) : isIndicator (.str kind) = decide (kind ∈ indicatorsForFilenames) := by
  have : (fun s => (Json.str kind).isStr s) = fun s => kind == s := rfl
  unfold isIndicator
  rw [this, ← List.contains_eq_any_beq]
  simp

theorem classForArg_text (e : OptionEntry) (p : String) (syns : List String) (h : e.names = p :: syns) :
    classForArg (optionText e) = (do
      let t ← typerOfArgInfo e.arg
      .ok (.str p, t)) := by
  have h1 : (optionText e).index 0 = .ok (.str p) := by simp [optionText, h, spellings, Json.index]
  have h2 : (optionText e).last = .ok (argText e.arg) := by simp [optionText, Json.last]
  unfold classForArg
  simp only [h1, h2, bind, Except.bind]
  cases e.arg with
  | word kind =>
      simp only [argText, typerOfArgInfo, isIndicator_str, Json.hash, bind, Except.bind, decide_not]
      cases pyAssert (!decide (kind ∈ indicatorsForFilenames)) <;> rfl
  | withAccess kind access =>
      simp only [argText, typerOfArgInfo, Json.index, Json.hash, accessFrom, isIndicator_str, bind, Except.bind,
        List.getElem?_cons_zero, List.getElem?_cons_succ, decide_eq_true_eq]
      cases AccessKind.ofString access with
      | error x => rfl
      | ok a => by_cases hk : kind ∈ indicatorsForFilenames <;> simp [hk]

theorem mapM_class (f : OptionEntry → Py (String × Typer)) (l : List OptionEntry)
    (h : ∀ e ∈ l, classForArg (optionText e) = (f e).map strKey) :
    (l.map optionText).mapM classForArg = (l.mapM f).map (·.map strKey) := by
  induction l with
  | nil => rfl
  | cons e l ih =>
      rw [List.map_cons, List.mapM_cons, List.mapM_cons, ih fun e he => h e (by simp [he]), h e (by simp)]
      cases f e with
      | error x => rfl
      | ok t =>
          cases l.mapM f with
          | error x => rfl
          | ok r => rfl

theorem dictClass_lists {j : Json} {d : JsonData} (h : FileLists j d) (hne : ∀ e ∈ d.option, e.names ≠ []) :
    dictOptionToClassForArg j = (PashAnn.dictOptionToClassForArg d).map (·.map strKey) := by
  obtain ⟨items, rfl, -, hf⟩ := h
  have h1 : (Json.obj items).item "option" = .ok (.arr (d.option.map optionText)) := by simp [Json.item, hf]
  simp only [dictOptionToClassForArg, h1, bind, Except.bind, Json.iter, PashAnn.dictOptionToClassForArg]
  refine mapM_class _ _ fun e he => ?_
  cases hn : e.names with
  | nil => exact absurd hn (hne e he)
  | cons p syns =>
      rw [classForArg_text e p syns hn]
      cases typerOfArgInfo e.arg <;> rfl

theorem find_strKey (A : List (String × Typer)) (w : String) :
    (A.map strKey).find? (fun e => e.1.isStr w) = (A.lookup w).map fun v => (.str w, v) := by
  induction A with
  | nil => rfl
  | cons a A ih =>
      obtain ⟨k, v⟩ := a
      rw [List.map_cons, List.find?_cons, List.lookup_cons, ih]
      by_cases h : w = k
      · simp [strKey, Json.isStr, h]
      · have h1 : (k == w) = false := by simpa using fun e => h e.symm
        have h2 : (w == k) = false := by simpa using h
        simp [strKey, Json.isStr, h1, h2]

theorem typerOf_strKey (A : List (String × Typer)) (x : FlagOption) : typerOf (A.map strKey) x = typerOfFlagOption A x := by
  cases x with
  | flag => rfl
  | option n a =>
      simp only [typerOf, typerOfFlagOption, dictGet?]
      rw [← List.map_reverse, find_strKey]
      cases A.reverse.lookup n <;> rfl

theorem argMeans_iff (a : ArgInfo) (t : Typer) : ArgMeans a t ↔ typerOfArgInfo a = .ok t := by
  have hacc : ∀ s k, (s, k) ∈ accessNames ↔ AccessKind.ofString s = .ok k := by
    intro s k
    simp only [accessNames, AccessKind.ofString, List.mem_cons, Prod.mk.injEq, List.not_mem_nil, or_false]
    constructor
    · rintro (⟨rfl, rfl⟩ | ⟨rfl, rfl⟩ | ⟨rfl, rfl⟩ | ⟨rfl, rfl⟩ | ⟨rfl, rfl⟩ | ⟨rfl, rfl⟩ | ⟨rfl, rfl⟩) <;> rfl
    · intro h
      repeat' split at h
      all_goals first | cases h | skip
      all_goals simp_all
  constructor
  · rintro (⟨hk, ha⟩ | ⟨hk, ha⟩ | hk)
    · have ha := (hacc _ _).1 ha
      simp only [typerOfArgInfo, ha, bind, Except.bind]
      rw [if_pos (show _ ∈ indicatorsForFilenames from hk)]
    · have ha := (hacc _ _).1 ha
      simp only [typerOfArgInfo, ha, bind, Except.bind]
      rw [if_neg (show _ ∉ indicatorsForFilenames from hk)]
    · simp only [typerOfArgInfo, bind, Except.bind, pyAssert]
      rw [if_pos (decide_eq_true (show _ ∉ indicatorsForFilenames from hk))]
  · intro h
    cases a with
    | word kind =>
        simp only [typerOfArgInfo, bind, Except.bind, pyAssert] at h
        by_cases hk : kind ∈ indicatorsForFilenames
        · rw [if_neg (by simpa using hk)] at h
          cases h
        · rw [if_pos (by simpa using hk)] at h
          cases h
          exact .word hk
    | withAccess kind access =>
        simp only [typerOfArgInfo, bind, Except.bind] at h
        cases ha : AccessKind.ofString access with
        | error x => rw [ha] at h; cases h
        | ok k =>
            rw [ha] at h
            have ha' := (hacc _ _).2 ha
            by_cases hk : kind ∈ indicatorsForFilenames
            · simp only [hk, if_true, Except.ok.injEq] at h
              subst h
              exact .file hk ha'
            · simp only [hk, if_false, Except.ok.injEq] at h
              subst h
              exact .access hk ha'

/-- The entry of the dictionary for one option. -/
def classOf (e : OptionEntry) : Py (String × Typer) :=
  match e.names with
  | [] => .error .outsideModel
  | name :: _ => do
      let t ← typerOfArgInfo e.arg
      .ok (name, t)

theorem dictClass_eq (d : JsonData) : PashAnn.dictOptionToClassForArg d = d.option.mapM classOf := rfl

theorem classOf_ok (e : OptionEntry) (p : String × Typer) :
    classOf e = .ok p ↔ e.names.head? = some p.1 ∧ ArgMeans e.arg p.2 := by
  obtain ⟨n, t⟩ := p
  rw [argMeans_iff]
  unfold classOf
  cases e.names with
  | nil => simp
  | cons m syns =>
      cases typerOfArgInfo e.arg with
      | error x => simp [bind, Except.bind]
      | ok t' => simp [bind, Except.bind]

theorem dictClass_isOk (l : List OptionEntry) (hne : ∀ e ∈ l, e.names ≠ []) :
    (∃ r, l.mapM classOf = .ok r) ↔ ∀ e ∈ l, ∃ t, ArgMeans e.arg t := by
  rw [mapM_isOk_iff]
  refine forall_congr' fun e => forall_congr' fun he => ?_
  constructor
  · rintro ⟨p, hp⟩
    exact ⟨p.2, ((classOf_ok e p).1 hp).2⟩
  · rintro ⟨t, ht⟩
    cases hn : e.names with
    | nil => exact absurd hn (hne e he)
    | cons m syns => exact ⟨(m, t), (classOf_ok e _).2 ⟨by simp [hn], ht⟩⟩

theorem dictClass_lookup (l : List OptionEntry) (r : List (String × Typer)) (h : l.mapM classOf = .ok r) (name : String)
    (t : Typer) : r.reverse.lookup name = some t ↔
      ∃ before e after, l = before ++ e :: after ∧ e.names.head? = some name ∧ ArgMeans e.arg t ∧
        ∀ e' ∈ after, e'.names.head? ≠ some name := by
  induction l generalizing r with
  | nil =>
      have := (mapM_nil_ok classOf r).1 h
      subst this
      simp
  | cons a l ih =>
      obtain ⟨p, r', hp, hr', rfl⟩ := (mapM_cons_ok classOf a l r).1 h
      have ih := ih r' hr'
      obtain ⟨hp1, hp2⟩ := (classOf_ok a p).1 hp
      rw [show p :: r' = [p] ++ r' from rfl, lookup_reverse_append]
      constructor
      · intro h
        cases hl : r'.reverse.lookup name with
        | some t' =>
            rw [hl, Option.some_or] at h
            obtain ⟨b, e, af, rfl, h1, h2, h3⟩ := ih.1 (hl.trans h)
            exact ⟨a :: b, e, af, rfl, h1, h2, h3⟩
        | none =>
            rw [hl, Option.none_or] at h
            obtain ⟨n, t'⟩ := p
            simp only [List.reverse_singleton, List.lookup_cons, List.lookup_nil] at h
            by_cases hn : name = n
            · subst hn
              simp only [BEq.rfl, Option.some.injEq] at h
              subst h
              refine ⟨[], a, l, rfl, hp1, hp2, fun e he heq => ?_⟩
              obtain ⟨q, hq, hqe⟩ := mapM_ok_mem classOf l r' hr' e he
              have h3 := ((classOf_ok e q).1 hqe).1
              rw [heq] at h3
              have hmem : q ∈ r'.reverse := by simpa using hq
              have : r'.reverse.lookup name ≠ none := by
                intro hnone
                rw [List.lookup_eq_none_iff] at hnone
                have := hnone q hmem
                simp only [Option.some.injEq] at h3
                simp [h3] at this
              exact this hl
            · have : (name == n) = false := by simpa using hn
              simp [this] at h
      · rintro ⟨b, e, af, heq, h1, h2, h3⟩
        cases b with
        | nil =>
            simp only [List.nil_append, List.cons.injEq] at heq
            obtain ⟨rfl, rfl⟩ := heq
            have hnone : r'.reverse.lookup name = none := by
              rw [List.lookup_eq_none_iff]
              intro q hq
              obtain ⟨e', he', hqe⟩ := mapM_ok_mem' classOf l r' hr' q (by simpa using hq)
              have h4 := ((classOf_ok e' q).1 hqe).1
              have h5 := h3 e' he'
              rw [h4] at h5
              simpa using fun hx => h5 (by rw [hx])
            rw [hnone, Option.none_or]
            obtain ⟨n, t'⟩ := p
            rw [hp1] at h1
            simp only [Option.some.injEq] at h1
            subst h1
            have : t' = t := by
              have := (argMeans_iff _ _).1 hp2
              rw [(argMeans_iff _ _).1 h2] at this
              exact (Except.ok.inj this).symm
            simp [this]
        | cons x b =>
            simp only [List.cons_append, List.cons.injEq] at heq
            obtain ⟨rfl, rfl⟩ := heq
            rw [ih.2 ⟨b, e, af, rfl, h1, h2, h3⟩, Option.some_or]

/-- The names of the options that are read are first spellings. -/
theorem derives_option_first {d : JsonData} {ws fs ops} (h : Derives d ws fs ops) {n a : String}
    (hm : FlagOption.option n a ∈ fs) : ∃ e ∈ d.option, e.names.head? = some n := by
  induction h with
  | done => simp at hm
  | operands => simp at hm
  | flag h1 h2 h3 _ ih =>
      rcases List.mem_cons.1 hm with h | h
      · cases h
      · exact ih h
  | option h1 h2 h3 h4 _ ih =>
      rcases List.mem_cons.1 hm with h | h
      · cases h
        rcases h4 with ⟨before, p', syns, after, he, hw, rfl, -⟩ | ⟨hn, rfl⟩
        · have : (n :: syns) ∈ optionGroups d := by rw [he]; simp
          obtain ⟨e, hd, he'⟩ := List.mem_map.1 this
          exact ⟨e, hd, by rw [he']; rfl⟩
        · obtain ⟨g, hg, hw⟩ := h3
          obtain ⟨e, hd, rfl⟩ := List.mem_map.1 hg
          refine ⟨e, hd, ?_⟩
          have := hn _ hg
          cases hnm : e.names with
          | nil => rw [hnm] at hw; simp at hw
          | cons x xs =>
              rw [hnm] at hw this
              rcases List.mem_cons.1 hw with rfl | hx
              · rfl
              · exact absurd hx this
      · exact ih h
  | cluster h1 h2 h3 _ ih =>
      rcases List.mem_append.1 hm with h | h
      · obtain ⟨c, _, hc⟩ := List.mem_map.1 h
        cases hc
      · exact ih h

end DataFiles
end PashAnn
