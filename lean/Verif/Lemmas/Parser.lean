import Verif.Model.Parser
import Verif.Spec.Grammar
import Verif.Lemmas.Shlex

namespace PashAnn
open Spec

theorem flagSpellings_eq (e : FlagEntry) : flagSpellings e = e.items := by
  cases e with
  | group l => rfl
  | bare s => simp [flagSpellings, FlagEntry.items]

theorem mem_setOfAllFlags (d : JsonData) (w : String) :
    w ∈ setOfAllFlags d ↔ Declared (flagGroups d) w := by
  constructor
  · rintro h
    obtain ⟨e, he, hw⟩ := List.mem_flatMap.1 h
    exact ⟨_, List.mem_map.2 ⟨e, he, rfl⟩, flagSpellings_eq e ▸ hw⟩
  · rintro ⟨g, hg, hw⟩
    obtain ⟨e, he, rfl⟩ := List.mem_map.1 hg
    exact List.mem_flatMap.2 ⟨e, he, flagSpellings_eq e ▸ hw⟩

theorem mem_setOfAllOptions (d : JsonData) (w : String) :
    w ∈ setOfAllOptions d ↔ Declared (optionGroups d) w := by
  constructor
  · rintro h
    obtain ⟨e, he, hw⟩ := List.mem_flatMap.1 h
    exact ⟨_, List.mem_map.2 ⟨e, he, rfl⟩, hw⟩
  · rintro ⟨g, hg, hw⟩
    obtain ⟨e, he, rfl⟩ := List.mem_map.1 hg
    exact List.mem_flatMap.2 ⟨e, he, hw⟩

/-- The assignments of all groups. -/
def allAssignments (groups : List (List String)) : List (String × String) := groups.flatMap synonymAssignments

theorem dictFlag_eq (d : JsonData) : dictFlagToPrimaryRepr d = allAssignments (flagGroups d) := by
  simp [dictFlagToPrimaryRepr, allAssignments, flagGroups, List.flatMap_map, flagSpellings_eq]

theorem dictOption_eq (d : JsonData) : dictOptionToPrimaryRepr d = allAssignments (optionGroups d) := by
  simp [dictOptionToPrimaryRepr, allAssignments, optionGroups, List.flatMap_map]

theorem lookup_reverse_append {α} (l l' : List (String × α)) (k : String) :
    (l ++ l').reverse.lookup k = (l'.reverse.lookup k).or (l.reverse.lookup k) := by
  rw [List.reverse_append, List.lookup_append]

theorem lookup_none_of_forall {α} (l : List (String × α)) (k : String) (h : ∀ p ∈ l, p.1 ≠ k) :
    l.lookup k = none := by
  induction l with
  | nil => rfl
  | cons p l ih =>
      obtain ⟨a, b⟩ := p
      have : (k == a) = false := by simpa using fun e => (h (a, b) (by simp)) e.symm
      rw [List.lookup_cons, this]
      exact ih (fun p hp => h p (by simp [hp]))

theorem lookup_map_const (l : List String) (k p : String) :
    ((l.map fun s => (s, p)).lookup k) = if k ∈ l then some p else none := by
  induction l with
  | nil => simp
  | cons a l ih =>
      rw [List.map_cons, List.lookup_cons]
      by_cases h : k = a
      · simp [h]
      · have : (k == a) = false := by simpa using h
        simp [this, ih, h]

theorem synonymAssignments_lookup (g : List String) (k : String) :
    (synonymAssignments g).reverse.lookup k = if k ∈ g.tail then g.head? else none := by
  cases g with
  | nil => simp [synonymAssignments]
  | cons p syns =>
      rw [synonymAssignments, ← List.map_reverse, lookup_map_const]
      by_cases h : k ∈ syns <;> simp [h]

theorem allAssignments_lookup_none (groups : List (List String)) (k : String) (h : ∀ g ∈ groups, k ∉ g.tail) :
    (allAssignments groups).reverse.lookup k = none := by
  apply lookup_none_of_forall
  intro p hp he
  simp only [List.mem_reverse, allAssignments, List.mem_flatMap] at hp
  obtain ⟨g, hg, hp⟩ := hp
  cases g with
  | nil => simp [synonymAssignments] at hp
  | cons q syns =>
      simp only [synonymAssignments, List.mem_map] at hp
      obtain ⟨s, hs, rfl⟩ := hp
      exact h _ hg (by subst he; simpa using hs)

theorem canonical_lookup {groups : List (List String)} {w p : String} (h : Canonical groups w p) :
    dictGetD (allAssignments groups) w w = p := by
  unfold dictGetD dictGet?
  rcases h with ⟨before, p', syns, after, rfl, hw, rfl, ha⟩ | ⟨hn, rfl⟩
  · have h1 : allAssignments (before ++ (p :: syns) :: after) =
        (allAssignments before ++ synonymAssignments (p :: syns)) ++ allAssignments after := by
      simp [allAssignments]
    rw [h1, lookup_reverse_append, lookup_reverse_append, allAssignments_lookup_none _ _ ha,
      synonymAssignments_lookup]
    simp [hw]
  · rw [allAssignments_lookup_none _ _ hn]

theorem exists_last_group (groups : List (List String)) (w : String) (h : ∃ g ∈ groups, w ∈ g.tail) :
    ∃ before p' syns after, groups = before ++ (p' :: syns) :: after ∧ w ∈ syns ∧ ∀ g ∈ after, w ∉ g.tail := by
  induction groups with
  | nil => simp at h
  | cons g groups ih =>
      by_cases h' : ∃ g ∈ groups, w ∈ g.tail
      · obtain ⟨before, p', syns, after, rfl, hw, ha⟩ := ih h'
        exact ⟨g :: before, p', syns, after, rfl, hw, ha⟩
      · obtain ⟨g', hg', hw⟩ := h
        rcases List.mem_cons.1 hg' with rfl | hm
        · cases g' with
          | nil => simp at hw
          | cons p' syns =>
              exact ⟨[], p', syns, groups, rfl, by simpa using hw, fun g hg hwg => h' ⟨g, hg, hwg⟩⟩
        · exact absurd ⟨g', hm, hw⟩ h'

theorem canonical_exists (groups : List (List String)) (w : String) : ∃ p, Canonical groups w p := by
  by_cases h : ∃ g ∈ groups, w ∈ g.tail
  · obtain ⟨b, p', s, a, e, hw, ha⟩ := exists_last_group groups w h
    exact ⟨p', .inl ⟨b, p', s, a, e, hw, rfl, ha⟩⟩
  · exact ⟨w, .inr ⟨fun g hg hw => h ⟨g, hg, hw⟩, rfl⟩⟩

theorem canonical_iff (groups : List (List String)) (w p : String) :
    Canonical groups w p ↔ dictGetD (allAssignments groups) w w = p := by
  constructor
  · exact canonical_lookup
  · intro h
    obtain ⟨p', hp'⟩ := canonical_exists groups w
    rw [canonical_lookup hp'] at h
    exact h ▸ hp'

theorem canonical_unique {groups : List (List String)} {w p q : String} (h : Canonical groups w p)
    (h' : Canonical groups w q) : p = q :=
  (canonical_lookup h).symm.trans (canonical_lookup h')

theorem primaryFlag_canonical (d : JsonData) (w : String) : Canonical (flagGroups d) w (primaryFlag d w) := by
  rw [canonical_iff, primaryFlag, dictFlag_eq]

theorem primaryOption_canonical (d : JsonData) (w : String) : Canonical (optionGroups d) w (primaryOption d w) := by
  rw [canonical_iff, primaryOption, dictOption_eq]

theorem canonical_sameName {groups : List (List String)} {w p : String} (h : Canonical groups w p) :
    SameName groups w p := by
  rcases h with ⟨before, p', syns, after, rfl, hw, rfl, _⟩ | ⟨_, rfl⟩
  · exact .inr ⟨p :: syns, by simp, by simp [hw], by simp⟩
  · exact .inl rfl

theorem canonical_declared {groups : List (List String)} {w p : String} (hd : Declared groups w)
    (h : Canonical groups w p) : Declared groups p := by
  rcases h with ⟨before, p', syns, after, rfl, hw, rfl, _⟩ | ⟨_, rfl⟩
  · exact ⟨p :: syns, by simp, by simp⟩
  · exact hd

theorem toList_eq_nil {s : String} : s.toList = [] ↔ s = "" := by
  constructor
  · intro h
    have := congrArg String.ofList h
    simpa using this
  · rintro rfl; rfl

theorem clusterOf_iff (d : JsonData) (w : String) (c : Char) (cs : List Char) (hw : w.toList = c :: cs) :
    areAllIndividuallyFlags (setOfAllFlags d) c cs = true ↔ ClusterOf d w cs := by
  unfold areAllIndividuallyFlags ClusterOf
  rw [hw]
  by_cases hc : c = '-'
  · subst hc
    by_cases hn : cs = []
    · simp [hn]
    · simp only [bne_self_eq_false, beq_self_eq_true, Bool.true_and, Bool.false_or, List.isEmpty_iff, hn,
        if_false, List.all_eq_true, true_and, ne_eq, not_false_eq_true]
      constructor
      · intro h c hc
        exact (mem_setOfAllFlags d _).1 (of_decide_eq_true (h c hc))
      · intro h c hc
        exact decide_eq_true ((mem_setOfAllFlags d _).2 (h c hc))
  · simp [hc]

theorem clusterOf_letters {d : JsonData} {w : String} {letters : List Char} (h : ClusterOf d w letters) :
    w = String.ofList ('-' :: letters) := by
  rw [← h.1]; simp

/-! One step of the loop. -/

theorem parseLoop_empty (d : JsonData) (rest : List String) : parseLoop d ("" :: rest) = ([], "" :: rest) := by
  rw [parseLoop]; rfl

theorem exists_cons {w : String} (h : w ≠ "") : ∃ c cs, w.toList = c :: cs := by
  cases hw : w.toList with
  | nil => exact absurd (toList_eq_nil.1 hw) h
  | cons c cs => exact ⟨c, cs, rfl⟩

theorem parseLoop_flag (d : JsonData) (w : String) (rest : List String) (h : w ≠ "")
    (hf : Declared (flagGroups d) w) :
    parseLoop d (w :: rest) = (.flag (primaryFlag d w) :: (parseLoop d rest).1, (parseLoop d rest).2) := by
  obtain ⟨c, cs, hc⟩ := exists_cons h
  rw [parseLoop, hc]
  simp only [mem_setOfAllFlags, hf, if_true]

theorem parseLoop_option (d : JsonData) (w arg : String) (rest : List String) (h : w ≠ "")
    (hf : ¬ Declared (flagGroups d) w) (ho : Declared (optionGroups d) w) :
    parseLoop d (w :: arg :: rest) =
      (.option (primaryOption d w) arg :: (parseLoop d rest).1, (parseLoop d rest).2) := by
  obtain ⟨c, cs, hc⟩ := exists_cons h
  rw [parseLoop.eq_def]
  simp only [hc, mem_setOfAllFlags, hf, if_false, mem_setOfAllOptions, ho, if_true]

theorem parseLoop_other (d : JsonData) (w : String) (rest : List String) (c : Char) (cs : List Char)
    (h : w.toList = c :: cs) (hf : ¬ Declared (flagGroups d) w)
    (ho : ¬ (Declared (optionGroups d) w ∧ rest ≠ [])) :
    parseLoop d (w :: rest) =
      if areAllIndividuallyFlags (setOfAllFlags d) c cs then
        (cs.map (fun x => FlagOption.flag (dashed x)) ++ (parseLoop d rest).1, (parseLoop d rest).2)
      else ([], w :: rest) := by
  rw [parseLoop.eq_def]
  simp only [h, mem_setOfAllFlags, hf, if_false, mem_setOfAllOptions]
  cases rest with
  | nil => rfl
  | cons a rest =>
      have ho' : ¬ Declared (optionGroups d) w := fun h => ho ⟨h, by simp⟩
      have ho'' : w ∉ setOfAllOptions d := fun h => ho' ((mem_setOfAllOptions d w).1 h)
      simp only [ho'', if_false]

theorem parseLoop_cluster (d : JsonData) (w : String) (rest : List String) (letters : List Char)
    (hf : ¬ Declared (flagGroups d) w) (ho : ¬ (Declared (optionGroups d) w ∧ rest ≠ []))
    (hc : ClusterOf d w letters) :
    parseLoop d (w :: rest) =
      (letters.map (fun c => .flag (String.ofList ['-', c])) ++ (parseLoop d rest).1, (parseLoop d rest).2) := by
  rw [parseLoop_other d w rest '-' letters hc.1 hf ho, (clusterOf_iff d w _ _ hc.1).2 hc]
  rfl

theorem parseLoop_operands (d : JsonData) (w : String) (rest : List String) (h : StartsOperands d w rest) :
    parseLoop d (w :: rest) = ([], w :: rest) := by
  rcases h with rfl | ⟨hf, ho, hc⟩
  · exact parseLoop_empty d rest
  · by_cases hw : w = ""
    · subst hw; exact parseLoop_empty d rest
    · obtain ⟨c, cs, hcs⟩ := exists_cons hw
      rw [parseLoop_other d w rest c cs hcs hf ho]
      have : ¬ areAllIndividuallyFlags (setOfAllFlags d) c cs = true := by
        rw [clusterOf_iff d w c cs hcs]; exact hc cs
      simp [this]

theorem derives_functional {d : JsonData} {ws fs ops} (h : Derives d ws fs ops) :
    parseLoop d ws = (fs, ops) := by
  induction h with
  | done => rfl
  | operands h => exact parseLoop_operands d _ _ h
  | flag h1 h2 h3 _ ih =>
      rw [parseLoop_flag d _ _ h1 h2, ih, canonical_unique (primaryFlag_canonical d _) h3]
  | option h1 h2 h3 h4 _ ih =>
      rw [parseLoop_option d _ _ _ h1 h2 h3, ih, canonical_unique (primaryOption_canonical d _) h4]
  | cluster h1 h2 h3 _ ih => rw [parseLoop_cluster d _ _ _ h1 h2 h3, ih]

theorem derives_exists (d : JsonData) (n : Nat) : ∀ ws : List String, ws.length ≤ n →
    ∃ fs ops, Derives d ws fs ops := by
  induction n with
  | zero =>
      intro ws h
      have : ws = [] := by simpa using h
      subst this; exact ⟨[], [], .done⟩
  | succ n ih =>
      intro ws h
      cases ws with
      | nil => exact ⟨[], [], .done⟩
      | cons w rest =>
          have hr : rest.length ≤ n := by simpa using h
          by_cases h0 : w = ""
          · exact ⟨_, _, .operands (.inl h0)⟩
          · by_cases h1 : Declared (flagGroups d) w
            · obtain ⟨fs, ops, hd⟩ := ih rest hr
              exact ⟨_, _, .flag h0 h1 (primaryFlag_canonical d w) hd⟩
            · by_cases h2 : Declared (optionGroups d) w ∧ rest ≠ []
              · cases rest with
                | nil => simp at h2
                | cons a rest =>
                    obtain ⟨fs, ops, hd⟩ := ih rest (by simp at hr; omega)
                    exact ⟨_, _, .option h0 h1 h2.1 (primaryOption_canonical d w) hd⟩
              · by_cases h3 : ∃ letters, ClusterOf d w letters
                · obtain ⟨l, hl⟩ := h3
                  obtain ⟨fs, ops, hd⟩ := ih rest hr
                  exact ⟨_, _, .cluster h1 h2 hl hd⟩
                · exact ⟨_, _, .operands (.inr ⟨h1, h2, fun l hl => h3 ⟨l, hl⟩⟩)⟩

theorem derives_parseLoop (d : JsonData) (ws : List String) :
    Derives d ws (parseLoop d ws).1 (parseLoop d ws).2 := by
  obtain ⟨fs, ops, h⟩ := derives_exists d _ ws (Nat.le_refl _)
  rw [derives_functional h]; exact h

theorem derives_iff (d : JsonData) (ws fs ops) : Derives d ws fs ops ↔ parseLoop d ws = (fs, ops) :=
  ⟨derives_functional, fun h => by have := derives_parseLoop d ws; rwa [h] at this⟩

/-! Databases. -/

theorem lookup_mem {α} {l : List (String × α)} {k : String} {v : α} (h : l.lookup k = some v) : (k, v) ∈ l := by
  induction l with
  | nil => simp at h
  | cons p l ih =>
      obtain ⟨a, b⟩ := p
      rw [List.lookup_cons] at h
      by_cases hk : k = a
      · subst hk; simp at h; simp [h]
      · have : (k == a) = false := by simpa using hk
        rw [this] at h
        exact List.mem_cons_of_mem _ (ih h)

theorem lookup_of_mem {α} {l : List (String × α)} {k : String} {v : α} (hn : (l.map Prod.fst).Nodup)
    (h : (k, v) ∈ l) : l.lookup k = some v := by
  induction l with
  | nil => simp at h
  | cons p l ih =>
      obtain ⟨a, b⟩ := p
      rw [List.map_cons, List.nodup_cons] at hn
      rcases List.mem_cons.1 h with h' | h'
      · cases h'; simp
      · have : (k == a) = false := by
          simp only [beq_eq_false_iff_ne]
          rintro rfl
          exact hn.1 (List.mem_map.2 ⟨(k, v), by assumption, rfl⟩)
        rw [List.lookup_cons, this]; exact ih hn.2 h'

theorem table_nodup : (Data.table.map Prod.fst).Nodup := by decide +kernel

/-! Names of commands that are paths. -/

theorem splitSlash_ne_nil (l : List Char) : splitSlash l ≠ [] := by
  cases l with
  | nil => simp [splitSlash]
  | cons c l =>
      unfold splitSlash
      split
      · simp
      · split <;> simp

theorem splitSlash_no_slash {l : List Char} (h : '/' ∉ l) : splitSlash l = [l] := by
  induction l with
  | nil => rfl
  | cons c l ih =>
      simp only [List.mem_cons, not_or] at h
      have hc : ¬ c = '/' := fun e => h.1 e.symm
      simp [splitSlash, hc, ih h.2]

theorem splitSlash_part {w : List Char} (h : '/' ∉ w) (l : List Char) :
    splitSlash (w ++ '/' :: l) = w :: splitSlash l := by
  induction w with
  | nil => simp [splitSlash]
  | cons c w ih =>
      simp only [List.mem_cons, not_or] at h
      have hc : ¬ c = '/' := fun e => h.1 e.symm
      simp [splitSlash, hc, ih h.2]

/-- The parts of a path, the last one and the others without those that stay where they are. -/
def pathParts (l : List Char) : List String × String :=
  (((splitSlash l).dropLast.map String.ofList).filter (fun p => p != "" && p != "."),
    String.ofList ((splitSlash l).getLastD []))

theorem pathParts_part {w : List Char} (h : '/' ∉ w) (l : List Char) :
    pathParts (w ++ '/' :: l) = (if String.ofList w ∈ ["", "."] then (pathParts l).1 else String.ofList w :: (pathParts l).1,
      (pathParts l).2) := by
  unfold pathParts
  rw [splitSlash_part h, List.dropLast_cons_of_ne_nil (splitSlash_ne_nil l)]
  obtain ⟨a, m, e⟩ := List.exists_cons_of_ne_nil (splitSlash_ne_nil l)
  rw [e]
  by_cases hw : String.ofList w ∈ ["", "."]
  · have : (String.ofList w != "" && String.ofList w != ".") = false := by
      simp only [List.mem_cons, List.not_mem_nil, or_false] at hw
      rcases hw with hw | hw <;> simp [hw]
    simp [hw, this]
  · have : (String.ofList w != "" && String.ofList w != ".") = true := by
      simp only [List.mem_cons, List.not_mem_nil, or_false, not_or] at hw
      simp [hw.1, hw.2]
    simp [hw, this]

theorem pathParts_last {l : List Char} (h : '/' ∉ l) : pathParts l = ([], String.ofList l) := by
  simp [pathParts, splitSlash_no_slash h]

theorem pathParts_here {pre : List Char} (h : Here pre) (l : List Char) : pathParts (pre ++ l) = pathParts l := by
  induction h with
  | nil => rfl
  | slash _ ih =>
      have := pathParts_part (w := []) (by simp) (‹List Char› ++ l)
      simpa [ih] using this
  | dot _ ih =>
      have := pathParts_part (w := ['.']) (by decide) (‹List Char› ++ l)
      simpa [ih] using this

/-- Every name is a path that stays where it is, followed by a name without slashes or a directory. -/
theorem path_cases (l : List Char) : ∃ pre l', Here pre ∧ l = pre ++ l' ∧
    ('/' ∉ l' ∨ ∃ w rest, '/' ∉ w ∧ String.ofList w ∉ ["", "."] ∧ l' = w ++ '/' :: rest) := by
  induction hn : l.length using Nat.strongRecOn generalizing l with
  | _ n ih =>
      by_cases h : '/' ∈ l
      · obtain ⟨w, rest, rfl, hw⟩ := List.eq_append_cons_of_mem h
        by_cases hd : String.ofList w ∈ ["", "."]
        · obtain ⟨pre, l', h1, h2, h3⟩ := ih rest.length (by subst hn; simp; omega) rest rfl
          have hww : w = [] ∨ w = ['.'] := by
            simp only [List.mem_cons, List.not_mem_nil, or_false] at hd
            rcases hd with hd | hd
            · left; have := congrArg String.toList hd; simpa using this
            · right; have := congrArg String.toList hd; simpa using this
          rcases hww with rfl | rfl
          · exact ⟨'/' :: pre, l', .slash h1, by simp [h2], h3⟩
          · exact ⟨'.' :: '/' :: pre, l', .dot h1, by simp [h2], h3⟩
        · exact ⟨[], _, .nil, rfl, .inr ⟨w, rest, hw, hd, rfl⟩⟩
      · exact ⟨[], l, .nil, rfl, .inl h⟩

theorem names_iff (name base : String) : Names name base ↔ pathParts name.toList = ([], base) := by
  constructor
  · rintro ⟨hb, pre, hp, e⟩
    rw [e, pathParts_here hp, pathParts_last hb]
    simp
  · intro h
    obtain ⟨pre, l, hp, e, hl | ⟨w, rest, hw, hd, rfl⟩⟩ := path_cases name.toList
    · rw [e, pathParts_here hp, pathParts_last hl] at h
      cases h
      exact ⟨by simpa using hl, pre, hp, by simpa using e⟩
    · rw [e, pathParts_here hp, pathParts_part hw, if_neg hd] at h
      cases h

theorem goesThrough_iff (name dir : String) : GoesThrough name dir ↔ (pathParts name.toList).1.head? = some dir := by
  constructor
  · rintro ⟨hb, hd, pre, rest, hp, e⟩
    rw [e, List.append_assoc, pathParts_here hp, pathParts_part hb, if_neg (by simpa using hd)]
    simp
  · intro h
    obtain ⟨pre, l, hp, e, hl | ⟨w, rest, hw, hd, rfl⟩⟩ := path_cases name.toList
    · rw [e, pathParts_here hp, pathParts_last hl] at h
      cases h
    · rw [e, pathParts_here hp, pathParts_part hw, if_neg hd] at h
      cases h
      exact ⟨by simpa using hw, hd, pre, rest, hp, by simpa using e⟩

instance (name base : String) : Decidable (Names name base) := decidable_of_iff _ (names_iff name base).symm

theorem dataFile_iff (file : String) : DataFile file ↔ Data.table.any (fun e => e.1 ++ ".json" == file) = true := by
  simp only [DataFile, List.any_eq_true, Prod.exists, beq_iff_eq]
  constructor
  · rintro ⟨n, d, h, rfl⟩; exact ⟨n, d, h, rfl⟩
  · rintro ⟨n, d, h, rfl⟩; exact ⟨n, d, h, rfl⟩

theorem names_self {name : String} (h : '/' ∉ name.toList) : Names name name := ⟨h, [], .nil, rfl⟩

theorem table_no_slash : ∀ p ∈ Data.table, '/' ∉ p.1.toList := by decide +kernel

theorem databaseFor_table {name : String} {d : JsonData} (h : (name, d) ∈ Data.table) : DatabaseFor name d :=
  .inl ⟨name, names_self (table_no_slash _ h), h⟩

theorem names_plain {name base : String} (hs : '/' ∉ name.toList) (h : Names name base) : base = name :=
  congrArg Prod.snd (((names_iff _ _).1 h).symm.trans ((names_iff _ _).1 (names_self hs)))

/-- A name without a slash has the data of that name. -/
theorem databaseFor_plain {name : String} {d : JsonData} (hs : '/' ∉ name.toList) (h : DatabaseFor name d) :
    (name, d) ∈ Data.table ∨ ((∀ d', (name, d') ∉ Data.table) ∧ d = Data.d_default_data_for_commands) := by
  rcases h with ⟨b, hb, hm⟩ | ⟨hn, rfl⟩
  · exact .inl (names_plain hs hb ▸ hm)
  · exact .inr ⟨fun d' => hn _ d' (names_self hs), rfl⟩

theorem databaseFor_exists (name : String) : ∃ d, DatabaseFor name d := by
  by_cases h : ∃ base d, Names name base ∧ (base, d) ∈ Data.table
  · obtain ⟨base, d, h, hm⟩ := h; exact ⟨d, .inl ⟨base, h, hm⟩⟩
  · exact ⟨_, .inr ⟨fun base d hn hd => h ⟨base, d, hn, hd⟩, rfl⟩⟩

theorem databaseFor_unique {name : String} {d d' : JsonData} (h : DatabaseFor name d) (h' : DatabaseFor name d') :
    d = d' := by
  rcases h with ⟨b, hb, h⟩ | ⟨hn, rfl⟩
  · rcases h' with ⟨b', hb', h'⟩ | ⟨hn', rfl⟩
    · have e : b = b' := by
        have := ((names_iff _ _).1 hb).symm.trans ((names_iff _ _).1 hb')
        exact congrArg Prod.snd this
      subst e
      have := lookup_of_mem table_nodup h
      rw [lookup_of_mem table_nodup h'] at this
      exact (Option.some.inj this).symm
    · exact absurd h (hn' _ _ hb)
  · rcases h' with ⟨b', hb', h'⟩ | ⟨_, rfl⟩
    · exact absurd h' (hn _ _ hb')
    · rfl

theorem databaseFor_shipped {name : String} {d : JsonData} (h : DatabaseFor name d) : Shipped d := by
  rcases h with ⟨b, _, h⟩ | ⟨_, rfl⟩
  · exact .inl ⟨b, h⟩
  · exact .inr rfl

/-- The four outcomes of looking for the data of a command. -/
theorem getJsonData_cases (name : String) :
    (Char.ofNat 0 ∈ name.toList ∧ getJsonData name = .error (.valueError "embedded null byte")) ∨
    (Char.ofNat 0 ∉ name.toList ∧ (250 < name.utf8ByteSize ∨ GoesThrough name "..") ∧
      getJsonData name = .error .outsideModel) ∨
    (Char.ofNat 0 ∉ name.toList ∧ name.utf8ByteSize ≤ 250 ∧ (∃ dir, GoesThrough name dir ∧ DataFile dir) ∧
      getJsonData name = .error .notADirectoryError) ∨
    (Readable name ∧ ∃ d, DatabaseFor name d ∧ getJsonData name = .ok d) := by
  by_cases h0 : Char.ofNat 0 ∈ name.toList
  · exact .inl ⟨h0, by simp [getJsonData, h0]⟩
  right
  by_cases h1 : 250 < name.utf8ByteSize
  · exact .inl ⟨h0, .inl h1, by simp [getJsonData, h0, h1]⟩
  have hg : getJsonData name = match (pathParts name.toList).1 with
      | [] =>
        match Data.table.lookup (pathParts name.toList).2 with
        | some d => .ok d
        | none => .ok Data.d_default_data_for_commands
      | dir :: _ =>
        if dir == ".." then .error .outsideModel
        else if Data.table.any (fun e => e.1 ++ ".json" == dir) then .error .notADirectoryError
        else .ok Data.d_default_data_for_commands := by
    have h0' : name.toList.contains (Char.ofNat 0) = false := by simpa using h0
    unfold getJsonData
    rw [h0', if_neg (by simp), if_neg h1]
    rfl
  rw [hg]
  have hthrough := goesThrough_iff name
  have hnames := names_iff name
  rcases hp : pathParts name.toList with ⟨_ | ⟨dir, dirs⟩, base⟩
  · rw [hp] at hthrough hnames
    refine .inr (.inr ⟨⟨h0, by omega, fun dir hd => ?_⟩, ?_⟩)
    · cases (hthrough dir).1 hd
    have hb : Names name base := (hnames base).2 rfl
    cases hl : Data.table.lookup base with
    | some d => exact ⟨d, .inl ⟨base, hb, lookup_mem hl⟩, rfl⟩
    | none =>
        refine ⟨_, .inr ⟨fun b d hn hd => ?_, rfl⟩, rfl⟩
        cases (hnames b).1 hn
        rw [lookup_of_mem table_nodup hd] at hl
        cases hl
  · rw [hp] at hthrough hnames
    have hd : GoesThrough name dir := (hthrough dir).2 rfl
    by_cases hdd : dir = ".."
    · subst hdd
      exact .inl ⟨h0, .inr hd, by simp⟩
    by_cases hf : DataFile dir
    · refine .inr (.inl ⟨h0, by omega, ⟨dir, hd, hf⟩, ?_⟩)
      have := (dataFile_iff dir).1 hf
      simp only [beq_iff_eq, hdd, if_false, this, if_true]
    · refine .inr (.inr ⟨⟨h0, by omega, fun dir' hd' => ?_⟩, Data.d_default_data_for_commands, .inr ⟨fun b d hn _ => ?_, rfl⟩, ?_⟩)
      · cases (hthrough dir').1 hd'
        exact ⟨hdd, hf⟩
      · cases (hnames b).1 hn
      · rw [dataFile_iff] at hf
        simp only [beq_iff_eq, hdd, if_false, hf, Bool.false_eq_true]

theorem databaseFor_iff (name : String) (d : JsonData) (hp : Readable name) :
    getJsonData name = .ok d ↔ DatabaseFor name d := by
  rcases getJsonData_cases name with ⟨h, _⟩ | ⟨_, h, _⟩ | ⟨_, _, ⟨dir, h, hf⟩, _⟩ | ⟨_, d', hd', he⟩
  · exact absurd h hp.1
  · rcases h with h | h
    · exact absurd hp.2.1 (by omega)
    · exact absurd rfl (hp.2.2 _ h).1
  · exact absurd hf (hp.2.2 _ h).2
  · rw [he]
    constructor
    · intro h; cases h; exact hd'
    · intro h; rw [databaseFor_unique h hd']

theorem readable_iff (name : String) : Readable name ↔ ∃ d, getJsonData name = .ok d := by
  constructor
  · intro h
    obtain ⟨d, hd⟩ := databaseFor_exists name
    exact ⟨d, (databaseFor_iff _ _ h).2 hd⟩
  · rintro ⟨d, hd⟩
    rcases getJsonData_cases name with ⟨_, h⟩ | ⟨_, _, h⟩ | ⟨_, _, _, h⟩ | ⟨h, _⟩
    · rw [hd] at h; cases h
    · rw [hd] at h; cases h
    · rw [hd] at h; cases h
    · exact h

instance (name : String) : Decidable (Readable name) :=
  decidable_of_iff ((getJsonData name).isOk = true) (by
    rw [readable_iff]
    cases getJsonData name <;> simp [Except.isOk, Except.toBool])

/-! `parse` on texts and on word lists. -/

theorem parse_of_split {s : String} {name : String} {ws : List String} {d : JsonData}
    (h : Shlex.split s = .ok (name :: ws)) (hp : Readable name) (hd : DatabaseFor name d) :
    parse s = .ok ⟨name, (parseLoop d ws).1, (parseLoop d ws).2⟩ := by
  have hj := (databaseFor_iff name d hp).2 hd
  simp only [parse, h, bind, Except.bind, parseTokens, hj]

theorem parse_join {name : String} {ws : List String} {d : JsonData} (hp : Readable name)
    (hd : DatabaseFor name d) :
    parse (Shlex.join (name :: ws)) = .ok ⟨name, (parseLoop d ws).1, (parseLoop d ws).2⟩ :=
  parse_of_split (Shlex.split_join _) hp hd

theorem parse_ok {s : String} {inv : CommandInvocationInitial} (h : parse s = .ok inv) :
    ∃ name ws d, Shlex.split s = .ok (name :: ws) ∧ Readable name ∧ DatabaseFor name d ∧
      inv = ⟨name, (parseLoop d ws).1, (parseLoop d ws).2⟩ := by
  unfold parse at h
  cases hs : Shlex.split s with
  | error e => rw [hs] at h; cases h
  | ok l =>
      rw [hs] at h
      cases l with
      | nil => cases h
      | cons name ws =>
          by_cases hp : Readable name
          case neg =>
              rw [readable_iff] at hp
              cases hj : getJsonData name with
              | ok d => exact absurd ⟨d, hj⟩ hp
              | error e => simp [bind, Except.bind, parseTokens, hj] at h
          case pos =>
              obtain ⟨d, hd⟩ := databaseFor_exists name
              refine ⟨name, ws, d, rfl, hp, hd, ?_⟩
              have := parse_of_split hs hp hd
              unfold parse at this
              rw [hs] at this
              rw [h] at this
              exact Except.ok.inj this

/-! Induction over derivations. -/

theorem derives_append {d : JsonData} (hno : ∀ w, Declared (optionGroups d) w → ∀ l, ¬ ClusterOf d w l)
    {pre fs ops₀} (h : Derives d pre fs ops₀) (h0 : ops₀ = []) {post fs' ops} (h' : Derives d post fs' ops) :
    Derives d (pre ++ post) (fs ++ fs') ops := by
  induction h with
  | done => exact h'
  | operands => simp at h0
  | flag h1 h2 h3 _ ih => exact .flag h1 h2 h3 (ih h0)
  | option h1 h2 h3 h4 _ ih => exact .option h1 h2 h3 h4 (ih h0)
  | cluster h1 h2 h3 _ ih =>
      rw [List.append_assoc]
      exact .cluster h1 (fun h => hno _ h.1 _ h3) h3 (ih h0)

theorem derives_extend {d : JsonData} {ws fs ops} (h : Derives d ws fs ops) {o os} (ho : ops = o :: os)
    (hx : os ≠ [] ∨ ¬ Declared (optionGroups d) o) (more : List String) :
    Derives d (ws ++ more) fs (ops ++ more) := by
  induction h with
  | done => simp at ho
  | @operands w rest h =>
      obtain ⟨rfl, rfl⟩ := List.cons.inj ho
      refine .operands ?_
      rcases h with h | ⟨h1, h2, h3⟩
      · exact .inl h
      · refine .inr ⟨h1, fun h => ?_, h3⟩
        rcases hx with hx | hx
        · exact h2 ⟨h.1, hx⟩
        · exact hx h.1
  | flag h1 h2 h3 _ ih => exact .flag h1 h2 h3 (ih ho)
  | option h1 h2 h3 h4 _ ih => exact .option h1 h2 h3 h4 (ih ho)
  | @cluster w rest letters fs ops h1 h2 h3 h4 ih =>
      refine .cluster h1 (fun h => h2 ⟨h.1, ?_⟩) h3 (ih ho)
      rintro rfl
      cases h4
      simp at ho

theorem derives_suffix {d : JsonData} {ws fs ops} (h : Derives d ws fs ops) :
    ∃ consumed, ws = consumed ++ ops ∧ Spelled d fs consumed := by
  induction h with
  | done => exact ⟨[], rfl, .nil⟩
  | operands => exact ⟨[], rfl, .nil⟩
  | @flag w _ _ _ _ h1 h2 h3 _ ih =>
      obtain ⟨c, rfl, hs⟩ := ih
      exact ⟨w :: c, rfl, .flag (canonical_sameName h3) hs⟩
  | @option w a _ _ _ _ h1 h2 h3 h4 _ ih =>
      obtain ⟨c, rfl, hs⟩ := ih
      exact ⟨w :: a :: c, rfl, .option (canonical_sameName h4) hs⟩
  | @cluster w _ _ _ _ h1 h2 h3 _ ih =>
      obtain ⟨c, rfl, hs⟩ := ih
      exact ⟨w :: c, rfl, by rw [clusterOf_letters h3]; exact .cluster h3.2.1 hs⟩

/-- Canonical spelling of the flags in a list of flags and options. -/
def canonFlags (d : JsonData) (fs : List FlagOption) : List FlagOption :=
  fs.map fun
    | .flag n => .flag (primaryFlag d n)
    | .option n a => .option n a

theorem derives_flag_declared {d : JsonData} {ws fs ops} (h : Derives d ws fs ops) (m : String)
    (hm : .flag m ∈ fs) : Declared (flagGroups d) m := by
  induction h with
  | done => simp at hm
  | operands => simp at hm
  | flag h1 h2 h3 _ ih =>
      rcases List.mem_cons.1 hm with hm | hm
      · cases hm; exact canonical_declared h2 h3
      · exact ih hm
  | option h1 h2 h3 h4 _ ih =>
      rcases List.mem_cons.1 hm with hm | hm
      · cases hm
      · exact ih hm
  | cluster h1 h2 h3 _ ih =>
      rcases List.mem_append.1 hm with hm | hm
      · obtain ⟨c, hc, he⟩ := List.mem_map.1 hm
        cases he; exact h3.2.2 c hc
      · exact ih hm

theorem renderWords_append (a b : List FlagOption) : renderWords (a ++ b) = renderWords a ++ renderWords b := by
  induction a with
  | nil => rfl
  | cons x a ih => cases x <;> simp [renderWords, ih]

theorem dashed_ne (c : Char) : String.ofList ['-', c] ≠ "" := by
  intro h
  have := congrArg String.toList h
  simp at this

theorem ofDashed_derives {d : JsonData} {letters : List Char}
    (hl : ∀ c ∈ letters, Declared (flagGroups d) (String.ofList ['-', c])) {rest fs ops}
    (h : Derives d rest fs ops) :
    Derives d (letters.map (fun c => String.ofList ['-', c]) ++ rest)
      (letters.map (fun c => .flag (primaryFlag d (String.ofList ['-', c]))) ++ fs) ops := by
  induction letters with
  | nil => exact h
  | cons c letters ih =>
      exact .flag (dashed_ne c) (hl c (by simp)) (primaryFlag_canonical d _) (ih fun x hx => hl x (by simp [hx]))

theorem renderWords_map_flag (letters : List Char) :
    renderWords (letters.map (fun c => .flag (String.ofList ['-', c]))) =
      letters.map (fun c => String.ofList ['-', c]) := by
  induction letters with
  | nil => rfl
  | cons c letters ih => simp only [List.map_cons, renderWords, ih]

/-- The facts about a database needed for re-parsing. -/
structure Tidy (d : JsonData) : Prop where
  flagNonempty : ∀ f ∈ setOfAllFlags d, primaryFlag d f ≠ ""
  flagIdem : ∀ f ∈ setOfAllFlags d, primaryFlag d (primaryFlag d f) = primaryFlag d f
  optNonempty : ∀ o ∈ setOfAllOptions d, primaryOption d o ≠ ""
  optIdem : ∀ o ∈ setOfAllOptions d, primaryOption d (primaryOption d o) = primaryOption d o
  optNotFlag : ∀ o ∈ setOfAllOptions d, o ∉ setOfAllFlags d → primaryOption d o ∉ setOfAllFlags d

theorem derives_render {d : JsonData} (ht : Tidy d) {ws fs ops} (h : Derives d ws fs ops) :
    Derives d (renderWords fs ++ ops) (canonFlags d fs) ops := by
  induction h with
  | done => exact .done
  | operands h => exact .operands h
  | @flag w _ p _ _ h1 h2 h3 _ ih =>
      have hp : p = primaryFlag d w := canonical_unique h3 (primaryFlag_canonical d w)
      refine .flag ?_ (canonical_declared h2 h3) (primaryFlag_canonical d p) ih
      rw [hp]; exact ht.flagNonempty _ ((mem_setOfAllFlags d w).2 h2)
  | @option w a _ p _ _ h1 h2 h3 h4 _ ih =>
      have hp : p = primaryOption d w := canonical_unique h4 (primaryOption_canonical d w)
      have hm := (mem_setOfAllOptions d w).2 h3
      have hc : Canonical (optionGroups d) p p := by
        have := primaryOption_canonical d p
        rw [hp, ht.optIdem _ hm, ← hp] at this
        exact this
      refine .option ?_ ?_ (canonical_declared h3 h4) hc ih
      · rw [hp]; exact ht.optNonempty _ hm
      · rw [hp, ← mem_setOfAllFlags]
        exact ht.optNotFlag _ hm (fun h => h2 ((mem_setOfAllFlags d w).1 h))
  | @cluster w _ letters _ _ h1 h2 h3 _ ih =>
      have := ofDashed_derives h3.2.2 ih
      rw [renderWords_append, renderWords_map_flag, List.append_assoc]
      simpa [canonFlags, Function.comp_def] using this

end PashAnn
