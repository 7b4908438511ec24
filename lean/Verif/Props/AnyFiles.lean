import Verif.Spec.AnyFiles
import Verif.Lemmas.DataFiles
import Verif.Props.DataFiles

/-! Property C100 for data files of any form that is not rejected. Specification: `Spec/AnyFiles.lean`. -/

namespace PashAnn
open Spec
open DataFiles

namespace DataFiles

theorem isStr_iff (j : Json) (w : String) : j.isStr w = true ↔ j = .str w := by
  cases j <;> simp [Json.isStr]

theorem contains_any (groups : List (List Json)) (w : String) : contains groups.flatten w = true ↔ DeclaredAny groups w := by
  simp only [contains, List.any_eq_true, isStr_iff, List.mem_flatten, DeclaredAny]
  constructor
  · rintro ⟨x, ⟨g, hg, hx⟩, rfl⟩; exact ⟨g, hg, hx⟩
  · rintro ⟨g, hg, hx⟩; exact ⟨_, ⟨g, hg, hx⟩, rfl⟩

/-- The assignments for a group. -/
def assignedAny : List Json → List (Json × Json)
  | [] => []
  | p :: syns => syns.map fun x => (x, p)

theorem canonicalAny_primary {groups : List (List Json)} {w : String} {p : Json} (h : CanonicalAny groups w p) :
    primary (groups.map assignedAny).flatten w = p := by
  have hnone : ∀ gs : List (List Json), (∀ g ∈ gs, Json.str w ∉ g.tail) → ∀ e ∈ (gs.map assignedAny).flatten, e.1.isStr w = false := by
    intro gs hgs e he
    simp only [List.mem_flatten, List.mem_map] at he
    obtain ⟨_, ⟨g, hg, rfl⟩, he⟩ := he
    cases g with
    | nil => cases he
    | cons q syns =>
        simp only [assignedAny, List.mem_map] at he
        obtain ⟨x, hx, rfl⟩ := he
        have := hgs _ hg
        cases hb : x.isStr w with
        | false => rfl
        | true => rw [isStr_iff] at hb; subst hb; exact absurd hx this
  unfold primary
  rcases h with ⟨before, p', syns, after, rfl, hw, rfl, ha⟩ | ⟨hn, rfl⟩
  · simp only [List.map_append, List.map_cons, List.flatten_append, List.flatten_cons, List.reverse_append, List.append_assoc]
    rw [List.find?_append, List.find?_eq_none.2 fun e he => by
      rw [hnone after ha e (List.mem_reverse.1 he)]; simp, Option.none_or, List.find?_append]
    have : ∃ x, (assignedAny (p :: syns)).reverse.find? (fun e => e.1.isStr w) = some (x, p) := by
      have hsome : ((assignedAny (p :: syns)).reverse.find? fun e => e.1.isStr w).isSome = true := by
        rw [List.find?_isSome]
        exact ⟨(.str w, p), by simp [assignedAny, hw], (isStr_iff _ _).2 rfl⟩
      obtain ⟨e, he⟩ := Option.isSome_iff_exists.1 hsome
      have hmem := List.mem_of_find?_eq_some he
      simp only [assignedAny, List.mem_reverse, List.mem_map] at hmem
      obtain ⟨x, _, rfl⟩ := hmem
      exact ⟨x, he⟩
    obtain ⟨x, hx⟩ := this
    rw [hx]
    rfl
  · rw [List.find?_eq_none.2 fun e he => by rw [hnone groups hn e (List.mem_reverse.1 he)]; simp]

theorem canonicalAny_exists (groups : List (List Json)) (w : String) : ∃ p, CanonicalAny groups w p := by
  by_cases h : ∃ g ∈ groups, Json.str w ∈ g.tail
  · have : ∃ before p' syns after, groups = before ++ (p' :: syns) :: after ∧ Json.str w ∈ syns ∧ ∀ g ∈ after, Json.str w ∉ g.tail := by
      induction groups with
      | nil => simp at h
      | cons g groups ih =>
          by_cases h' : ∃ g ∈ groups, Json.str w ∈ g.tail
          · obtain ⟨before, p', syns, after, rfl, hw, ha⟩ := ih h'
            exact ⟨g :: before, p', syns, after, rfl, hw, ha⟩
          · obtain ⟨g', hg', hw⟩ := h
            rcases List.mem_cons.1 hg' with rfl | hm
            · cases g' with
              | nil => simp at hw
              | cons p' syns =>
                  exact ⟨[], p', syns, groups, rfl, by simpa using hw, fun g hg hwg => h' ⟨g, hg, hwg⟩⟩
            · exact absurd ⟨g', hm, hw⟩ h'
    obtain ⟨b, p', s, a, e, hw, ha⟩ := this
    exact ⟨p', .inl ⟨b, p', s, a, e, hw, rfl, ha⟩⟩
  · exact ⟨.str w, .inr ⟨fun g hg hw => h ⟨g, hg, hw⟩, rfl⟩⟩

theorem primary_canonicalAny (groups : List (List Json)) (w : String) :
    CanonicalAny groups w (primary (groups.map assignedAny).flatten w) := by
  obtain ⟨p, hp⟩ := canonicalAny_exists groups w
  rw [canonicalAny_primary hp]
  exact hp

theorem areAll_any (flags : List (List Json)) (w : List Char) :
    areAllIndividuallyFlags flags.flatten w = true ↔ ∃ letters, w = '-' :: letters ∧ letters ≠ [] ∧
      ∀ c ∈ letters, DeclaredAny flags (String.ofList ['-', c]) := by
  unfold areAllIndividuallyFlags
  split
  · rename_i c cs
    simp only [List.all_eq_true, contains_any]
    constructor
    · intro h; exact ⟨c :: cs, rfl, by simp, h⟩
    · rintro ⟨l, he, _, h⟩
      injection he with _ he
      subst he
      exact h
  · rename_i hno
    constructor
    · intro h; cases h
    · rintro ⟨l, rfl, hl, _⟩
      cases l with
      | nil => exact absurd rfl hl
      | cons c cs => exact absurd rfl (hno c cs)

theorem loop_reads (flags options : List (List Json)) (n : Nat) : ∀ ws : List String, ws.length ≤ n →
    ReadsAny flags options ws
      (loop flags.flatten options.flatten (flags.map assignedAny).flatten (options.map assignedAny).flatten ws).1
      (loop flags.flatten options.flatten (flags.map assignedAny).flatten (options.map assignedAny).flatten ws).2 := by
  induction n with
  | zero =>
      intro ws h
      cases ws with
      | nil => exact .done
      | cons => simp at h
  | succ n ih =>
      intro ws h
      cases ws with
      | nil => exact .done
      | cons t rest =>
          have hr := ih rest (by simpa using h)
          unfold loop
          by_cases ht : t = ""
          · rw [if_pos ht]
            exact .operands (.inl ht)
          rw [if_neg ht]
          by_cases hf : DeclaredAny flags t
          · rw [if_pos ((contains_any _ _).2 hf)]
            exact .flag ht hf (primary_canonicalAny _ _) hr
          have hf' : ¬ contains flags.flatten t = true := fun h => hf ((contains_any _ _).1 h)
          rw [if_neg hf']
          have hcl : ¬ (DeclaredAny options t ∧ rest ≠ []) → ReadsAny flags options (t :: rest)
              (if areAllIndividuallyFlags flags.flatten t.toList = true then
                ((t.toList.drop 1).map (fun x => AnyFlagOption.flag (.str (dashed x))) ++
                  (loop flags.flatten options.flatten (flags.map assignedAny).flatten (options.map assignedAny).flatten rest).1,
                 (loop flags.flatten options.flatten (flags.map assignedAny).flatten (options.map assignedAny).flatten rest).2)
              else ([], t :: rest)).1
              (if areAllIndividuallyFlags flags.flatten t.toList = true then
                ((t.toList.drop 1).map (fun x => AnyFlagOption.flag (.str (dashed x))) ++
                  (loop flags.flatten options.flatten (flags.map assignedAny).flatten (options.map assignedAny).flatten rest).1,
                 (loop flags.flatten options.flatten (flags.map assignedAny).flatten (options.map assignedAny).flatten rest).2)
              else ([], t :: rest)).2 := by
            intro ho
            by_cases ha : areAllIndividuallyFlags flags.flatten t.toList = true
            · rw [if_pos ha]
              obtain ⟨letters, hl⟩ := (areAll_any _ _).1 ha
              have := ReadsAny.cluster hf ho (letters := letters) hl hr
              rw [hl.1]
              exact this
            · rw [if_neg ha]
              exact .operands (.inr ⟨hf, ho, fun letters hl => ha ((areAll_any _ _).2 ⟨letters, hl⟩)⟩)
          cases rest with
          | nil => exact hcl (by simp)
          | cons arg rest' =>
              dsimp only
              by_cases ho : DeclaredAny options t
              · rw [if_pos ((contains_any _ _).2 ho)]
                exact .option ht hf ho (primary_canonicalAny _ _) (ih rest' (by simp at h; omega))
              · rw [if_neg fun h => ho ((contains_any _ _).1 h)]
                exact hcl (fun h => ho h.1)

theorem readsAny_unique {flags options : List (List Json)} {ws : List String} {fs fs' : List AnyFlagOption} {ops ops' : List String}
    (h : ReadsAny flags options ws fs ops) (h' : ReadsAny flags options ws fs' ops') : fs = fs' ∧ ops = ops' := by
  have hcan : ∀ {groups w p q}, CanonicalAny groups w p → CanonicalAny groups w q → p = q :=
    fun h h' => (canonicalAny_primary h).symm.trans (canonicalAny_primary h')
  have hcluster : ∀ {w letters}, ClusterAny flags w letters → w ≠ "" := by
    rintro w letters ⟨h, _⟩ rfl
    cases h
  induction h generalizing fs' ops' with
  | done => cases h'; exact ⟨rfl, rfl⟩
  | operands hs =>
      cases h' with
      | operands => exact ⟨rfl, rfl⟩
      | flag hne hd => exact hs.elim (fun h => absurd h hne) (fun h => absurd hd h.1)
      | option hne _ hd => exact hs.elim (fun h => absurd h hne) (fun h => absurd ⟨hd, by simp⟩ h.2.1)
      | cluster _ _ hc => exact hs.elim (fun h => absurd h (hcluster hc)) (fun h => absurd hc (h.2.2 _))
  | flag hne hd hc _ ih =>
      cases h' with
      | operands hs => exact hs.elim (fun h => absurd h hne) (fun h => absurd hd h.1)
      | flag _ _ hc' hr' =>
          obtain ⟨rfl, rfl⟩ := ih hr'
          rw [hcan hc hc']; exact ⟨rfl, rfl⟩
      | option _ hnd => exact absurd hd hnd
      | cluster hnd => exact absurd hd hnd
  | option hne hnd hd hc _ ih =>
      cases h' with
      | operands hs => exact hs.elim (fun h => absurd h hne) (fun h => absurd ⟨hd, by simp⟩ h.2.1)
      | flag _ hd' => exact absurd hd' hnd
      | option _ _ _ hc' hr' =>
          obtain ⟨rfl, rfl⟩ := ih hr'
          rw [hcan hc hc']; exact ⟨rfl, rfl⟩
      | cluster _ hno => exact absurd ⟨hd, by simp⟩ hno
  | cluster hnd hno hc _ ih =>
      cases h' with
      | operands hs => exact hs.elim (fun h => absurd h (hcluster hc)) (fun h => absurd hc (h.2.2 _))
      | flag _ hd' => exact absurd hd' hnd
      | option _ _ hd' => exact absurd ⟨hd', by simp⟩ hno
      | cluster _ _ hc' hr' =>
          obtain ⟨rfl, rfl⟩ := ih hr'
          have := hc.1.symm.trans hc'.1
          injection this with _ this
          subst this
          exact ⟨rfl, rfl⟩

theorem elements_unique {j : Json} {l l' : List Json} (h : Elements j l) (h' : Elements j l') : l = l' := by
  rw [elements_iff] at h h'
  rw [h] at h'
  exact Except.ok.inj h'

/-- The assignments for the first `k` elements. -/
theorem assignments_any {e : Json} {l : List Json} (h : e.iter = .ok l) (ho : ∀ m, e ≠ .obj m) (k : Nat) (hk : k ≤ l.length)
    (hs : ∀ x ∈ l.take k, Simple x) :
    (List.range' 1 (k - 1)).mapM (assignment e) = .ok (assignedAny (l.take k)) := by
  cases hl : l.take k with
  | nil =>
      have : k = 0 ∨ l = [] := by
        simpa using hl
      have hk0 : k - 1 = 0 := by
        rcases this with h | h
        · omega
        · subst h; simp at hk; omega
      rw [hk0]
      rfl
  | cons p syns =>
      have hlen : syns.length = k - 1 := by
        have := congrArg List.length hl
        simp only [List.length_take, List.length_cons] at this
        omega
      have hget : ∀ i (hi : i < k), ∃ hi' : i < l.length, l[i] = (p :: syns)[i]'(by simp; omega) := by
        intro i hi
        refine ⟨by omega, ?_⟩
        have : (l.take k)[i]'(by simp; omega) = l[i]'(by omega) := by simp
        rw [← this]
        simp only [hl]
      rw [mapM_ok_of_forall (assignment e) (fun i => ((p :: syns)[i]?.getD .null, p)) _ ?_]
      · congr 1
        apply List.ext_getElem
        · simp [assignedAny, hlen]
        · intro i h1 h2
          simp only [List.length_map, List.length_range'] at h1
          simp only [List.getElem_map, List.getElem_range', assignedAny, Prod.mk.injEq, and_true]
          have : 1 + 1 * i = i + 1 := by omega
          rw [this, List.getElem?_cons_succ, List.getElem?_eq_getElem (by omega)]
          rfl
      · intro i hi
        simp only [List.mem_range'] at hi
        obtain ⟨m, hm, rfl⟩ := hi
        obtain ⟨h0, e0⟩ := hget 0 (by omega)
        obtain ⟨h1, e1⟩ := hget (1 + 1 * m) (by omega)
        have hsimple : Simple (l[1 + 1 * m]) := hs _ (by rw [hl, e1]; exact List.getElem_mem _)
        have i0 := index_of_iter h ho 0 h0
        have i1 := index_of_iter h ho _ h1
        simp only [assignment, i0, i1, (hash_iff _).2 hsimple, bind, Except.bind]
        rw [e0, e1, List.getElem?_eq_getElem]
        rfl

theorem mapM_det {α β : Type} (f : α → Py β) (g : α → β) (l : List α) (h : ∀ a ∈ l, f a = .ok (g a)) : l.mapM f = .ok (l.map g) :=
  mapM_ok_of_forall f g l h

theorem readWords_any {j : Json} {flags options : List (List Json)} (hf : Fits j) (hg : FileGroups j flags options) (ws : List String) :
    readWords j ws = .ok (loop flags.flatten options.flatten (flags.map assignedAny).flatten (options.map assignedAny).flatten ws) := by
  obtain ⟨items, f, o, fl, ol, rfl, hlf, hlo, hef, heo, ef, eo, h1, h2, rfl, rfl⟩ := hg
  obtain ⟨items', f', o', fl', ol', he, hlf', hlo', hef', hff, heo', hoo⟩ := hf
  cases he
  rw [hlf] at hlf'; cases hlf'
  rw [hlo] at hlo'; cases hlo'
  have := elements_unique hef hef'; subst this
  have := elements_unique heo heo'; subst this
  have hi := (item_ok (.obj items) _ _).2 ⟨items, rfl, hlf⟩
  have hj := (item_ok (.obj items) _ _).2 ⟨items, rfl, hlo⟩
  have hit := (elements_iff _ _).1 hef
  have hjt := (elements_iff _ _).1 heo
  have a1 : fl.mapM (fun e => do addAll (← e.iter)) = .ok (fl.map ef) := mapM_det _ _ _ fun e he => by
    rw [(elements_iff _ _).1 (h1 e he)]
    refine (addAll_ok _ _).2 ⟨rfl, ?_⟩
    have hit := (elements_iff _ _).1 (h1 e he)
    rcases hff e he with ⟨l, rfl, hl⟩ | ⟨t, rfl⟩ | ⟨l, rfl, _⟩ <;> rw [← Except.ok.inj hit]
    · exact hl
    · intro x hx
      obtain ⟨c, _, rfl⟩ := List.mem_map.1 hx
      trivial
    · intro x hx
      obtain ⟨c, _, rfl⟩ := List.mem_map.1 hx
      trivial
  have a2 : fl.mapM (fun e => do
      let n ← e.length
      (List.range' 1 (n - 1)).mapM (assignment e)) = .ok (fl.map fun e => assignedAny (ef e)) := mapM_det _ _ _ fun e he => by
    have hit := (elements_iff _ _).1 (h1 e he)
    have key : (∀ m, e ≠ .obj m) → (∀ x ∈ ef e, Simple x) → (do
        let n ← e.length
        (List.range' 1 (n - 1)).mapM (assignment e)) = Except.ok (ε := PyErr) (assignedAny (ef e)) := by
      intro ho hs
      rw [length_of_iter hit]
      have := assignments_any hit ho (ef e).length (Nat.le_refl _) (by simpa using hs)
      rw [List.take_length] at this
      exact this
    rcases hff e he with ⟨l, rfl, hl⟩ | ⟨t, rfl⟩ | ⟨l, rfl, hl⟩
    · refine key (by simp) ?_
      have : l = ef (.arr l) := Except.ok.inj hit
      rw [← this]; exact hl
    · refine key (by simp) ?_
      have : _ = ef (.str t) := Except.ok.inj hit
      rw [← this]
      intro x hx
      obtain ⟨c, _, rfl⟩ := List.mem_map.1 hx
      trivial
    · have : _ = ef (.obj l) := Except.ok.inj hit
      rw [← this, length_of_iter hit, ← this]
      match l, hl with
      | [], _ => rfl
      | [a], _ => rfl
  have a3 : ol.mapM (fun e => do addAll (← e.butLast)) = .ok (ol.map fun e => (eo e).dropLast) := mapM_det _ _ _ fun e he => by
    have hit := (elements_iff _ _).1 (h2 e he)
    rcases hoo e he with ⟨l, rfl, hl⟩ | ⟨t, rfl⟩
    · have : l = eo (.arr l) := Except.ok.inj hit
      rw [← this]
      exact (addAll_ok _ _).2 ⟨rfl, hl⟩
    · have : _ = eo (.str t) := Except.ok.inj hit
      rw [← this]
      refine (addAll_ok _ _).2 ⟨List.map_dropLast.symm, fun x hx => ?_⟩
      obtain ⟨c, _, rfl⟩ := List.mem_map.1 hx
      trivial
  have a4 : ol.mapM (fun e => do
      let n ← e.length
      (List.range' 1 (n - 2)).mapM (assignment e)) = .ok (ol.map fun e => assignedAny (eo e).dropLast) := mapM_det _ _ _ fun e he => by
    have hit := (elements_iff _ _).1 (h2 e he)
    have key : (∀ m, e ≠ .obj m) → (∀ x ∈ (eo e).dropLast, Simple x) → (do
        let n ← e.length
        (List.range' 1 (n - 2)).mapM (assignment e)) = Except.ok (ε := PyErr) (assignedAny (eo e).dropLast) := by
      intro ho hs
      rw [length_of_iter hit]
      have := assignments_any hit ho ((eo e).length - 1) (by omega) (by rw [← List.dropLast_eq_take]; exact hs)
      rw [← List.dropLast_eq_take] at this
      exact this
    rcases hoo e he with ⟨l, rfl, hl⟩ | ⟨t, rfl⟩
    · refine key (by simp) ?_
      have : l = eo (.arr l) := Except.ok.inj hit
      rw [← this]; exact hl
    · refine key (by simp) ?_
      have : _ = eo (.str t) := Except.ok.inj hit
      rw [← this]
      intro x hx
      obtain ⟨c, _, rfl⟩ := List.mem_map.1 ((List.dropLast_sublist _).subset hx)
      trivial
  simp only [readWords, bind_ok_iff, setOfAllFlags, setOfAllOptions, dictFlagToPrimaryRepr, dictOptionToPrimaryRepr]
  refine ⟨_, ⟨f, hi, fl, hit, _, a1, rfl⟩, _, ⟨f, hi, fl, hit, _, a2, rfl⟩, _, ⟨o, hj, ol, hjt, _, a3, rfl⟩, _, ⟨o, hj, ol, hjt, _, a4, rfl⟩, ?_⟩
  simp only [List.map_map]
  rfl

end DataFiles

/-- C100. Every file that is not rejected means what it lists, whatever its form is: each command line is read in exactly one way. -/
theorem C100_any (dir : Dir) (name : String) (hn : PlainName name) (j : Json) (hj : dir.lookup name = some (some j)) (hf : Fits j) :
    ∃ flags options, FileGroups j flags options ∧ ∀ args,
      (∃ fs ops, parseIn dir (Shlex.join (name :: args)) = .ok ⟨name, fs, ops⟩) ∧
      ∀ fs ops, parseIn dir (Shlex.join (name :: args)) = .ok ⟨name, fs, ops⟩ ↔ ReadsAny flags options args fs ops := by
  have hg : ∃ flags options, FileGroups j flags options := by
    obtain ⟨items, f, o, fl, ol, rfl, hlf, hlo, hef, hff, heo, hoo⟩ := hf
    let ef : Json → List Json := fun e => match e.iter with | .ok l => l | .error _ => []
    have hel : ∀ e l, e.iter = .ok l → Elements e (ef e) := by
      intro e l h
      rw [elements_iff]
      simp only [ef, h]
    refine ⟨_, _, items, f, o, fl, ol, rfl, hlf, hlo, hef, heo, ef, ef, fun e he => ?_, fun e he => ?_, rfl, rfl⟩
    · rcases hff e he with ⟨l, rfl, _⟩ | ⟨t, rfl⟩ | ⟨l, rfl, _⟩ <;> exact hel _ _ rfl
    · rcases hoo e he with ⟨l, rfl, _⟩ | ⟨t, rfl⟩ <;> exact hel _ _ rfl
  obtain ⟨flags, options, hg⟩ := hg
  refine ⟨flags, options, hg, fun args => ?_⟩
  have hp : parseIn dir (Shlex.join (name :: args)) = .ok ⟨name,
      (loop flags.flatten options.flatten (flags.map assignedAny).flatten (options.map assignedAny).flatten args).1,
      (loop flags.flatten options.flatten (flags.map assignedAny).flatten (options.map assignedAny).flatten args).2⟩ := by
    rw [parseIn_join, getJson_plain dir hn, hj]
    simp only [loads, readWords_any hf hg, bind, Except.bind]
  have hr := loop_reads flags options args.length args (Nat.le_refl _)
  refine ⟨⟨_, _, hp⟩, fun fs ops => ?_⟩
  rw [hp]
  constructor
  · intro h
    cases h
    exact hr
  · intro h
    obtain ⟨rfl, rfl⟩ := readsAny_unique hr h
    rfl

/-- The groups of a file are what it has. -/
theorem C100_any_groups (j : Json) (flags options flags' options' : List (List Json)) (h : FileGroups j flags options)
    (h' : FileGroups j flags' options') : flags = flags' ∧ options = options' := by
  obtain ⟨items, f, o, fl, ol, rfl, hlf, hlo, hef, heo, ef, eo, h1, h2, rfl, rfl⟩ := h
  obtain ⟨items', f', o', fl', ol', he, hlf', hlo', hef', heo', ef', eo', h1', h2', rfl, rfl⟩ := h'
  cases he
  rw [hlf] at hlf'; cases hlf'
  rw [hlo] at hlo'; cases hlo'
  have := elements_unique hef hef'; subst this
  have := elements_unique heo heo'; subst this
  constructor
  · exact List.map_congr_left fun e he => elements_unique (h1 e he) (h1' e he)
  · exact List.map_congr_left fun e he => by rw [elements_unique (h2 e he) (h2' e he)]

namespace DataFiles

theorem fileWord_iff (j : Json) : isIndicator j = true ↔ FileWord j := by
  unfold isIndicator FileWord
  rw [List.any_eq_true]
  constructor
  · rintro ⟨s, hs, h⟩
    exact ⟨s, (isStr_iff _ _).1 h, hs⟩
  · rintro ⟨s, rfl, hs⟩
    exact ⟨s, hs, (isStr_iff _ _).2 rfl⟩

theorem access_iff (s : String) (k : AccessKind) : (s, k) ∈ accessNames ↔ AccessKind.ofString s = .ok k := by
  simp only [accessNames, AccessKind.ofString, List.mem_cons, Prod.mk.injEq, List.not_mem_nil, or_false]
  constructor
  · rintro (⟨rfl, rfl⟩ | ⟨rfl, rfl⟩ | ⟨rfl, rfl⟩ | ⟨rfl, rfl⟩ | ⟨rfl, rfl⟩ | ⟨rfl, rfl⟩ | ⟨rfl, rfl⟩) <;> rfl
  · intro h
    repeat' split at h
    all_goals first | cases h | skip
    all_goals simp_all

/-- What the last element of an option gives. -/
theorem argAny_iff (info name : Json) (t : Typer) (hs : Simple name) :
    (match info with
      | .arr l => do
          let kind ← (Json.arr l).index 0
          let access ← (Json.arr l).index 1
          let access ← accessFrom access
          name.hash
          if isIndicator kind then .ok (name, .fileStd access) else .ok (name, .argString)
      | kind => do
          pyAssert (!isIndicator kind)
          name.hash
          .ok (name, .argString) : Py (Json × Typer)) = .ok (name, t) ↔ ArgAny info t := by
  have hh := (hash_iff name).2 hs
  have hword : ∀ kind : Json, (∀ l, kind ≠ .arr l) → ((do
      pyAssert (!isIndicator kind)
      name.hash
      .ok (name, .argString) : Py (Json × Typer)) = .ok (name, t) ↔ ArgAny kind t) := by
    intro kind hk
    rw [hh]
    by_cases hw : FileWord kind
    · rw [(fileWord_iff kind).2 hw]
      constructor
      · intro h; cases h
      · intro h
        cases h with
        | file => exact absurd rfl (hk _)
        | access => exact absurd rfl (hk _)
        | word _ hn => exact absurd hw hn
    · have : isIndicator kind = false := by
        cases hb : isIndicator kind with
        | false => rfl
        | true => exact absurd ((fileWord_iff kind).1 hb) hw
      rw [this]
      constructor
      · intro h
        have : t = .argString := by
          simp [bind, Except.bind, pyAssert] at h
          exact h.symm
        subst this
        exact .word hk hw
      · intro h
        cases h with
        | file => exact absurd rfl (hk _)
        | access => exact absurd rfl (hk _)
        | word => rfl
  cases info with
  | arr l =>
      dsimp only
      match l with
      | [] =>
          constructor
          · intro h; cases h
          · intro h; cases h with | word hk => exact absurd rfl (hk _)
      | [k] =>
          constructor
          · intro h; cases h
          · intro h; cases h with | word hk => exact absurd rfl (hk _)
      | k :: a :: rest =>
          simp only [Json.index, List.getElem?_cons_zero, List.getElem?_cons_succ, bind, Except.bind, hh]
          cases a with
          | str a =>
              simp only [accessFrom]
              cases ha : AccessKind.ofString a with
              | error e =>
                  constructor
                  · intro h; cases h
                  · intro h
                    cases h with
                    | file _ h => rw [access_iff, ha] at h; cases h
                    | access _ h => rw [access_iff, ha] at h; cases h
                    | word hk => exact absurd rfl (hk _)
              | ok acc =>
                  dsimp only
                  by_cases hw : FileWord k
                  · rw [if_pos ((fileWord_iff k).2 hw)]
                    constructor
                    · intro h
                      cases h
                      exact .file hw ((access_iff _ _).2 ha)
                    · intro h
                      cases h with
                      | file _ h => rw [access_iff, ha] at h; cases h; rfl
                      | access hn => exact absurd hw hn
                      | word hk => exact absurd rfl (hk _)
                  · rw [if_neg fun h => hw ((fileWord_iff k).1 h)]
                    constructor
                    · intro h
                      cases h
                      exact .access hw ((access_iff _ _).2 ha)
                    · intro h
                      cases h with
                      | file h => exact absurd h hw
                      | access => rfl
                      | word hk => exact absurd rfl (hk _)
          | _ =>
              constructor
              · intro h; cases h
              · intro h; cases h with | word hk => exact absurd rfl (hk _)
  | _ => exact hword _ (by simp)

theorem classForArg_any (e n : Json) (t : Typer) : classForArg e = .ok (n, t) ↔ EntryAny e n t := by
  have hname : ∀ (info name : Json), (match info with
      | .arr l => do
          let kind ← (Json.arr l).index 0
          let access ← (Json.arr l).index 1
          let access ← accessFrom access
          name.hash
          if isIndicator kind then .ok (name, .fileStd access) else .ok (name, .argString)
      | kind => do
          pyAssert (!isIndicator kind)
          name.hash
          .ok (name, .argString) : Py (Json × Typer)) = .ok (n, t) → n = name ∧ Simple name := by
    intro info name h
    have hs : Simple name := by
      rcases hash_cases name with hh | hh
      · exact (hash_iff _).1 hh
      · exfalso
        cases info with
        | arr l =>
            simp only [hh, bind, Except.bind] at h
            cases h1 : (Json.arr l).index 0 with
            | error => rw [h1] at h; cases h
            | ok k =>
                cases h2 : (Json.arr l).index 1 with
                | error => rw [h1, h2] at h; cases h
                | ok a => cases h3 : accessFrom a with
                  | error => rw [h1, h2] at h; simp only [h3] at h; cases h
                  | ok b => rw [h1, h2] at h; simp only [h3] at h; cases h
        | _ =>
            simp only [hh, bind, Except.bind, pyAssert] at h
            split at h <;> cases h
    refine ⟨?_, hs⟩
    have hh := (hash_iff _).2 hs
    cases info with
    | arr l =>
        simp only [hh, bind, Except.bind] at h
        cases h1 : (Json.arr l).index 0 with
        | error => rw [h1] at h; cases h
        | ok k =>
            cases h2 : (Json.arr l).index 1 with
            | error => rw [h1, h2] at h; cases h
            | ok a => cases h3 : accessFrom a with
              | error => rw [h1, h2] at h; simp only [h3] at h; cases h
              | ok b =>
                  rw [h1, h2] at h
                  simp only [h3] at h
                  split at h <;> cases h <;> rfl
    | _ =>
        simp only [hh, bind, Except.bind, pyAssert] at h
        split at h <;> cases h <;> rfl
  unfold classForArg EntryAny
  cases e with
  | arr l =>
      cases l with
      | nil =>
          constructor
          · intro h; cases h
          · rintro (⟨l, info, hl, hh, _⟩ | ⟨c, cs, h, _⟩)
            · cases hl; cases hh
            · cases h
      | cons x l =>
          have hlast : ∃ info, (x :: l).getLast? = some info := ⟨_, List.getLast?_eq_some_getLast (by simp)⟩
          obtain ⟨info, hinfo⟩ := hlast
          have e1 : (Json.arr (x :: l)).index 0 = .ok x := rfl
          have e2 : (Json.arr (x :: l)).last = .ok info := by simp only [Json.last, hinfo]
          rw [e1, e2]
          dsimp only [bind, Except.bind]
          constructor
          · intro h
            obtain ⟨rfl, hs⟩ := hname info x h
            exact .inl ⟨_, info, rfl, rfl, hs, hinfo, (argAny_iff info _ t hs).1 h⟩
          · rintro (⟨l', info', hl, hh, hs, hi, ha⟩ | ⟨c, cs, h, _⟩)
            · cases hl
              cases hh
              rw [hinfo] at hi
              cases hi
              exact (argAny_iff info _ t hs).2 ha
            · cases h
  | str s =>
      obtain ⟨l, hl⟩ : ∃ l, s.toList = l := ⟨_, rfl⟩
      have hs : s = String.ofList l := by rw [← hl, String.ofList_toList]
      subst hs
      cases l with
      | nil =>
          have e1 : (Json.str (String.ofList [])).index 0 = .error .indexError := by simp [Json.index]
          rw [e1]
          constructor
          · intro h; cases h
          · rintro (⟨l, info, h, _⟩ | ⟨c, cs, h, _⟩)
            · cases h
            · injection h with h
              have := congrArg String.toList h
              simp at this
      | cons c cs =>
          have e1 : (Json.str (String.ofList (c :: cs))).index 0 = .ok (.str (String.ofList [c])) := by simp [Json.index]
          have e2 : ∃ d, (Json.str (String.ofList (c :: cs))).last = .ok (.str (String.ofList [d])) := by
            refine ⟨(c :: cs).getLast (by simp), ?_⟩
            simp only [Json.last, String.toList_ofList, List.getLast?_eq_some_getLast (l := c :: cs) (by simp)]
          obtain ⟨d, e2⟩ := e2
          rw [e1, e2]
          have hw : ¬ FileWord (.str (String.ofList [d])) := by
            rintro ⟨kind, hk, hm⟩
            injection hk with hk
            subst hk
            simp only [List.mem_cons, List.not_mem_nil, or_false] at hm
            rcases hm with h | h | h <;>
            · have := congrArg (fun s : String => s.toList.length) h
              rw [show (String.ofList [d]).toList.length = 1 by simp] at this
              revert this
              decide +kernel
          dsimp only [bind, Except.bind]
          constructor
          · intro h
            obtain ⟨rfl, hs⟩ := hname (.str (String.ofList [d])) (.str (String.ofList [c])) h
            have := (argAny_iff (.str (String.ofList [d])) (.str (String.ofList [c])) t hs).1 h
            cases this
            exact .inr ⟨c, cs, rfl, rfl, rfl⟩
          · rintro (⟨l, info, h, _⟩ | ⟨c', cs', h, hn, rfl⟩)
            · cases h
            · injection h with h
              have := congrArg String.toList h
              simp only [String.toList_ofList, List.cons.injEq] at this
              obtain ⟨rfl, rfl⟩ := this
              subst hn
              exact (argAny_iff (.str (String.ofList [d])) (.str (String.ofList [c])) _ trivial).2 (.word (by simp) hw)
  | _ =>
      constructor
      · intro h; cases h
      · rintro (⟨l, info, h, _⟩ | ⟨c, cs, h, _⟩) <;> cases h

theorem find_any (l : List Json) (r : List (Json × Typer)) (h : l.mapM classForArg = .ok r) (name : String) (t : Typer) :
    ((r.reverse.find? fun e => e.1.isStr name).map Prod.snd = some t) ↔ OptionAny l name t := by
  have huniq : ∀ {e n t t'}, EntryAny e n t → EntryAny e n t' → t = t' := by
    intro e n t t' h h'
    rw [← classForArg_any] at h h'
    rw [h] at h'
    cases h'
    rfl
  induction l generalizing r with
  | nil =>
      have := (mapM_nil_ok classForArg r).1 h
      subst this
      constructor
      · intro h; cases h
      · rintro ⟨b, e, a, h, _⟩
        simp at h
  | cons a l ih =>
      obtain ⟨p, r', hp, hr', rfl⟩ := (mapM_cons_ok classForArg a l r).1 h
      have ih := ih r' hr'
      obtain ⟨n, t'⟩ := p
      have hp' := (classForArg_any a n t').1 hp
      rw [List.reverse_cons, List.find?_append]
      constructor
      · intro h
        cases hl : r'.reverse.find? (fun e => e.1.isStr name) with
        | some q =>
            rw [hl, Option.some_or] at h
            obtain ⟨b, e, af, rfl, h1, h2⟩ := ih.1 (by rw [hl]; exact h)
            exact ⟨a :: b, e, af, rfl, h1, h2⟩
        | none =>
            rw [hl, Option.none_or, List.find?_cons] at h
            cases hn : n.isStr name with
            | false => simp [hn] at h
            | true =>
                simp [hn] at h
                subst h
                rw [isStr_iff] at hn
                subst hn
                refine ⟨[], a, l, rfl, hp', fun e he t'' het => ?_⟩
                obtain ⟨q, hq, hqe⟩ := mapM_ok_mem classForArg l r' hr' e he
                rw [← classForArg_any] at het
                rw [het] at hqe
                cases hqe
                have := List.find?_eq_none.1 hl _ (List.mem_reverse.2 hq)
                exact this ((isStr_iff _ _).2 rfl)
      · rintro ⟨b, e, af, heq, h1, h2⟩
        cases b with
        | nil =>
            simp only [List.nil_append, List.cons.injEq] at heq
            obtain ⟨rfl, rfl⟩ := heq
            have hnone : r'.reverse.find? (fun e => e.1.isStr name) = none := by
              rw [List.find?_eq_none]
              intro q hq
              obtain ⟨e', he', hqe⟩ := mapM_ok_mem' classForArg l r' hr' q (List.mem_reverse.1 hq)
              rw [isStr_iff]
              intro hqn
              obtain ⟨q1, q2⟩ := q
              cases hqn
              exact h2 e' he' q2 ((classForArg_any _ _ _).1 hqe)
            rw [hnone, Option.none_or]
            have hc := (classForArg_any _ _ _).2 h1
            rw [hp] at hc
            cases hc
            simp [Json.isStr]
        | cons x b =>
            simp only [List.cons_append, List.cons.injEq] at heq
            obtain ⟨rfl, rfl⟩ := heq
            have := ih.2 ⟨b, e, af, rfl, h1, h2⟩
            cases hl : r'.reverse.find? (fun e => e.1.isStr name) with
            | none => rw [hl] at this; cases this
            | some q => rw [hl] at this; rw [Option.some_or]; exact this

end DataFiles

/-- C100. The generators of an invocation can be made exactly if each option in the file has an argument as it should be and each
option of the invocation is listed with its name first; then its argument is as listed in the last option with this name. The file may be of any form. -/
theorem C100_any_types (dir : Dir) (name : String) (hn : PlainName name) (j : Json) (hj : dir.lookup name = some (some j))
    (fs : List FlagOption) (ops : List String) :
    ((∃ i, initialInfoIn dir ⟨name, fs, ops⟩ = .ok i) ↔ ∃ ol, HasOptions j ol ∧ (∀ e ∈ ol, ∃ n t, EntryAny e n t) ∧
      ∀ n a, FlagOption.option n a ∈ fs → ∃ e ∈ ol, ∃ t, EntryAny e (.str n) t) ∧
    ∀ i ol, initialInfoIn dir ⟨name, fs, ops⟩ = .ok i → HasOptions j ol →
      i.flagoptionListTyper.length = fs.length ∧ i.operandListTyper = ops.map (fun _ => .fileStd .streamInput) ∧
      i.implicitInput = none ∧ i.implicitOutput = none ∧
      (∀ (k : Nat) n t, fs[k]? = some (.flag n) → i.flagoptionListTyper[k]? = some t → t = .plainString) ∧
      (∀ (k : Nat) n a t, fs[k]? = some (.option n a) → i.flagoptionListTyper[k]? = some t → OptionAny ol n t) := by
  have hg : getJson dir name = .ok j := by rw [getJson_plain dir hn, hj]; rfl
  have hopts : ∀ ol, HasOptions j ol ↔ ∃ o, j.item "option" = .ok o ∧ o.iter = .ok ol := by
    intro ol
    unfold HasOptions
    constructor
    · rintro ⟨items, o, rfl, hl, he⟩
      exact ⟨o, (item_ok _ _ _).2 ⟨items, rfl, hl⟩, (elements_iff _ _).1 he⟩
    · rintro ⟨o, hi, hit⟩
      obtain ⟨items, rfl, hl⟩ := (item_ok _ _ _).1 hi
      exact ⟨items, o, rfl, hl, (elements_iff _ _).2 hit⟩
  have hi : ∀ i, initialInfoIn dir ⟨name, fs, ops⟩ = .ok i ↔ ∃ ol, HasOptions j ol ∧ ∃ dict, ol.mapM classForArg = .ok dict ∧
      ∃ typers, fs.mapM (typerOf dict) = .ok typers ∧ i = InputOutputInfo.init typers ops.length := by
    intro i
    simp only [initialInfoIn, DataFiles.dictOptionToClassForArg, bind_ok_iff, hopts]
    constructor
    · rintro ⟨j', hj', dict, ⟨o, ho, ol, hol, hd⟩, typers, ht, he⟩
      rw [hg] at hj'
      cases hj'
      exact ⟨ol, ⟨o, ho, hol⟩, dict, hd, typers, ht, (Except.ok.inj he).symm⟩
    · rintro ⟨ol, ⟨o, ho, hol⟩, dict, hd, typers, ht, rfl⟩
      exact ⟨j, hg, dict, ⟨o, ho, ol, hol, hd⟩, typers, ht, rfl⟩
  have htyper : ∀ ol dict, ol.mapM classForArg = .ok dict → ∀ n a t, typerOf dict (.option n a) = .ok t ↔ OptionAny ol n t := by
    intro ol dict hd n a t
    rw [← find_any ol dict hd]
    unfold typerOf
    dsimp only
    cases dict.reverse.find? (fun e => e.1.isStr n) <;> simp
  have hlast : ∀ ol n, (∃ t, OptionAny ol n t) ↔ ∃ e ∈ ol, ∃ t, EntryAny e (.str n) t := by
    intro ol n
    constructor
    · rintro ⟨t, b, e, a, rfl, he, _⟩
      exact ⟨e, by simp, t, he⟩
    · intro h
      induction ol with
      | nil =>
          obtain ⟨e, he, _⟩ := h
          cases he
      | cons x ol ih =>
          by_cases hex : ∃ e ∈ ol, ∃ t, EntryAny e (.str n) t
          · obtain ⟨t, b, e, a, rfl, h1, h2⟩ := ih hex
            exact ⟨t, x :: b, e, a, rfl, h1, h2⟩
          · obtain ⟨e, he, t, het⟩ := h
            rcases List.mem_cons.1 he with rfl | h
            · exact ⟨t, [], e, ol, rfl, het, fun e he t h => hex ⟨e, he, t, h⟩⟩
            · exact absurd ⟨e, h, t, het⟩ hex
  have hfun : ∀ ol ol', HasOptions j ol → HasOptions j ol' → ol = ol' := by
    intro ol ol' h h'
    obtain ⟨o, h1, h2⟩ := (hopts ol).1 h
    obtain ⟨o', h1', h2'⟩ := (hopts ol').1 h'
    rw [h1] at h1'; cases h1'
    rw [h2] at h2'; cases h2'
    rfl
  constructor
  · constructor
    · rintro ⟨i, h⟩
      obtain ⟨ol, ho, dict, hd, typers, ht, _⟩ := (hi i).1 h
      refine ⟨ol, ho, fun e he => ?_, fun n a hna => ?_⟩
      · obtain ⟨q, _, hq⟩ := mapM_ok_mem classForArg ol dict hd e he
        exact ⟨q.1, q.2, (classForArg_any _ _ _).1 hq⟩
      · obtain ⟨t, _, hq⟩ := mapM_ok_mem (typerOf dict) fs typers ht _ hna
        exact (hlast ol n).1 ⟨t, (htyper ol dict hd n a t).1 hq⟩
    · rintro ⟨ol, ho, h1, h2⟩
      obtain ⟨dict, hd⟩ := (mapM_isOk_iff classForArg ol).2 fun e he => by
        obtain ⟨n, t, h⟩ := h1 e he
        exact ⟨_, (classForArg_any _ _ _).2 h⟩
      obtain ⟨typers, ht⟩ := (mapM_isOk_iff (typerOf dict) fs).2 fun f hf => by
        cases f with
        | flag n => exact ⟨_, rfl⟩
        | option n a =>
            obtain ⟨t, h⟩ := (hlast ol n).2 (h2 n a hf)
            exact ⟨t, (htyper ol dict hd n a t).2 h⟩
      exact ⟨_, (hi _).2 ⟨ol, ho, dict, hd, typers, ht, rfl⟩⟩
  · intro i ol h hol
    obtain ⟨ol', ho, dict, hd, typers, ht, rfl⟩ := (hi i).1 h
    have := hfun _ _ hol ho
    subst this
    refine ⟨mapM_ok_length _ _ _ ht, by
      simp only [InputOutputInfo.init]; rw [List.map_const'], rfl, rfl, fun k n t hk htk => ?_, fun k n a t hk htk => ?_⟩
    · obtain ⟨b, hb, hf⟩ := mapM_ok_get _ _ _ ht k _ hk
      have : t = b := by
        have := htk.symm.trans hb
        exact Option.some.inj this
      subst this
      exact (Except.ok.inj hf).symm
    · obtain ⟨b, hb, hf⟩ := mapM_ok_get _ _ _ ht k _ hk
      have : t = b := by
        have := htk.symm.trans hb
        exact Option.some.inj this
      subst this
      exact (htyper _ _ hd n a t).1 hf

/-- A file with numbers among the spellings, a flag that is a text, and an argument that is a number. -/
def oddFile : Json :=
  .obj [("flag", .arr [.arr [.num "5", .str "-v"], .str "xy"]), ("option", .arr [.arr [.str "-o", .null, .num "1"]])]

/-- The number is the name of `-v`; `5` itself is no flag; `y` is read as `x`. -/
example : PlainName "zip" ∧ Fits oddFile ∧ ∃ flags options, FileGroups oddFile flags options ∧
    ReadsAny flags options ["-v", "y", "-o", "a", "5"] [.flag (.num "5"), .flag (.str "x"), .option (.str "-o") "a"] ["5"] := by
  refine ⟨⟨by decide +kernel, by decide +kernel, by decide +kernel⟩,
    ⟨_, _, _, _, _, rfl, rfl, rfl, .list _, ?_, .list _, ?_⟩,
    [[.num "5", .str "-v"], [.str "x", .str "y"]], [[.str "-o", .null]], ?_, ?_⟩
  · intro e he
    simp only [List.mem_cons, List.not_mem_nil, or_false] at he
    rcases he with rfl | rfl
    · exact .inl ⟨_, rfl, by simp [Simple]⟩
    · exact .inr (.inl ⟨_, rfl⟩)
  · intro e he
    rw [List.mem_singleton.1 he]
    exact .inl ⟨_, rfl, by simp [Simple]⟩
  · refine ⟨_, _, _, _, _, rfl, rfl, rfl, .list _, .list _, fun e => match e.iter with | .ok l => l | .error _ => [],
      fun e => match e.iter with | .ok l => l | .error _ => [], ?_, ?_, rfl, rfl⟩
    · intro e he
      simp only [List.mem_cons, List.not_mem_nil, or_false] at he
      rcases he with rfl | rfl
      · exact .list _
      · exact .text _
    · intro e he
      rw [List.mem_singleton.1 he]
      exact .list _
  · refine .flag (by decide) ⟨[.num "5", .str "-v"], by simp, by simp⟩ (.inl ⟨[], _, [.str "-v"], _, rfl, by simp, rfl, by simp⟩) ?_
    refine .flag (by decide) ⟨[.str "x", .str "y"], by simp, by simp⟩ (.inl ⟨[_], _, [.str "y"], [], rfl, by simp, rfl, by simp⟩) ?_
    refine .option (by decide) (by simp [DeclaredAny]) ⟨[.str "-o", .null], by simp, by simp⟩ (.inr ⟨by simp, rfl⟩) ?_
    refine .operands (.inr ⟨by simp [DeclaredAny], by simp, ?_⟩)
    rintro letters ⟨h, _⟩
    have : ("5" : String).toList = ['5'] := by decide +kernel
    rw [this] at h
    cases h

end PashAnn
