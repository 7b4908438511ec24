import Verif.Model.ScriptArgs
import Verif.Spec.ScriptArgs

/-! Lemmas for C97: how single words of the script's command line are read. -/

namespace PashAnn.ScriptArgs
open Spec

/-- What follows the name in a word. -/
def rest : Option (List Char) → List Char
  | none => []
  | some r => '=' :: r

theorem partitionEq_rest {s : List Char} (hs : '=' ∉ s) (e : Option (List Char)) : partitionEq (s ++ rest e) = (s, e) := by
  have h1 : (s ++ rest e).takeWhile (· ≠ '=') = s := by
    induction s with
    | nil => cases e <;> simp [rest]
    | cons a s ih =>
        have ha : a ≠ '=' := fun h => hs (by simp [h])
        rw [List.cons_append, List.takeWhile_cons_of_pos (by simpa using ha), ih (fun h => hs (List.mem_cons_of_mem _ h))]
  have h2 : (s ++ rest e).dropWhile (· ≠ '=') = rest e := by
    clear h1
    induction s with
    | nil => cases e <;> simp [rest]
    | cons a s ih =>
        have ha : a ≠ '=' := fun h => hs (by simp [h])
        rw [List.cons_append, List.dropWhile_cons_of_pos (by simpa using ha), ih (fun h => hs (List.mem_cons_of_mem _ h))]
  unfold partitionEq
  rw [h1, h2]
  cases e <;> rfl

theorem split_rest (w : List Char) : ∃ s e, '=' ∉ s ∧ w = s ++ rest e := by
  induction w with
  | nil => exact ⟨[], none, by simp, rfl⟩
  | cons a w ih =>
      by_cases ha : a = '='
      · exact ⟨[], some w, by simp, by rw [ha]; rfl⟩
      · obtain ⟨s, e, hs, rfl⟩ := ih
        refine ⟨a :: s, e, ?_, rfl⟩
        intro h
        rcases List.mem_cons.1 h with h | h
        · exact ha h.symm
        · exact hs h

theorem rest_inj {s s' : List Char} (hs : '=' ∉ s) (hs' : '=' ∉ s') {e e' : Option (List Char)}
    (h : s ++ rest e = s' ++ rest e') : s = s' ∧ e = e' := by
  have := congrArg partitionEq h
  rw [partitionEq_rest hs, partitionEq_rest hs'] at this
  simpa using this

theorem options_eq : options =
    [(['-', 'h'], .help), (['-', '-', 'h', 'e', 'l', 'p'], .help),
     (['-', '-', 'c', 'o', 'm', 'm', 'a', 'n', 'd', '_', 'i', 'n', 'v', 'o', 'c', 'a', 't', 'i', 'o', 'n'], .command),
     (['-', '-', 's', 'a', 'v', 'e', '_', 't', 'o'], .save)] := by
  decide +kernel

/-- The three long names without their dashes. -/
def helpName : List Char := ['h', 'e', 'l', 'p']
def commandName : List Char := ['c', 'o', 'm', 'm', 'a', 'n', 'd', '_', 'i', 'n', 'v', 'o', 'c', 'a', 't', 'i', 'o', 'n']
def saveName : List Char := ['s', 'a', 'v', 'e', '_', 't', 'o']

theorem candidates_long {s : List Char} (hs : '=' ∉ s) (e : Option (List Char)) :
    candidates ('-' :: '-' :: (s ++ rest e)) =
      ((if s.isPrefixOf helpName then [.option (some .help) true e.isSome e] else []) ++
        (if s.isPrefixOf commandName then [.option (some .command) true e.isSome e] else []) ++
        (if s.isPrefixOf saveName then [.option (some .save) true e.isSome e] else []) : List Token) := by
  have hp : partitionEq ('-' :: '-' :: (s ++ rest e)) = ('-' :: '-' :: s, e) := by
    have := partitionEq_rest (s := '-' :: '-' :: s) (by simp [hs]) e
    exact this
  unfold candidates
  rw [if_pos (show "--".toList.isPrefixOf ('-' :: '-' :: (s ++ rest e)) = true from rfl), hp, options_eq]
  have e1 : ('-' :: '-' :: s).isPrefixOf ['-', 'h'] = false := by simp [List.isPrefixOf]
  have e2 : ∀ t : List Char, ('-' :: '-' :: s).isPrefixOf ('-' :: '-' :: t) = s.isPrefixOf t := by
    intro t; simp [List.isPrefixOf]
  rw [List.filter_cons, e1, List.filter_cons, e2, List.filter_cons, e2, List.filter_cons, e2]
  unfold helpName commandName saveName
  have l1 : ("--".toList.isPrefixOf ['-', '-', 'h', 'e', 'l', 'p']) = true := by decide
  have l2 : ("--".toList.isPrefixOf
      ['-', '-', 'c', 'o', 'm', 'm', 'a', 'n', 'd', '_', 'i', 'n', 'v', 'o', 'c', 'a', 't', 'i', 'o', 'n']) = true := by decide
  have l3 : ("--".toList.isPrefixOf ['-', '-', 's', 'a', 'v', 'e', '_', 't', 'o']) = true := by decide
  simp only [Bool.false_eq_true, if_false]
  split <;> split <;> split <;> simp only [List.map_cons, List.map_nil, List.filter_nil, List.nil_append, List.cons_append,
    List.append_nil, l1, l2, l3]

theorem parse_dash (digit : Char → Bool) (r : List Char) : parseOptional digit ('-' :: r) =
    match options.lookup ('-' :: r) with
    | some a => .ok (.option (some a) ("--".toList.isPrefixOf ('-' :: r)) false none)
    | none =>
        if r = [] then .ok .argument
        else match (partitionEq ('-' :: r)).2, options.lookup (partitionEq ('-' :: r)).1 with
          | some e, some a => .ok (.option (some a) ("--".toList.isPrefixOf ('-' :: r)) true (some e))
          | _, _ =>
              match candidates ('-' :: r) with
              | _ :: _ :: _ => .error ()
              | [t] => .ok t
              | [] =>
                  if negativeNumber digit ('-' :: r) then .ok .argument
                  else if ' ' ∈ '-' :: r then .ok .argument
                  else .ok (.option none ("--".toList.isPrefixOf ('-' :: r)) false none) := by
  unfold parseOptional
  exact if_neg (by simp)

theorem prefix_head {a b : Char} {s t : List Char} (h : (a :: s).isPrefixOf (b :: t) = true) : a = b := by
  simp only [List.isPrefixOf, Bool.and_eq_true, beq_iff_eq] at h
  exact h.1

/-- How a word that begins with two dashes is read. -/
theorem parse_long (digit : Char → Bool) (hd : digit '-' = false) {s : List Char} (hs : '=' ∉ s) (e : Option (List Char)) :
    parseOptional digit ('-' :: '-' :: (s ++ rest e)) =
      if s = [] then .error ()
      else if s.isPrefixOf helpName then .ok (.option (some .help) true e.isSome e)
      else if s.isPrefixOf commandName then .ok (.option (some .command) true e.isSome e)
      else if s.isPrefixOf saveName then .ok (.option (some .save) true e.isSome e)
      else if ' ' ∈ s ++ rest e then .ok .argument
      else .ok (.option none true false none) := by
  have hp : partitionEq ('-' :: '-' :: (s ++ rest e)) = ('-' :: '-' :: s, e) := by
    have := partitionEq_rest (s := '-' :: '-' :: s) (by simp [hs]) e
    exact this
  have hl : ("--".toList.isPrefixOf ('-' :: '-' :: (s ++ rest e))) = true := rfl
  -- what the candidates give
  have hc : (match candidates ('-' :: '-' :: (s ++ rest e)) with
        | _ :: _ :: _ => .error ()
        | [t] => .ok t
        | [] =>
            if negativeNumber digit ('-' :: '-' :: (s ++ rest e)) then .ok .argument
            else if ' ' ∈ '-' :: '-' :: (s ++ rest e) then .ok .argument
            else .ok (.option none ("--".toList.isPrefixOf ('-' :: '-' :: (s ++ rest e))) false none)) =
      (if s = [] then .error ()
      else if s.isPrefixOf helpName then .ok (.option (some .help) true e.isSome e)
      else if s.isPrefixOf commandName then .ok (.option (some .command) true e.isSome e)
      else if s.isPrefixOf saveName then .ok (.option (some .save) true e.isSome e)
      else if ' ' ∈ s ++ rest e then .ok .argument
      else .ok (.option none true false none) : Except Unit Token) := by
    rw [candidates_long hs, hl]
    cases s with
    | nil => rfl
    | cons a s =>
        have hnum : negativeNumber digit ('-' :: '-' :: (a :: s ++ rest e)) = false := by
          unfold negativeNumber
          have hne : ∀ l : List Char, (if ('-' :: a :: l).getLast? = some '\n' then ('-' :: a :: l).dropLast else '-' :: a :: l) =
              '-' :: (if ('-' :: a :: l).getLast? = some '\n' then (a :: l).dropLast else a :: l) := by
            intro l; split <;> rfl
          simp only [List.cons_append]
          rw [hne]
          simp only [allDigits, List.all_cons, hd, Bool.false_and, Bool.and_false, Bool.false_or]
          rw [List.dropWhile_cons_of_neg (by simp [hd])]
          rfl
        have hsp : (' ' ∈ '-' :: '-' :: (a :: s ++ rest e)) ↔ ' ' ∈ a :: s ++ rest e := by simp
        rw [if_neg (show ¬ a :: s = [] by simp), hnum]
        simp only [hsp]
        by_cases h1 : (a :: s).isPrefixOf helpName = true
        · have ha := prefix_head h1
          subst ha
          rw [if_pos h1, if_neg (show ¬ ('h' :: s).isPrefixOf commandName = true from fun h => absurd (prefix_head h) (by decide)),
            if_neg (show ¬ ('h' :: s).isPrefixOf saveName = true from fun h => absurd (prefix_head h) (by decide)), if_pos h1]
          rfl
        · by_cases h2 : (a :: s).isPrefixOf commandName = true
          · have ha := prefix_head h2
            subst ha
            rw [if_neg h1, if_pos h2, if_neg h1, if_pos h2,
              if_neg (show ¬ ('c' :: s).isPrefixOf saveName = true from fun h => absurd (prefix_head h) (by decide))]
            rfl
          · by_cases h3 : (a :: s).isPrefixOf saveName = true
            · rw [if_neg h1, if_neg h2, if_pos h3, if_neg h1, if_neg h2, if_pos h3]; rfl
            · rw [if_neg h1, if_neg h2, if_neg h3, if_neg h1, if_neg h2, if_neg h3]
              rfl
  -- the exact spellings are read in the same way
  have hlook : ∀ a, options.lookup ('-' :: '-' :: s) = some a →
      (a = .help ∧ s = helpName) ∨ (a = .command ∧ s = commandName) ∨ (a = .save ∧ s = saveName) := by
    intro a h
    rw [options_eq] at h
    simp only [List.lookup_cons, List.lookup_nil] at h
    unfold helpName commandName saveName
    split at h
    · rename_i he; simp at he
    · split at h
      · rename_i he; cases h; left; simpa using he
      · split at h
        · rename_i he; cases h; right; left; simpa using he
        · split at h
          · rename_i he; cases h; right; right; simpa using he
          · cases h
  have hres : ∀ a, options.lookup ('-' :: '-' :: s) = some a →
      (if s = [] then .error ()
      else if s.isPrefixOf helpName then .ok (.option (some .help) true e.isSome e)
      else if s.isPrefixOf commandName then .ok (.option (some .command) true e.isSome e)
      else if s.isPrefixOf saveName then .ok (.option (some .save) true e.isSome e)
      else if ' ' ∈ s ++ rest e then .ok .argument
      else .ok (.option none true false none) : Except Unit Token) = .ok (.option (some a) true e.isSome e) := by
    intro a h
    rcases hlook a h with ⟨rfl, rfl⟩ | ⟨rfl, rfl⟩ | ⟨rfl, rfl⟩ <;> rfl
  rw [← hc]
  rw [parse_dash]
  cases hlk : options.lookup ('-' :: '-' :: (s ++ rest e)) with
  | some a =>
      have he : e = none := by
        cases e with
        | none => rfl
        | some r =>
            exfalso
            have hm : '=' ∈ '-' :: '-' :: (s ++ rest (some r)) := by simp [rest]
            rw [options_eq] at hlk
            simp only [List.lookup_cons, List.lookup_nil] at hlk
            split at hlk
            · rename_i he; rw [beq_iff_eq] at he; rw [he] at hm; revert hm; decide
            · split at hlk
              · rename_i he; rw [beq_iff_eq] at he; rw [he] at hm; revert hm; decide
              · split at hlk
                · rename_i he; rw [beq_iff_eq] at he; rw [he] at hm; revert hm; decide
                · split at hlk
                  · rename_i he; rw [beq_iff_eq] at he; rw [he] at hm; revert hm; decide
                  · cases hlk
      subst he
      rw [show s ++ rest none = s by simp [rest]] at hlk
      rw [hc, hres a hlk, hl]
      rfl
  | none =>
      rw [if_neg (show ¬ ('-' :: (s ++ rest e)) = [] by simp), hp]
      cases e with
      | none => rfl
      | some r =>
          cases hlk' : options.lookup ('-' :: '-' :: s) with
          | none => rfl
          | some a =>
              rw [hc, hres a hlk', hl]
              rfl

/-- How a word that begins with one dash is read. -/
theorem parse_short (digit : Char → Bool) {c : Char} (hc : c ≠ '-') (r : List Char) :
    (c = 'h' → ∃ sep e, parseOptional digit ('-' :: c :: r) = .ok (.option (some .help) false sep e)) ∧
    (c ≠ 'h' → parseOptional digit ('-' :: c :: r) =
      if negativeNumber digit ('-' :: c :: r) ∨ ' ' ∈ c :: r then .ok .argument else .ok (.option none false false none)) := by
  have hl : ("--".toList.isPrefixOf ('-' :: c :: r)) = false := by
    simp [List.isPrefixOf, Ne.symm hc]
  have hlook : ∀ x : List Char, x.head? = some c → options.lookup ('-' :: x) = if x = ['h'] then some .help else none := by
    intro x hx
    cases x with
    | nil => cases hx
    | cons b x =>
        simp only [List.head?_cons, Option.some.injEq] at hx
        subst hx
        rw [options_eq]
        simp only [List.lookup_cons, List.lookup_nil]
        by_cases h : b :: x = ['h']
        · rw [if_pos h, h]; rfl
        · rw [if_neg h]
          have e1 : (('-' :: b :: x) == ['-', 'h']) = false := by
            rw [beq_eq_false_iff_ne]; intro e; exact h (by simpa using e)
          have e2 : ∀ t : List Char, (('-' :: b :: x) == '-' :: '-' :: t) = false := by
            intro t; rw [beq_eq_false_iff_ne]; intro e; simp at e; exact hc e.1
          rw [e1, e2, e2, e2]
  have hcand : candidates ('-' :: c :: r) = if c = 'h' then [.option (some .help) false false (some r)] else [] := by
    unfold candidates
    rw [hl, options_eq]
    by_cases h : c = 'h'
    · subst h
      rw [if_pos rfl]
      simp [List.filterMap, List.isPrefixOf]
    · rw [if_neg h]
      have h' := Ne.symm h
      have hc' := Ne.symm hc
      simp [List.filterMap, List.isPrefixOf, h, h', hc, hc']
  constructor
  · rintro rfl
    rw [parse_dash, hlook ('h' :: r) rfl]
    by_cases hr : r = []
    · subst hr; exact ⟨false, none, rfl⟩
    · rw [if_neg (show ¬ 'h' :: r = ['h'] by simpa using hr), if_neg (show ¬ 'h' :: r = [] by simp), hl, hcand]
      cases h1 : (partitionEq ('-' :: 'h' :: r)).2 with
      | none => exact ⟨false, some r, rfl⟩
      | some e =>
          cases h2 : options.lookup (partitionEq ('-' :: 'h' :: r)).1 with
          | none => exact ⟨false, some r, rfl⟩
          | some a =>
              have hh : (partitionEq ('-' :: 'h' :: r)).1 = '-' :: ('h' :: r).takeWhile (· ≠ '=') := rfl
              have hh2 : ('h' :: r).takeWhile (fun x => decide (x ≠ '=')) = 'h' :: r.takeWhile (· ≠ '=') := rfl
              rw [hh, hlook _ (by rw [hh2]; rfl)] at h2
              split at h2
              · cases h2; exact ⟨true, some e, rfl⟩
              · cases h2
  · intro h
    have hq : ∀ x : List Char, x.head? = some c → options.lookup ('-' :: x) = none := by
      intro x hx
      rw [hlook x hx, if_neg]
      rintro rfl
      exact h (by simpa using hx.symm)
    have hh : (partitionEq ('-' :: c :: r)).1 = '-' :: (c :: r).takeWhile (· ≠ '=') := rfl
    have hlk2 : ∀ e, (partitionEq ('-' :: c :: r)).2 = some e → options.lookup (partitionEq ('-' :: c :: r)).1 = none := by
      intro e _
      rw [hh]
      by_cases hce : c = '='
      · subst hce
        rw [List.takeWhile_cons_of_neg (by simp), options_eq]; decide
      · refine hq _ ?_
        rw [List.takeWhile_cons_of_pos (by simpa using hce)]; rfl
    rw [parse_dash, hq (c :: r) rfl, if_neg (show ¬ c :: r = [] by simp), hcand, if_neg h, hl]
    have hsp : (' ' ∈ '-' :: c :: r) ↔ ' ' ∈ c :: r := by simp
    have fin : (if negativeNumber digit ('-' :: c :: r) = true then .ok .argument
        else if ' ' ∈ '-' :: c :: r then .ok .argument else .ok (.option none false false none) : Except Unit Token) =
        if negativeNumber digit ('-' :: c :: r) = true ∨ ' ' ∈ c :: r then .ok .argument else .ok (.option none false false none) := by
      by_cases h1 : negativeNumber digit ('-' :: c :: r) = true
      · simp [h1]
      · rw [if_neg h1]; simp only [h1, hsp, Bool.false_eq_true, false_or]
    cases h1 : (partitionEq ('-' :: c :: r)).2 with
    | none => exact fin
    | some e => rw [hlk2 e h1]; exact fin

theorem negative_iff (digit : Char → Bool) (hd : digit '.' = false ∧ digit '\n' = false) (v : String) :
    negativeNumber digit v.toList = true ↔ MinusNumber digit v := by
  unfold MinusNumber
  generalize v.toList = w
  constructor
  · intro h
    unfold negativeNumber at h
    split at h
    · rename_i r0
      have hr : ∃ r n : List Char, r0 = r ++ n ∧ (n = [] ∨ n = ['\n']) ∧
          (if r0.getLast? = some '\n' then r0.dropLast else r0) = r := by
        by_cases hl : r0.getLast? = some '\n'
        · obtain ⟨r, rfl⟩ := List.getLast?_eq_some_iff.1 hl
          exact ⟨r, ['\n'], rfl, .inr rfl, by rw [if_pos hl]; simp⟩
        · exact ⟨r0, [], by simp, .inl rfl, by rw [if_neg hl]⟩
      obtain ⟨r, n, rfl, hn, he⟩ := hr
      simp only [he, Bool.or_eq_true] at h
      rcases h with h | h
      · simp only [allDigits, Bool.and_eq_true, Bool.not_eq_true', List.all_eq_true] at h
        refine ⟨[], r, n, by simpa using h.2, hn, ?_, .inl (by simp)⟩
        rintro rfl; simp at h
      · split at h
        · rename_i s hs
          simp only [allDigits, Bool.and_eq_true, Bool.not_eq_true', List.all_eq_true] at h
          refine ⟨r.takeWhile digit, s, n, ?_, hn, ?_, .inr ?_⟩
          · intro c hc
            rcases List.mem_append.1 hc with hc | hc
            · exact List.all_eq_true.1 List.all_takeWhile c hc
            · exact h.2 c hc
          · rintro rfl; simp at h
          · rw [← hs, List.takeWhile_append_dropWhile]
        · cases h
    · cases h
  · rintro ⟨a, b, n, hab, hn, hb, h⟩
    have hda : ∀ c ∈ a, digit c = true := fun c hc => hab c (List.mem_append_left _ hc)
    have hdb : ∀ c ∈ b, digit c = true := fun c hc => hab c (List.mem_append_right _ hc)
    -- the newline at the end is ignored
    have strip : ∀ u : List Char, (if (u ++ b ++ n).getLast? = some '\n' then (u ++ b ++ n).dropLast else u ++ b ++ n) = u ++ b := by
      intro u
      rcases hn with rfl | rfl
      · rw [List.append_nil, if_neg]
        intro hl
        rw [List.getLast?_append, List.getLast?_eq_some_getLast hb, Option.some_or] at hl
        have := hdb _ (List.getLast_mem hb)
        rw [Option.some.inj hl] at this
        rw [hd.2] at this; cases this
      · rw [if_pos (by simp)]; simp
    have hall : ∀ u : List Char, (∀ c ∈ u, digit c = true) → u ++ b ≠ [] → allDigits digit (u ++ b) = true := by
      intro u hu hne
      simp only [allDigits, Bool.and_eq_true, Bool.not_eq_true', List.all_eq_true]
      refine ⟨?_, fun c hc => ?_⟩
      · cases hx : u ++ b with
        | nil => exact absurd hx hne
        | cons _ _ => rfl
      · rcases List.mem_append.1 hc with hc | hc
        · exact hu c hc
        · exact hdb c hc
    rcases h with rfl | rfl
    · unfold negativeNumber
      simp only [strip a, hall a hda (by simp [hb]), Bool.true_or]
    · unfold negativeNumber
      have e : a ++ '.' :: b ++ n = (a ++ ['.']) ++ b ++ n := by simp
      rw [e]
      simp only [strip (a ++ ['.'])]
      have e2 : (a ++ ['.'] ++ b).dropWhile digit = '.' :: b := by
        rw [List.append_assoc, List.dropWhile_append_of_pos hda]
        rw [List.cons_append, List.dropWhile_cons_of_neg (by simp [hd.1])]; rfl
      rw [e2]
      have := hall [] (by simp) (by simpa using hb)
      simp only [List.nil_append] at this
      simp [this]

/-- The characters that are no digits. -/
def NoDigits (digit : Char → Bool) : Prop := ∀ c ∈ ['-', 'h', '.', '\n'], digit c = false

theorem prefix_of_names {s : List Char} :
    (∃ name ∈ ["--help", "--command_invocation", "--save_to"], ('-' :: '-' :: s) <+: name.toList) ↔
      (s.isPrefixOf helpName = true ∨ s.isPrefixOf commandName = true ∨ s.isPrefixOf saveName = true) := by
  have h1 : "--help".toList = '-' :: '-' :: helpName := by decide +kernel
  have h2 : "--command_invocation".toList = '-' :: '-' :: commandName := by decide +kernel
  have h3 : "--save_to".toList = '-' :: '-' :: saveName := by decide +kernel
  simp only [List.mem_cons, List.not_mem_nil, or_false, exists_eq_or_imp, exists_eq_left, h1, h2, h3,
    List.cons_prefix_cons, true_and, List.isPrefixOf_iff_prefix]

/-- A word is read as an argument exactly if it is a word for a value. -/
theorem parse_argument (digit : Char → Bool) (hd : NoDigits digit) (v : String) :
    parseOptional digit v.toList = .ok .argument ↔ ValueWord digit v := by
  have hneg := negative_iff digit ⟨hd '.' (by simp), hd '\n' (by simp)⟩ v
  unfold ValueWord
  have hv1 : v = "-" ↔ v.toList = ['-'] := by
    rw [← String.toList_inj]; rfl
  rw [hv1, ← hneg]
  generalize v.toList = w
  clear hneg hv1
  match w with
  | [] => simp [parseOptional]
  | c :: r =>
      by_cases hc : c = '-'
      · subst hc
        match r with
        | [] => simp [parse_dash, options_eq, List.lookup]
        | c :: r =>
            have hn1 : ¬ ('-' :: c :: r) = ['-'] := by simp
            have hp : ['-'] <+: '-' :: c :: r := by simp
            simp only [hn1, hp, not_true_eq_false, false_or]
            by_cases hc : c = '-'
            · subst hc
              obtain ⟨s, e, hs, rfl⟩ := split_rest r
              rw [parse_long digit (hd '-' (by simp)) hs]
              have hnum : negativeNumber digit ('-' :: '-' :: (s ++ rest e)) = true → False := by
                intro h
                unfold negativeNumber at h
                simp only at h
                cases hl : s ++ rest e with
                | nil =>
                    rw [hl] at h
                    simp [allDigits, hd '-' (by simp)] at h
                | cons b l =>
                    rw [hl] at h
                    have hne : (if ('-' :: b :: l).getLast? = some '\n' then ('-' :: b :: l).dropLast else '-' :: b :: l) =
                        '-' :: (if ('-' :: b :: l).getLast? = some '\n' then (b :: l).dropLast else b :: l) := by
                      split <;> rfl
                    rw [hne] at h
                    simp only [allDigits, List.all_cons, hd '-' (by simp), Bool.false_and, Bool.and_false, Bool.false_or] at h
                    rw [List.dropWhile_cons_of_neg (by simp [hd '-' (by simp)])] at h
                    cases h
              have hh : ¬ ['-', 'h'] <+: '-' :: '-' :: (s ++ rest e) := by
                simp [List.cons_prefix_cons]
              have hsp : (' ' ∈ '-' :: '-' :: (s ++ rest e)) ↔ ' ' ∈ s ++ rest e := by simp
              simp only [hh, not_false_eq_true, true_and, hsp]
              -- the name that the word begins with
              have hname : (∃ name ∈ ["--help", "--command_invocation", "--save_to"], ∃ n q : List Char,
                  n <+: name.toList ∧ 2 ≤ n.length ∧ '-' :: '-' :: (s ++ rest e) = n ++ '=' :: q) ↔
                  (e.isSome = true ∧ (s.isPrefixOf helpName = true ∨ s.isPrefixOf commandName = true ∨ s.isPrefixOf saveName = true)) := by
                rw [← prefix_of_names]
                constructor
                · rintro ⟨name, hm, n, q, hpre, hlen, he⟩
                  have hno : '=' ∉ n := by
                    intro h
                    have := hpre.subset h
                    simp only [List.mem_cons, List.not_mem_nil, or_false] at hm
                    rcases hm with rfl | rfl | rfl <;> revert this <;> decide +kernel
                  have := rest_inj (s := '-' :: '-' :: s) (s' := n) (by simp [hs]) hno (e := e) (e' := some q) he
                  refine ⟨by rw [this.2]; rfl, name, hm, by rw [this.1]; exact hpre⟩
                · rintro ⟨he, name, hm, hpre⟩
                  obtain ⟨q, rfl⟩ := Option.isSome_iff_exists.1 he
                  exact ⟨name, hm, '-' :: '-' :: s, q, hpre, by simp, rfl⟩
              rw [hname]
              have hnospace : ∀ t ∈ [helpName, commandName, saveName], s.isPrefixOf t = true → e = none → ' ' ∉ s ++ rest e := by
                intro t ht hpre he hm
                subst he
                simp only [rest, List.append_nil] at hm
                have := (List.isPrefixOf_iff_prefix.1 hpre).subset hm
                simp only [List.mem_cons, List.not_mem_nil, or_false] at ht
                rcases ht with rfl | rfl | rfl <;> revert this <;> decide
              by_cases hnil : s = []
              · subst hnil
                rw [if_pos rfl]
                constructor
                · intro h; cases h
                · rintro (h | ⟨h, h'⟩)
                  · exact absurd h (by intro h; exact hnum h)
                  · exfalso
                    cases e with
                    | none => simp [rest] at h
                    | some q => exact h' ⟨rfl, .inl rfl⟩
              · rw [if_neg hnil]
                by_cases h1 : s.isPrefixOf helpName = true
                · rw [if_pos h1]
                  refine iff_of_false (by simp) ?_
                  rintro (h | ⟨h, h'⟩)
                  · exact hnum h
                  · cases e with
                    | none => exact hnospace _ (by simp) h1 rfl h
                    | some q => exact h' ⟨rfl, .inl h1⟩
                · by_cases h2 : s.isPrefixOf commandName = true
                  · rw [if_neg h1, if_pos h2]
                    refine iff_of_false (by simp) ?_
                    rintro (h | ⟨h, h'⟩)
                    · exact hnum h
                    · cases e with
                      | none => exact hnospace _ (by simp) h2 rfl h
                      | some q => exact h' ⟨rfl, .inr (.inl h2)⟩
                  · by_cases h3 : s.isPrefixOf saveName = true
                    · rw [if_neg h1, if_neg h2, if_pos h3]
                      refine iff_of_false (by simp) ?_
                      rintro (h | ⟨h, h'⟩)
                      · exact hnum h
                      · cases e with
                        | none => exact hnospace _ (by simp) h3 rfl h
                        | some q => exact h' ⟨rfl, .inr (.inr h3)⟩
                    · rw [if_neg h1, if_neg h2, if_neg h3]
                      by_cases hspace : ' ' ∈ s ++ rest e
                      · rw [if_pos hspace]
                        refine iff_of_true rfl (.inr ⟨hspace, ?_⟩)
                        rintro ⟨_, h | h | h⟩
                        · exact h1 h
                        · exact h2 h
                        · exact h3 h
                      · rw [if_neg hspace]
                        refine iff_of_false (by simp) ?_
                        rintro (h | ⟨h, _⟩)
                        · exact hnum h
                        · exact hspace h
            · obtain ⟨p1, p2⟩ := parse_short digit hc r
              by_cases hh : c = 'h'
              · subst hh
                obtain ⟨sep, e, he⟩ := p1 rfl
                rw [he]
                refine iff_of_false (by simp) ?_
                rintro (h | ⟨_, h, _⟩)
                · unfold negativeNumber at h
                  simp only at h
                  cases r with
                  | nil => simp [allDigits, hd 'h' (by simp)] at h
                  | cons b l =>
                      have hne : (if ('h' :: b :: l).getLast? = some '\n' then ('h' :: b :: l).dropLast else 'h' :: b :: l) =
                          'h' :: (if ('h' :: b :: l).getLast? = some '\n' then (b :: l).dropLast else b :: l) := by
                        split <;> rfl
                      rw [hne] at h
                      simp only [allDigits, List.all_cons, hd 'h' (by simp), Bool.false_and, Bool.and_false, Bool.false_or] at h
                      rw [List.dropWhile_cons_of_neg (by simp [hd 'h' (by simp)])] at h
                      cases h
                · exact h (by simp)
              · rw [p2 hh]
                have hsp : (' ' ∈ '-' :: c :: r) ↔ ' ' ∈ c :: r := by simp
                have h1 : ¬ ['-', 'h'] <+: '-' :: c :: r := by
                  simp [List.cons_prefix_cons, Ne.symm hh]
                have h2 : ¬ ∃ name ∈ ["--help", "--command_invocation", "--save_to"], ∃ n q : List Char,
                    n <+: name.toList ∧ 2 ≤ n.length ∧ '-' :: c :: r = n ++ '=' :: q := by
                  rintro ⟨name, hm, n, q, hpre, hlen, he⟩
                  have hd2 : '-' :: ['-'] <+: n := by
                    have : ['-', '-'] <+: name.toList := by
                      simp only [List.mem_cons, List.not_mem_nil, or_false] at hm
                      rcases hm with rfl | rfl | rfl <;> decide +kernel
                    exact List.prefix_of_prefix_length_le this hpre (by simpa using hlen)
                  obtain ⟨t, rfl⟩ := hd2
                  simp at he
                  exact hc he.1
                simp only [h1, h2, not_false_eq_true, and_true, hsp]
                split <;> rename_i h
                · exact iff_of_true rfl h
                · exact iff_of_false (by simp) h
      · refine iff_of_true ?_ (.inl ?_)
        · simp [parseOptional, hc]
        · simp [List.cons_prefix_cons, Ne.symm hc]

/-- The action of a setting. -/
def actionOf : Setting → Action
  | .command _ => .command
  | .save _ => .save

/-- The names without the dashes. -/
def bare : Setting → List Char
  | .command _ => commandName
  | .save _ => saveName

theorem name_bare (x : Setting) : x.name.toList = '-' :: '-' :: bare x := by
  cases x
  · show "--command_invocation".toList = '-' :: '-' :: commandName; decide +kernel
  · show "--save_to".toList = '-' :: '-' :: saveName; decide +kernel

theorem spells_iff (n : String) (x : Setting) :
    Spells n x.name ↔ ∃ s, n.toList = '-' :: '-' :: s ∧ s ≠ [] ∧ s.isPrefixOf (bare x) = true := by
  unfold Spells
  rw [name_bare, ← String.length_toList]
  constructor
  · rintro ⟨h, hl⟩
    match hn : n.toList, h, hl with
    | a :: b :: c :: r, h, _ =>
        simp only [List.cons_prefix_cons] at h
        obtain ⟨rfl, rfl, h⟩ := h
        exact ⟨c :: r, rfl, by simp, List.isPrefixOf_iff_prefix.2 h⟩
  · rintro ⟨s, hn, hs, h⟩
    rw [hn]
    refine ⟨by simpa using List.isPrefixOf_iff_prefix.1 h, ?_⟩
    cases s with
    | nil => exact absurd rfl hs
    | cons a s => simp

theorem no_equals {s : List Char} {x : Setting} (h : s.isPrefixOf (bare x) = true) : '=' ∉ s := by
  intro hm
  have := (List.isPrefixOf_iff_prefix.1 h).subset hm
  cases x <;> revert this <;> simp only [bare] <;> decide

theorem parse_spelled (digit : Char → Bool) (hd : NoDigits digit) {x : Setting} {n : String} (h : Spells n x.name) :
    parseOptional digit n.toList = .ok (.option (some (actionOf x)) true false none) ∧ n ≠ "--" ∧
      ∀ v : String, parseOptional digit (n ++ "=" ++ v).toList =
          .ok (.option (some (actionOf x)) true true (some v.toList)) ∧ n ++ "=" ++ v ≠ "--" := by
  obtain ⟨s, hn, hs, hp⟩ := (spells_iff n x).1 h
  have he := no_equals hp
  have hread : ∀ e, parseOptional digit ('-' :: '-' :: (s ++ rest e)) =
      .ok (.option (some (actionOf x)) true e.isSome e) := by
    intro e
    rw [parse_long digit (hd '-' (by simp)) he, if_neg hs]
    cases s with
    | nil => exact absurd rfl hs
    | cons a s =>
        cases x with
        | command t =>
            have ha := prefix_head (b := 'c') (t := commandName.tail) hp
            subst ha
            have h1 : ¬ ('c' :: s).isPrefixOf helpName = true := fun h => absurd (prefix_head (b := 'h') (t := helpName.tail) h) (by decide)
            rw [if_neg h1]; exact if_pos hp
        | save t =>
            have ha := prefix_head (b := 's') (t := saveName.tail) hp
            subst ha
            have h1 : ¬ ('s' :: s).isPrefixOf helpName = true := fun h => absurd (prefix_head (b := 'h') (t := helpName.tail) h) (by decide)
            have h2 : ¬ ('s' :: s).isPrefixOf commandName = true :=
              fun h => absurd (prefix_head (b := 'c') (t := commandName.tail) h) (by decide)
            rw [if_neg h1, if_neg h2]; exact if_pos hp
  have hlen : ∀ w : String, 3 ≤ w.length → w ≠ "--" := by
    rintro w hw rfl; exact absurd hw (by decide)
  refine ⟨?_, hlen n h.2, fun v => ⟨?_, hlen _ ?_⟩⟩
  · rw [hn]; simpa [rest] using hread none
  · have : (n ++ "=" ++ v).toList = '-' :: '-' :: (s ++ rest (some v.toList)) := by
      rw [String.toList_append, String.toList_append, hn]
      show _ = _ :: _ :: (s ++ '=' :: v.toList)
      simp
    rw [this]; exact hread (some v.toList)
  · rw [String.length_append, String.length_append]; have := h.2; omega

/-- The setting of an action and a value. -/
def settingOf (a : Action) (v : String) : Option Setting :=
  match a with
  | .help => none
  | .command => some (.command v)
  | .save => some (.save v)

theorem parse_setting (digit : Char → Bool) (hd : NoDigits digit) {w : String} {a : Action} {l p : Bool}
    {e : Option (List Char)} (h : parseOptional digit w.toList = .ok (.option (some a) l p e)) (ha : a ≠ .help) :
    ∃ n : String, w.toList = n.toList ++ rest e ∧ ∀ v x, settingOf a v = some x → Spells n x.name := by
  match hw : w.toList with
  | [] => rw [hw] at h; simp [parseOptional] at h
  | c :: r =>
      rw [hw] at h
      by_cases hc : c = '-'
      · subst hc
        match r with
        | [] => simp [parse_dash, options_eq, List.lookup] at h
        | c :: r =>
            by_cases hc : c = '-'
            · subst hc
              obtain ⟨s, e', hs, rfl⟩ := split_rest r
              rw [parse_long digit (hd '-' (by simp)) hs] at h
              split at h
              · cases h
              · rename_i hnil
                split at h
                · injection h with h; injection h with h _ _ _; injection h with h; exact absurd h.symm ha
                · split at h
                  · rename_i _ hp
                    injection h with h; injection h with h1 _ _ h2; injection h1 with h1
                    subst h1 h2
                    refine ⟨String.ofList ('-' :: '-' :: s), by rw [String.toList_ofList]; rfl, ?_⟩
                    rintro v x ⟨⟩
                    exact (spells_iff _ _).2 ⟨s, String.toList_ofList, hnil, hp⟩
                  · split at h
                    · rename_i _ _ hp
                      injection h with h; injection h with h1 _ _ h2; injection h1 with h1
                      subst h1 h2
                      refine ⟨String.ofList ('-' :: '-' :: s), by rw [String.toList_ofList]; rfl, ?_⟩
                      rintro v x ⟨⟩
                      exact (spells_iff _ _).2 ⟨s, String.toList_ofList, hnil, hp⟩
                    · split at h <;> cases h
            · obtain ⟨p1, p2⟩ := parse_short digit hc r
              by_cases hh : c = 'h'
              · obtain ⟨sep, e', he⟩ := p1 hh
                rw [he] at h
                injection h with h; injection h with h _ _ _; injection h with h; exact absurd h.symm ha
              · rw [p2 hh] at h
                split at h <;> cases h
      · simp [parseOptional, hc] at h

/-- Once there is a word that belongs to no option, the script does not run. -/
theorem consume_extras {t : String} {f : Option String} (ts : List (String × Token)) (s : State) (hs : s.extras = true) :
    consume ts s ≠ .run t f := by
  fun_induction consume ts s with
  | case1 => simp
  | case2 => simp
  | case3 s c hc hx => exact absurd hs hx
  | case4 _ _ _ ih => exact ih rfl
  | case5 _ _ _ ih => exact ih rfl
  | case6 _ _ _ _ _ _ ih => exact ih rfl
  | case7 => simp
  | case8 => simp
  | case9 _ _ _ e =>
      clear hs
      fun_induction helpCluster e <;> simp_all
  | case10 _ a _ _ e r s _ ih =>
      apply ih
      cases a <;> exact hs
  | case11 _ a _ _ v r s _ ih =>
      apply ih
      cases a <;> exact hs
  | case12 => simp

theorem helpCluster_run (e : List Char) {t : String} {f : Option String} : helpCluster e ≠ .run t f := by
  fun_induction helpCluster e <;> simp_all

/-- The state after some settings. -/
def after (s : State) (ss : List Setting) : State := ss.foldl (fun s x => s.set (actionOf x) x.value) s

theorem after_extras (ss : List Setting) (s : State) : (after s ss).extras = s.extras := by
  induction ss generalizing s with
  | nil => rfl
  | cons x ss ih =>
      rw [after, List.foldl_cons, ← after, ih]
      cases x <;> rfl

theorem after_command (ss : List Setting) (s : State) : (after s ss).command = (lastCommand ss).or s.command := by
  induction ss generalizing s with
  | nil => rfl
  | cons x ss ih =>
      rw [after, List.foldl_cons, ← after, ih]
      unfold lastCommand
      cases x with
      | save f => rfl
      | command t =>
          rw [List.filterMap_cons]
          show _ = Option.or (List.getLast? (t :: _)) _
          rw [List.getLast?_cons]
          show Option.or _ (some t) = _
          cases h : List.getLast? (List.filterMap _ ss) <;> rfl

theorem after_save (ss : List Setting) (s : State) : (after s ss).save = (lastSave ss).or s.save := by
  induction ss generalizing s with
  | nil => rfl
  | cons x ss ih =>
      rw [after, List.foldl_cons, ← after, ih]
      unfold lastSave
      cases x with
      | command f => rfl
      | save t =>
          rw [List.filterMap_cons]
          show _ = Option.or (List.getLast? (t :: _)) _
          rw [List.getLast?_cons]
          show Option.or _ (some t) = _
          cases h : List.getLast? (List.filterMap _ ss) <;> rfl

/-- Written settings are read as these settings. -/
theorem written_read (digit : Char → Bool) (hd : NoDigits digit) {ss : List Setting} {ws : List String}
    (h : Written digit ss ws) : ∃ ts, tokens digit ws = .ok ts ∧ ∀ s, consume ts s = consume [] (after s ss) := by
  induction h with
  | nil => exact ⟨[], rfl, fun s => rfl⟩
  | @apart x ss n ws hn hv _ ih =>
      obtain ⟨ts, ht, hc⟩ := ih
      obtain ⟨p1, p2, _⟩ := parse_spelled digit hd hn
      have hv' := (parse_argument digit hd x.value).2 hv
      have hne : x.value ≠ "--" := by
        intro h
        rw [h] at hv'
        have : parseOptional digit "--".toList = .error () := by
          have := parse_long digit (hd '-' (by simp)) (s := []) (by simp) none
          simpa [rest] using this
        rw [this] at hv'; cases hv'
      refine ⟨(n, .option (some (actionOf x)) true false none) :: (x.value, .argument) :: ts, ?_, fun s => ?_⟩
      · rw [tokens, if_neg p2, p1]
        show (do let ts ← tokens digit (x.value :: ws); Except.ok _) = _
        rw [tokens, if_neg hne, hv', ht]; rfl
      · rw [after, List.foldl_cons, ← after, ← hc]
        cases x <;> rfl
  | @joined x ss n ws hn _ ih =>
      obtain ⟨ts, ht, hc⟩ := ih
      obtain ⟨_, _, p⟩ := parse_spelled digit hd hn
      obtain ⟨p1, p2⟩ := p x.value
      refine ⟨(n ++ "=" ++ x.value, .option (some (actionOf x)) true true (some x.value.toList)) :: ts, ?_, fun s => ?_⟩
      · rw [tokens, if_neg p2, p1]
        show (do let ts ← tokens digit ws; Except.ok _) = _
        rw [ht]; rfl
      · rw [after, List.foldl_cons, ← after, ← hc]
        have : String.ofList x.value.toList = x.value := String.ofList_toList
        cases x
        · show consume ts (s.set .command (String.ofList _)) = _
          rw [this]; rfl
        · show consume ts (s.set .save (String.ofList _)) = _
          rw [this]; rfl

theorem settingOf_some {a : Action} (ha : a ≠ .help) (v : String) :
    ∃ x, settingOf a v = some x ∧ actionOf x = a ∧ x.value = v := by
  cases a with
  | help => exact absurd rfl ha
  | command => exact ⟨.command v, rfl, rfl, rfl⟩
  | save => exact ⟨.save v, rfl, rfl, rfl⟩

theorem joined_word {w n : String} {e : List Char} (h : w.toList = n.toList ++ rest (some e)) :
    w = n ++ "=" ++ String.ofList e := by
  apply String.toList_inj.1
  rw [h, String.toList_append, String.toList_append]
  simp [rest]

/-- If the script runs, its words are written settings. -/
theorem read_written (digit : Char → Bool) (hd : NoDigits digit) {t : String} {f : Option String} (k : Nat) :
    ∀ (ws : List String) (ts : List (String × Token)) (s : State), ws.length ≤ k → tokens digit ws = .ok ts →
      consume ts s = .run t f → ∃ ss, Written digit ss ws ∧ consume [] (after s ss) = .run t f := by
  induction k with
  | zero =>
      intro ws ts s hk ht h
      cases ws with
      | nil => cases ht; exact ⟨[], .nil, h⟩
      | cons w ws => simp at hk
  | succ k ih =>
      intro ws ts s hk ht h
      cases ws with
      | nil => cases ht; exact ⟨[], .nil, h⟩
      | cons w ws =>
          rw [tokens] at ht
          split at ht
          · cases ht
            rw [consume] at h
            exact absurd h (consume_extras _ _ rfl)
          · cases hp : parseOptional digit w.toList with
            | error u => rw [hp] at ht; cases ht
            | ok tok =>
                rw [hp] at ht
                cases htl : tokens digit ws with
                | error u => rw [htl] at ht; cases ht
                | ok ts' =>
                    rw [htl] at ht
                    cases ht
                    match tok, h with
                    | .argument, h => rw [consume] at h; exact absurd h (consume_extras _ _ rfl)
                    | .dashes, h => rw [consume] at h; exact absurd h (consume_extras _ _ rfl)
                    | .option none _ _ _, h => rw [consume] at h; exact absurd h (consume_extras _ _ rfl)
                    | .option (some a) l p e, h =>
                        by_cases ha : a = .help
                        · subst ha
                          cases e with
                          | none => rw [consume] at h; cases h
                          | some e =>
                              rw [consume] at h
                              split at h
                              · cases h
                              · exact absurd h (helpCluster_run e)
                        · obtain ⟨n, hn, hsp⟩ := parse_setting digit hd hp ha
                          cases e with
                          | some e =>
                              obtain ⟨x, hx, hxa, hxv⟩ := settingOf_some ha (String.ofList e)
                              have h' : consume ts' (s.set a (String.ofList e)) = .run t f := by
                                cases a
                                · exact absurd rfl ha
                                · exact h
                                · exact h
                              obtain ⟨ss, hw, hr⟩ := ih ws ts' _ (by simpa using hk) htl h'
                              refine ⟨x :: ss, ?_, ?_⟩
                              · rw [joined_word hn, ← hxv]
                                exact .joined (hsp _ _ hx) hw
                              · rw [after, List.foldl_cons, ← after, hxa, hxv]; exact hr
                          | none =>
                              have hwn : w = n := String.toList_inj.1 (by rw [hn]; simp [rest])
                              cases ws with
                              | nil =>
                                  cases htl
                                  cases a
                                  · exact absurd rfl ha
                                  · cases h
                                  · cases h
                              | cons v ws =>
                                  rw [tokens] at htl
                                  split at htl
                                  · cases htl
                                    cases a
                                    · exact absurd rfl ha
                                    · cases h
                                    · cases h
                                  · cases hv : parseOptional digit v.toList with
                                    | error u => rw [hv] at htl; cases htl
                                    | ok tok =>
                                        rw [hv] at htl
                                        cases htl' : tokens digit ws with
                                        | error u => rw [htl'] at htl; cases htl
                                        | ok ts'' =>
                                            rw [htl'] at htl
                                            cases htl
                                            cases tok with
                                            | dashes => cases a <;> first | exact absurd rfl ha | cases h
                                            | option _ _ _ _ => cases a <;> first | exact absurd rfl ha | cases h
                                            | argument =>
                                                obtain ⟨x, hx, hxa, hxv⟩ := settingOf_some ha v
                                                have h' : consume ts'' (s.set a v) = .run t f := by
                                                  cases a
                                                  · exact absurd rfl ha
                                                  · exact h
                                                  · exact h
                                                obtain ⟨ss, hw, hr⟩ := ih ws ts'' _ (by simp at hk; omega) htl' h'
                                                refine ⟨x :: ss, ?_, ?_⟩
                                                · rw [hwn, ← hxv]
                                                  refine .apart (hsp _ _ hx) ?_ hw
                                                  rw [hxv]
                                                  exact (parse_argument digit hd v).1 hv
                                                · rw [after, List.foldl_cons, ← after, hxa, hxv]; exact hr

theorem parse_help (digit : Char → Bool) (hd : NoDigits digit) {w : List Char} {l p : Bool} {e : Option (List Char)}
    (h : parseOptional digit w = .ok (.option (some .help) l p e)) : ['-', 'h'] <+: w ∨ ['-', '-', 'h'] <+: w := by
  match w with
  | [] => simp [parseOptional] at h
  | c :: r =>
      by_cases hc : c = '-'
      · subst hc
        match r with
        | [] => simp [parse_dash, options_eq, List.lookup] at h
        | c :: r =>
            by_cases hc : c = '-'
            · subst hc
              obtain ⟨s, e', hs, rfl⟩ := split_rest r
              rw [parse_long digit (hd '-' (by simp)) hs] at h
              split at h
              · cases h
              · rename_i hnil
                split at h
                · rename_i hp
                  cases s with
                  | nil => exact absurd rfl hnil
                  | cons a s =>
                      have ha := prefix_head (b := 'h') (t := helpName.tail) hp
                      subst ha
                      right; simp
                · split at h
                  · injection h with h; injection h with h _ _ _; injection h with h; cases h
                  · split at h
                    · injection h with h; injection h with h _ _ _; injection h with h; cases h
                    · split at h <;> cases h
            · obtain ⟨p1, p2⟩ := parse_short digit hc r
              by_cases hh : c = 'h'
              · subst hh; left; simp
              · rw [p2 hh] at h
                split at h <;> cases h
      · simp [parseOptional, hc] at h

theorem consume_help (ts : List (String × Token)) (s : State) (h : consume ts s = .help) :
    ∃ w l p e, (w, Token.option (some .help) l p e) ∈ ts := by
  fun_induction consume ts s with
  | case1 => cases h
  | case2 => cases h
  | case3 => cases h
  | case4 _ _ _ ih => obtain ⟨w, l, p, e, hm⟩ := ih h; exact ⟨w, l, p, e, .tail _ hm⟩
  | case5 _ _ _ ih => obtain ⟨w, l, p, e, hm⟩ := ih h; exact ⟨w, l, p, e, .tail _ hm⟩
  | case6 _ _ _ _ _ _ ih => obtain ⟨w, l, p, e, hm⟩ := ih h; exact ⟨w, l, p, e, .tail _ hm⟩
  | case7 => exact ⟨_, _, _, _, .head _⟩
  | case8 => exact ⟨_, _, _, _, .head _⟩
  | case9 => exact ⟨_, _, _, _, .head _⟩
  | case10 _ a _ _ e r s _ ih => obtain ⟨w, l, p, e, hm⟩ := ih h; exact ⟨w, l, p, e, .tail _ hm⟩
  | case11 _ a _ _ v r s _ ih => obtain ⟨w, l, p, e, hm⟩ := ih h; exact ⟨w, l, p, e, .tail _ (.tail _ hm)⟩
  | case12 => cases h

theorem tokens_help (digit : Char → Bool) (ws : List String) :
    ∀ ts, tokens digit ws = .ok ts → ∀ w l p e, (w, Token.option (some .help) l p e) ∈ ts →
      w ∈ ws ∧ parseOptional digit w.toList = .ok (.option (some .help) l p e) := by
  induction ws with
  | nil => intro ts ht; cases ht; simp
  | cons v ws ih =>
      intro ts ht w l p e hm
      rw [tokens] at ht
      split at ht
      · cases ht
        simp at hm
      · cases hp : parseOptional digit v.toList with
        | error u => rw [hp] at ht; cases ht
        | ok tok =>
            rw [hp] at ht
            cases htl : tokens digit ws with
            | error u => rw [htl] at ht; cases ht
            | ok ts' =>
                rw [htl] at ht
                cases ht
                rcases List.mem_cons.1 hm with hm | hm
                · injection hm with h1 h2
                  subst h1 h2
                  exact ⟨.head _, hp⟩
                · obtain ⟨h1, h2⟩ := ih ts' htl w l p e hm
                  exact ⟨.tail _ h1, h2⟩

end PashAnn.ScriptArgs
