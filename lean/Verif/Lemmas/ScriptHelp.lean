import Verif.Lemmas.ScriptArgs

/-! Lemmas for C97: which words print the help of the script. -/

namespace PashAnn.ScriptArgs

open Spec

/-- How a word that begins like `-h` is read. -/
theorem parse_h (digit : Char → Bool) (r : List Char) : parseOptional digit ('-' :: 'h' :: r) =
    match r with
    | [] => .ok (.option (some .help) false false none)
    | '=' :: x => .ok (.option (some .help) false true (some x))
    | _ => .ok (.option (some .help) false false (some r)) := by
  have hlook : ∀ x : List Char, options.lookup ('-' :: 'h' :: x) = if x = [] then some .help else none := by
    intro x
    rw [options_eq]
    simp only [List.lookup_cons, List.lookup_nil]
    cases x with
    | nil => rfl
    | cons b x => simp
  have hl : ("--".toList.isPrefixOf ('-' :: 'h' :: r)) = false := rfl
  have hcand : candidates ('-' :: 'h' :: r) = [.option (some .help) false false (some r)] := by
    unfold candidates
    rw [hl, options_eq]
    simp [List.filterMap, List.isPrefixOf]
  have hp1 : (partitionEq ('-' :: 'h' :: r)).1 = '-' :: 'h' :: r.takeWhile (· ≠ '=') := rfl
  rw [parse_dash, hlook, hl, hcand, if_neg (show ¬ 'h' :: r = [] by simp), hp1, hlook]
  cases r with
  | nil => rfl
  | cons c r =>
      rw [if_neg (show ¬ c :: r = [] by simp)]
      by_cases hc : c = '='
      · subst hc
        have : (partitionEq ('-' :: 'h' :: '=' :: r)).2 = some r := rfl
        rw [this]; rfl
      · have : (c :: r).takeWhile (fun x => decide (x ≠ '=')) = c :: r.takeWhile (fun x => decide (x ≠ '=')) :=
          List.takeWhile_cons_of_pos (by simpa using hc)
        rw [this, if_neg (show ¬ c :: r.takeWhile (fun x => decide (x ≠ '=')) = [] by simp)]
        split
        · rename_i h; cases h
        · split
          · rename_i h; cases h
          · split
            · rename_i h; cases h
            · rename_i h
              cases h
              split
              · rename_i h; cases h
              · rename_i h; exact absurd (List.cons.inj h).1 hc
              · rfl
            · rename_i h; cases h

theorem cluster_iff : ∀ e : List Char, e ≠ [] → e.head? ≠ some '=' →
    (helpCluster e = .help ↔ ∃ n r, e = List.replicate n 'h' ++ r ∧ ∀ c ∈ r.head?, c ≠ 'h' ∧ c ≠ '=' ∧ c ≠ '-')
  | [], h, _ => absurd rfl h
  | c :: e, _, hq => by
      by_cases hc : c = 'h'
      · subst hc
        cases e with
        | nil => exact iff_of_true rfl ⟨1, [], rfl, by simp⟩
        | cons d e =>
            by_cases hd : d = '='
            · subst hd
              refine iff_of_false (by simp [helpCluster]) ?_
              rintro ⟨n, r, he, hr⟩
              match n, he with
              | 0, he =>
                  rw [List.replicate_zero, List.nil_append] at he
                  subst he
                  exact (hr 'h' rfl).1 rfl
              | 1, he =>
                  simp only [List.replicate_succ, List.replicate_zero, List.cons_append, List.nil_append, List.cons.injEq, true_and] at he
                  subst he
                  exact (hr '=' rfl).2.1 rfl
              | n + 2, he => simp [List.replicate_succ] at he
            · have e1 : helpCluster ('h' :: d :: e) = helpCluster (d :: e) := by
                rw [helpCluster]
                exact hd
              rw [e1, cluster_iff (d :: e) (by simp) (by simpa using hd)]
              constructor
              · rintro ⟨n, r, he, hr⟩
                exact ⟨n + 1, r, by rw [he]; rfl, hr⟩
              · rintro ⟨n, r, he, hr⟩
                cases n with
                | zero =>
                    rw [List.replicate_zero, List.nil_append] at he
                    subst he
                    exact absurd rfl (hr 'h' rfl).1
                | succ n =>
                    refine ⟨n, r, ?_, hr⟩
                    simpa [List.replicate_succ] using he
      · have hrep : ∀ n r, c :: e = List.replicate n 'h' ++ r → r = c :: e := by
          intro n r he
          cases n with
          | zero => simpa using he.symm
          | succ n => simp [List.replicate_succ] at he; exact absurd he.1 hc
        have hc2 : c ≠ '=' := fun h => hq (by simp [h])
        by_cases hd : c = '-'
        · subst hd
          refine iff_of_false (by simp [helpCluster]) ?_
          rintro ⟨n, r, he, hr⟩
          rw [hrep n r he] at hr
          exact (hr '-' rfl).2.2 rfl
        · refine iff_of_true ?_ ⟨0, c :: e, rfl, fun d h => ?_⟩
          · unfold helpCluster
            split
            · rename_i h; cases h
            · rename_i h; exact absurd (List.cons.inj h).1 hc
            · rename_i h; exact absurd (List.cons.inj h).1 hc
            · rename_i h; exact absurd (List.cons.inj h).1 hc
            · rename_i h; exact absurd (List.cons.inj h).1 hd
            · rfl
          · cases h; exact ⟨hc, hc2, hd⟩

/-- What happens at a word that calls for help. -/
def helpsOut (l p : Bool) (e : Option (List Char)) : Prop :=
  match e with
  | none => True
  | some e => (l || p) = false ∧ helpCluster e = .help

theorem consume_helpsOut {w : String} {l p : Bool} {e : Option (List Char)} {ts : List (String × Token)} {s : State} :
    consume ((w, .option (some .help) l p e) :: ts) s = .help ↔ helpsOut l p e := by
  cases e with
  | none => simp [consume, helpsOut]
  | some e =>
      rw [consume]
      unfold helpsOut
      cases h : (l || p) <;> simp

theorem spells_help (w : String) : Spells w "--help" ↔ ∃ s, w.toList = '-' :: '-' :: s ∧ s ≠ [] ∧ s.isPrefixOf helpName = true := by
  unfold Spells
  rw [show "--help".toList = '-' :: '-' :: helpName by decide +kernel, ← String.length_toList]
  constructor
  · rintro ⟨h, hl⟩
    match hn : w.toList, h, hl with
    | a :: b :: c :: r, h, _ =>
        simp only [List.cons_prefix_cons] at h
        obtain ⟨rfl, rfl, h⟩ := h
        exact ⟨c :: r, rfl, by simp, List.isPrefixOf_iff_prefix.2 h⟩
  · rintro ⟨s, hn, hs, h⟩
    rw [hn]
    refine ⟨by simpa using List.isPrefixOf_iff_prefix.1 h, ?_⟩
    cases s with
    | nil => exact absurd rfl hs
    | cons a s => simp

theorem no_equals_help {s : List Char} (h : s.isPrefixOf helpName = true) : '=' ∉ s := by
  intro hm
  have := (List.isPrefixOf_iff_prefix.1 h).subset hm
  revert this; decide

theorem helpWord_iff (digit : Char → Bool) (hd : NoDigits digit) (w : String) :
    (∃ l p e, parseOptional digit w.toList = .ok (.option (some .help) l p e) ∧ helpsOut l p e) ↔ HelpWord w := by
  unfold HelpWord
  constructor
  · rintro ⟨l, p, e, h, ho⟩
    rcases parse_help digit hd h with hw | hw
    · right
      obtain ⟨r, hr⟩ := hw
      rw [← hr] at h ⊢
      have h' : parseOptional digit ('-' :: 'h' :: r) = _ := h
      rw [parse_h] at h'
      split at h'
      · exact ⟨0, [], rfl, by simp⟩
      · cases h'; exact absurd ho.1 (by simp)
      · rename_i h1 h2
        cases h'
        obtain ⟨n, r', he, hr'⟩ := (cluster_iff r h1 (by
          cases r with
          | nil => simp
          | cons c r => intro hc; exact h2 r (by simp at hc; rw [hc]))).1 ho.2
        exact ⟨n, r', by rw [he]; rfl, hr'⟩
    · left
      obtain ⟨r, hr⟩ := hw
      obtain ⟨s, e', hs, hre⟩ := split_rest ('h' :: r)
      have hw' : w.toList = '-' :: '-' :: (s ++ rest e') := by rw [← hr, ← hre]; rfl
      rw [hw', parse_long digit (hd '-' (by simp)) hs] at h
      rw [spells_help]
      split at h
      · cases h
      · rename_i hnil
        split at h
        · rename_i hp
          injection h with h; injection h with _ h1 h2 h3
          subst h1 h2 h3
          cases e' with
          | none => exact ⟨s, by rw [hw']; simp [rest], hnil, hp⟩
          | some x => exact absurd ho.1 (by simp)
        · split at h
          · injection h with h; injection h with h _ _ _; injection h with h; cases h
          · split at h
            · injection h with h; injection h with h _ _ _; injection h with h; cases h
            · split at h <;> cases h
  · rintro (h | ⟨n, r, hw, hr⟩)
    · obtain ⟨s, hw, hs, hp⟩ := (spells_help w).1 h
      refine ⟨true, false, none, ?_, trivial⟩
      have := parse_long digit (hd '-' (by simp)) (no_equals_help hp) none
      rw [if_neg hs, if_pos hp] at this
      rw [hw]
      simpa [rest] using this
    · rw [hw, parse_h]
      split
      · exact ⟨_, _, _, rfl, trivial⟩
      · rename_i x h
        cases n with
        | zero =>
            rw [List.replicate_zero, List.nil_append] at h
            subst h
            exact absurd rfl (hr '=' rfl).2.1
        | succ n => simp [List.replicate_succ] at h
      · rename_i h1 h2
        refine ⟨_, _, _, rfl, rfl, (cluster_iff _ h1 ?_).2 ⟨n, r, rfl, hr⟩⟩
        intro hh
        cases hx : List.replicate n 'h' ++ r with
        | nil => rw [hx] at hh; cases hh
        | cons c x =>
            rw [hx] at hh
            simp at hh
            exact h2 x (by rw [hx, hh])

theorem stray_long {s : List Char} (hs : '=' ∉ s) (e : Option (List Char)) {w : String} (hw : w.toList = '-' :: '-' :: (s ++ rest e)) :
    Stray w ↔ ¬ (s.isPrefixOf helpName = true ∨ s.isPrefixOf commandName = true ∨ s.isPrefixOf saveName = true) := by
  unfold Stray
  rw [hw]
  rw [and_iff_right (by simp)]
  refine not_congr ?_
  rw [← prefix_of_names]
  constructor
  · rintro ⟨name, hm, n, hn, hl, h⟩
    have hne : '=' ∉ n := by
      intro hq
      have := hn.subset hq
      simp only [List.mem_cons, List.not_mem_nil, or_false] at hm
      rcases hm with rfl | rfl | rfl <;> revert this <;> decide +kernel
    have hn' : n = '-' :: '-' :: s := by
      rcases h with h | ⟨r, h⟩
      · have : ('-' :: '-' :: s) ++ rest e = n ++ rest none := by rw [show n ++ rest none = n by simp [rest], ← h]; rfl
        exact (rest_inj (by simpa using hs) hne this).1.symm
      · have : ('-' :: '-' :: s) ++ rest e = n ++ rest (some r) := h
        exact (rest_inj (by simpa using hs) hne this).1.symm
    exact ⟨name, hm, hn' ▸ hn⟩
  · rintro ⟨name, hm, hn⟩
    refine ⟨name, hm, _, hn, by simp, ?_⟩
    cases e with
    | none => left; simp [rest]
    | some r => right; exact ⟨r, rfl⟩

theorem stray_iff (digit : Char → Bool) (hd : NoDigits digit) (w : String) :
    (parseOptional digit w.toList = .ok .argument ∨ ∃ l p e, parseOptional digit w.toList = .ok (.option none l p e)) ↔ Stray w := by
  match hw : w.toList with
  | [] =>
      refine iff_of_true (.inl rfl) ⟨by rw [hw]; simp, ?_⟩
      rintro ⟨name, _, n, _, hl, h | ⟨r, h⟩⟩
      · rw [hw] at h; rw [← h] at hl; simp at hl
      · rw [hw] at h; simp at h
  | c :: r =>
      have short : ¬ ['-', '-'] <+: (c :: r) → (Stray w ↔ ¬ ['-', 'h'] <+: (c :: r)) := by
        intro hn2
        unfold Stray
        rw [hw]
        refine ⟨fun h => h.1, fun h => ⟨h, ?_⟩⟩
        rintro ⟨name, hm, n, hn, hl, h⟩
        have hdd : ['-', '-'] <+: n := by
          have : ['-', '-'] <+: name.toList := by
            simp only [List.mem_cons, List.not_mem_nil, or_false] at hm
            rcases hm with rfl | rfl | rfl <;> decide +kernel
          exact List.prefix_of_prefix_length_le this hn (by simpa using hl)
        rcases h with h | ⟨x, h⟩
        · exact hn2 (h ▸ hdd)
        · exact hn2 (h ▸ hdd.trans (List.prefix_append _ _))
      by_cases hc : c = '-'
      · subst hc
        match r, hw, short with
        | [], hw, short =>
            rw [short (by simp)]
            exact iff_of_true (.inl (by simp [parse_dash, options_eq, List.lookup])) (by simp)
        | c :: r, hw, short =>
            by_cases hc : c = '-'
            · subst hc
              obtain ⟨s, e, hs, rfl⟩ := split_rest r
              rw [stray_long hs e hw, parse_long digit (hd '-' (by simp)) hs]
              by_cases h0 : s = []
              · subst h0
                rw [if_pos rfl]
                exact iff_of_false (by simp) (by simp)
              · rw [if_neg h0]
                by_cases h1 : s.isPrefixOf helpName = true
                · rw [if_pos h1]; exact iff_of_false (by simp) (fun h => h (.inl h1))
                · rw [if_neg h1]
                  by_cases h2 : s.isPrefixOf commandName = true
                  · rw [if_pos h2]; exact iff_of_false (by simp) (fun h => h (.inr (.inl h2)))
                  · rw [if_neg h2]
                    by_cases h3 : s.isPrefixOf saveName = true
                    · rw [if_pos h3]; exact iff_of_false (by simp) (fun h => h (.inr (.inr h3)))
                    · rw [if_neg h3]
                      refine iff_of_true ?_ (by simp [h1, h2, h3])
                      split
                      · exact .inl rfl
                      · exact .inr ⟨_, _, _, rfl⟩
            · obtain ⟨p1, p2⟩ := parse_short digit hc r
              rw [short (by simp [Ne.symm hc])]
              by_cases hh : c = 'h'
              · obtain ⟨sep, e', he⟩ := p1 hh
                rw [he]
                exact iff_of_false (by simp) (by simp [hh])
              · rw [p2 hh]
                refine iff_of_true ?_ (by simp [Ne.symm hh])
                split
                · exact .inl rfl
                · exact .inr ⟨_, _, _, rfl⟩
      · rw [short (by simp [Ne.symm hc])]
        exact iff_of_true (.inl (by simp [parseOptional, hc])) (by simp [Ne.symm hc])

/-- The words that cannot be read at all. -/
theorem parse_error (digit : Char → Bool) (hd : NoDigits digit) {w : String} (hw : w ≠ "--") :
    parseOptional digit w.toList = .error () ↔ ['-', '-', '='] <+: w.toList := by
  have hw' : w.toList ≠ ['-', '-'] := fun h => hw (String.toList_inj.1 (by rw [h]; rfl))
  match hx : w.toList with
  | [] => exact iff_of_false (by simp [parseOptional]) (by simp)
  | c :: r =>
      rw [hx] at hw'
      by_cases hc : c = '-'
      · subst hc
        match r, hw' with
        | [], _ => exact iff_of_false (by simp [parse_dash, options_eq, List.lookup]) (by simp)
        | c :: r, hw' =>
            by_cases hc : c = '-'
            · subst hc
              obtain ⟨s, e, hs, rfl⟩ := split_rest r
              rw [parse_long digit (hd '-' (by simp)) hs]
              by_cases h0 : s = []
              · subst h0
                rw [if_pos rfl]
                cases e with
                | none => exact absurd rfl hw'
                | some e => exact iff_of_true rfl (by simp [rest])
              · rw [if_neg h0]
                refine iff_of_false ?_ ?_
                · split
                  · simp
                  · split
                    · simp
                    · split
                      · simp
                      · split <;> simp
                · intro h
                  cases s with
                  | nil => exact absurd rfl h0
                  | cons a s =>
                      simp at h
                      exact hs (by rw [← h]; exact List.mem_cons_self)
            · obtain ⟨p1, p2⟩ := parse_short digit hc r
              refine iff_of_false ?_ (by simp [Ne.symm hc])
              by_cases hh : c = 'h'
              · obtain ⟨sep, e', he⟩ := p1 hh
                rw [he]; simp
              · rw [p2 hh]; split <;> simp
      · exact iff_of_false (by simp [parseOptional, hc]) (by simp [Ne.symm hc])

theorem tokens_ok (digit : Char → Bool) (hd : NoDigits digit) : ∀ ws : List String,
    (∃ ts, tokens digit ws = .ok ts) ↔ ∀ w ∈ ws.takeWhile (· ≠ "--"), ¬ ['-', '-', '='] <+: w.toList
  | [] => iff_of_true ⟨[], rfl⟩ (by simp)
  | w :: ws => by
      rw [tokens]
      by_cases hw : w = "--"
      · rw [if_pos hw, List.takeWhile_cons_of_neg (by simpa using hw)]
        exact iff_of_true ⟨_, rfl⟩ (by simp)
      · rw [if_neg hw, List.takeWhile_cons_of_pos (by simpa using hw)]
        have he := parse_error digit hd hw
        have ih := tokens_ok digit hd ws
        cases hp : parseOptional digit w.toList with
        | error u =>
            refine iff_of_false (by rintro ⟨ts, h⟩; cases h) fun h => h w List.mem_cons_self (he.1 hp)
        | ok tok =>
            have hn : ¬ ['-', '-', '='] <+: w.toList := fun h => by rw [he.2 h] at hp; cases hp
            rw [List.forall_mem_cons, and_iff_right hn, ← ih]
            constructor
            · rintro ⟨ts, h⟩
              cases ht : tokens digit ws with
              | error u => rw [ht] at h; cases h
              | ok ts' => exact ⟨ts', rfl⟩
            · rintro ⟨ts, h⟩
              exact ⟨_, by rw [h]; rfl⟩

/-- Words that are read without a message do not matter for whether the help is printed. -/
theorem passed_read (digit : Char → Bool) (hd : NoDigits digit) {ws : List String} (h : Passed digit ws) :
    ∃ tb, ∀ vs ts, tokens digit vs = .ok ts → tokens digit (ws ++ vs) = .ok (tb ++ ts) ∧
      ∀ s, ∃ s', consume (tb ++ ts) s = consume ts s' := by
  induction h with
  | nil => exact ⟨[], fun vs ts h => ⟨h, fun s => ⟨s, rfl⟩⟩⟩
  | @stray w ws hw _ ih =>
      obtain ⟨tb, ih⟩ := ih
      have hne : w ≠ "--" := by
        rintro rfl
        exact hw.2 ⟨"--help", by simp, ['-', '-'], by decide +kernel, by decide, .inl (by decide +kernel)⟩
      obtain ⟨tok, hp, hc⟩ : ∃ tok, parseOptional digit w.toList = .ok tok ∧
          ∀ ts s, consume ((w, tok) :: ts) s = consume ts { s with extras := true } := by
        rcases (stray_iff digit hd w).2 hw with h | ⟨l, p, e, h⟩
        · exact ⟨_, h, fun ts s => by rw [consume]⟩
        · exact ⟨_, h, fun ts s => by rw [consume]⟩
      refine ⟨(w, tok) :: tb, fun vs ts ht => ⟨?_, fun s => ?_⟩⟩
      · rw [List.cons_append, tokens, if_neg hne, hp, (ih vs ts ht).1]; rfl
      · rw [List.cons_append, hc]
        exact (ih vs ts ht).2 _
  | @apart n v ws x hn hv _ ih =>
      obtain ⟨tb, ih⟩ := ih
      obtain ⟨p1, p2, _⟩ := parse_spelled digit hd hn
      have hv' := (parse_argument digit hd v).2 hv
      have hne : v ≠ "--" := by
        rintro rfl
        have : parseOptional digit "--".toList = .error () := by
          have := parse_long digit (hd '-' (by simp)) (s := []) (by simp) none
          simpa [rest] using this
        rw [this] at hv'; cases hv'
      refine ⟨(n, .option (some (actionOf x)) true false none) :: (v, .argument) :: tb, fun vs ts ht => ⟨?_, fun s => ?_⟩⟩
      · rw [List.cons_append, tokens, if_neg p2, p1]
        show (do let ts ← tokens digit (v :: (ws ++ vs)); Except.ok _) = _
        rw [tokens, if_neg hne, hv', (ih vs ts ht).1]; rfl
      · obtain ⟨s', hs'⟩ := (ih vs ts ht).2 (s.set (actionOf x) v)
        refine ⟨s', ?_⟩
        rw [← hs']
        cases x <;> rfl
  | @joined n v ws x hn _ ih =>
      obtain ⟨tb, ih⟩ := ih
      obtain ⟨_, _, p⟩ := parse_spelled digit hd hn
      obtain ⟨p1, p2⟩ := p v
      refine ⟨(n ++ "=" ++ v, .option (some (actionOf x)) true true (some v.toList)) :: tb, fun vs ts ht => ⟨?_, fun s => ?_⟩⟩
      · rw [List.cons_append, tokens, if_neg p2, p1]
        show (do let ts ← tokens digit (ws ++ vs); Except.ok _) = _
        rw [(ih vs ts ht).1]; rfl
      · obtain ⟨s', hs'⟩ := (ih vs ts ht).2 (s.set (actionOf x) (String.ofList v.toList))
        refine ⟨s', ?_⟩
        rw [← hs']
        cases x <;> rfl

theorem consume_arguments (ws : List String) (s : State) : consume (ws.map fun v => (v, Token.argument)) s ≠ .help := by
  induction ws generalizing s with
  | nil =>
      rw [List.map_nil, consume]
      split
      · simp
      · split <;> simp
  | cons w ws ih => rw [List.map_cons, consume]; exact ih _

theorem parse_not_dashes (digit : Char → Bool) (hd : NoDigits digit) (w : String) :
    parseOptional digit w.toList ≠ .ok .dashes := by
  intro h
  match hw : w.toList with
  | [] => rw [hw] at h; simp [parseOptional] at h
  | c :: r =>
      rw [hw] at h
      by_cases hc : c = '-'
      · subst hc
        match r with
        | [] => simp [parse_dash, options_eq, List.lookup] at h
        | c :: r =>
            by_cases hc : c = '-'
            · subst hc
              obtain ⟨s, e', hs, rfl⟩ := split_rest r
              rw [parse_long digit (hd '-' (by simp)) hs] at h
              repeat' split at h
              all_goals cases h
            · obtain ⟨p1, p2⟩ := parse_short digit hc r
              by_cases hh : c = 'h'
              · obtain ⟨sep, e', he⟩ := p1 hh
                rw [he] at h; cases h
              · rw [p2 hh] at h
                split at h <;> cases h
      · simp [parseOptional, hc] at h

/-- If the help is printed, there is a call for help after words that are read without a message. -/
theorem read_help (digit : Char → Bool) (hd : NoDigits digit) (k : Nat) :
    ∀ (ws : List String) (ts : List (String × Token)) (s : State), ws.length ≤ k → tokens digit ws = .ok ts →
      consume ts s = .help → ∃ before w after, ws = before ++ w :: after ∧ Passed digit before ∧ HelpWord w ∧
        ∃ ts', tokens digit after = .ok ts' := by
  have nothing : ∀ s, consume [] s ≠ .help := fun s => consume_arguments [] s
  induction k with
  | zero =>
      intro ws ts s hk ht h
      cases ws with
      | nil => cases ht; exact absurd h (nothing s)
      | cons w ws => simp at hk
  | succ k ih =>
      intro ws ts s hk ht h
      cases ws with
      | nil => cases ht; exact absurd h (nothing s)
      | cons w ws =>
          rw [tokens] at ht
          split at ht
          · cases ht
            rw [consume] at h
            exact absurd h (consume_arguments ws _)
          · cases hp : parseOptional digit w.toList with
            | error u => rw [hp] at ht; cases ht
            | ok tok =>
                rw [hp] at ht
                cases htl : tokens digit ws with
                | error u => rw [htl] at ht; cases ht
                | ok ts' =>
                    rw [htl] at ht
                    cases ht
                    have stray : Stray w → ∀ s', consume ts' s' = .help → ∃ before v after, w :: ws = before ++ v :: after ∧
                        Passed digit before ∧ HelpWord v ∧ ∃ ts', tokens digit after = .ok ts' := by
                      intro hs s' h'
                      obtain ⟨b, v, a, rfl, hb, hv, ha⟩ := ih ws ts' s' (by simpa using hk) htl h'
                      exact ⟨w :: b, v, a, rfl, .stray hs hb, hv, ha⟩
                    match tok, h, hp with
                    | .argument, h, hp =>
                        rw [consume] at h
                        exact stray ((stray_iff digit hd w).1 (.inl hp)) _ h
                    | .dashes, h, hp => exact absurd hp (parse_not_dashes digit hd w)
                    | .option Option.none l p e, h, hp =>
                        rw [consume] at h
                        exact stray ((stray_iff digit hd w).1 (.inr ⟨l, p, e, hp⟩)) _ h
                    | .option (some a) l p e, h, hp =>
                        by_cases ha : a = .help
                        · subst ha
                          exact ⟨[], w, ws, rfl, .nil, (helpWord_iff digit hd w).1 ⟨l, p, e, hp, consume_helpsOut.1 h⟩, ts', htl⟩
                        · obtain ⟨n, hn, hsp⟩ := parse_setting digit hd hp ha
                          cases e with
                          | some e =>
                              obtain ⟨x, hx, hxa, hxv⟩ := settingOf_some ha (String.ofList e)
                              have h' : consume ts' (s.set a (String.ofList e)) = .help := by
                                cases a
                                · exact absurd rfl ha
                                · exact h
                                · exact h
                              obtain ⟨b, v, c, rfl, hb, hv, hc⟩ := ih ws ts' _ (by simpa using hk) htl h'
                              refine ⟨w :: b, v, c, rfl, ?_, hv, hc⟩
                              rw [joined_word hn]
                              exact .joined (hsp _ _ hx) hb
                          | none =>
                              have hwn : w = n := String.toList_inj.1 (by rw [hn]; simp [rest])
                              cases ws with
                              | nil =>
                                  cases htl
                                  cases a
                                  · exact absurd rfl ha
                                  · cases h
                                  · cases h
                              | cons v ws =>
                                  rw [tokens] at htl
                                  split at htl
                                  · cases htl
                                    cases a
                                    · exact absurd rfl ha
                                    · cases h
                                    · cases h
                                  · cases hv : parseOptional digit v.toList with
                                    | error u => rw [hv] at htl; cases htl
                                    | ok tok =>
                                        rw [hv] at htl
                                        cases htl' : tokens digit ws with
                                        | error u => rw [htl'] at htl; cases htl
                                        | ok ts'' =>
                                            rw [htl'] at htl
                                            cases htl
                                            cases tok with
                                            | dashes => cases a <;> first | exact absurd rfl ha | cases h
                                            | option _ _ _ _ => cases a <;> first | exact absurd rfl ha | cases h
                                            | argument =>
                                                obtain ⟨x, hx, hxa, hxv⟩ := settingOf_some ha v
                                                have h' : consume ts'' (s.set a v) = .help := by
                                                  cases a
                                                  · exact absurd rfl ha
                                                  · exact h
                                                  · exact h
                                                obtain ⟨b, u, c, rfl, hb, hu, hc⟩ := ih ws ts'' _ (by simp at hk; omega) htl' h'
                                                refine ⟨w :: v :: b, u, c, rfl, ?_, hu, hc⟩
                                                rw [hwn]
                                                exact .apart (hsp _ _ hx) ((parse_argument digit hd v).1 hv) hb

end PashAnn.ScriptArgs
