import Verif.Lemmas.JsonText

/-! What the reader of JSON texts accepts is written by the grammar. -/

namespace PashAnn.Json

open Spec.JsonText

theorem skip_split (cs : List Char) : ∃ a, Blanks a ∧ cs = a ++ skip cs := by
  refine ⟨cs.takeWhile isBlank, ?_, (List.takeWhile_append_dropWhile ..).symm⟩
  intro c hc
  exact (isBlank_iff c).1 (List.all_eq_true.1 (List.all_takeWhile (l := cs) (p := isBlank)) c hc)

theorem hex_of {c : Char} {n : Nat} (h : hexValue c = some n) : Hex c n := by
  have key : ∀ m ∈ List.range' 48 10 ++ List.range' 97 6 ++ List.range' 65 6, ∀ n, hexValue (Char.ofNat m) = some n →
      Hex (Char.ofNat m) n := by
    intro m hm n hn
    have key : ∀ m ∈ List.range' 48 10 ++ List.range' 97 6 ++ List.range' 65 6, ∀ n ∈ (hexValue (Char.ofNat m)).toList,
      (Char.ofNat m, n) ∈ "0123456789abcdef".toList.zip (List.range 16) ++ "0123456789ABCDEF".toList.zip (List.range 16) := by
      decide +kernel
    exact List.mem_append.1 (key m hm n (by simp [hn]))
  have := key c.toNat ?_ n (by rwa [Char.ofNat_toNat])
  · rwa [Char.ofNat_toNat] at this
  · unfold hexValue at h
    simp only [List.mem_append, List.mem_range'_1]
    split at h
    · rename_i hh
      simp only [Bool.and_eq_true, decide_eq_true_eq] at hh
      have h1 : '0'.toNat ≤ c.toNat := hh.1
      have h2 : c.toNat ≤ '9'.toNat := hh.2
      have e1 : '0'.toNat = 48 := rfl
      have e2 : '9'.toNat = 57 := rfl
      omega
    split at h
    · rename_i hh
      simp only [Bool.and_eq_true, decide_eq_true_eq] at hh
      have h1 : 'a'.toNat ≤ c.toNat := hh.1
      have h2 : c.toNat ≤ 'f'.toNat := hh.2
      have e1 : 'a'.toNat = 97 := rfl
      have e2 : 'f'.toNat = 102 := rfl
      omega
    split at h
    · rename_i hh
      simp only [Bool.and_eq_true, decide_eq_true_eq] at hh
      have h1 : 'A'.toNat ≤ c.toNat := hh.1
      have h2 : c.toNat ≤ 'F'.toNat := hh.2
      have e1 : 'A'.toNat = 65 := rfl
      have e2 : 'F'.toNat = 70 := rfl
      omega
    · cases h

theorem hex_lt {c : Char} {n : Nat} (h : Hex c n) : n < 16 := by
  have key : ∀ p ∈ "0123456789abcdef".toList.zip (List.range 16) ++ "0123456789ABCDEF".toList.zip (List.range 16), p.2 < 16 := by
    decide +kernel
  exact key (c, n) (List.mem_append.2 h)

theorem fourDigits_sound {cs : List Char} {n : Nat} {rest : List Char} (h : fourDigits cs = some (n, rest)) :
    ∃ ds, Hex4 ds n ∧ n < 65536 ∧ cs = ds ++ rest := by
  unfold fourDigits at h
  split at h
  · rename_i a b c d rest'
    split at h
    · rename_i na nb nc nd ha hb hc hd
      simp only [Option.some.injEq, Prod.mk.injEq] at h
      obtain ⟨rfl, rfl⟩ := h
      have h1 := hex_lt (hex_of ha)
      have h2 := hex_lt (hex_of hb)
      have h3 := hex_lt (hex_of hc)
      have h4 := hex_lt (hex_of hd)
      exact ⟨[a, b, c, d], ⟨a, b, c, d, na, nb, nc, nd, rfl, hex_of ha, hex_of hb, hex_of hc, hex_of hd, by omega⟩, by omega, rfl⟩
    · cases h
  · cases h

theorem toNat_ofNat_valid {n : Nat} (h : n < 0xd800 ∨ (0xdfff < n ∧ n < 0x110000)) : (Char.ofNat n).toNat = n := by
  have hv : n.isValidChar := h
  unfold Char.ofNat
  rw [dif_pos hv]
  show (UInt32.ofNatLT n _).toNat = n
  simp

theorem unicode_sound {cs : List Char} {c : Char} {rest : List Char} (h : unicode cs = some (c, rest)) :
    ∃ ds, CharWritten c ('\\' :: 'u' :: ds) ∧ cs = ds ++ rest := by
  unfold unicode at h
  split at h
  · cases h
  · rename_i uni rest1 h1
    obtain ⟨ds, hds, hlt, rfl⟩ := fourDigits_sound h1
    split at h
    · rename_i hr
      simp only [Bool.and_eq_true, decide_eq_true_eq] at hr
      split at h
      · rename_i rest2
        split at h
        · rename_i uni2 rest3 h2
          obtain ⟨es, hes, hlt2, rfl⟩ := fourDigits_sound h2
          split at h
          · rename_i hr2
            simp only [Bool.and_eq_true, decide_eq_true_eq] at hr2
            simp only [Option.some.injEq, Prod.mk.injEq] at h
            obtain ⟨rfl, rfl⟩ := h
            refine ⟨ds ++ '\\' :: 'u' :: es, ?_, by simp⟩
            have := CharWritten.numbers (Char.ofNat (0x10000 + (uni - 0xd800) * 1024 + (uni2 - 0xdc00))) ds es (uni - 0xd800)
              (uni2 - 0xdc00) (by rw [Nat.add_sub_cancel' hr.1]; exact hds) (by rw [Nat.add_sub_cancel' hr2.1]; exact hes)
              (by omega) (by omega) (toNat_ofNat_valid (by omega))
            simpa using this
          · cases h
        · cases h
      · cases h
    · rename_i hr
      split at h
      · cases h
      · rename_i hr2
        simp only [Bool.and_eq_true, decide_eq_true_eq, not_and] at hr hr2
        simp only [Option.some.injEq, Prod.mk.injEq] at h
        obtain ⟨rfl, rfl⟩ := h
        exact ⟨ds, .number _ ds (by rw [toNat_ofNat_valid (by omega)]; exact hds), rfl⟩

theorem escaped_sound {e c : Char} (h : escaped e = some c) : (e, c) ∈ escapes := by
  unfold escaped at h
  repeat' split at h
  all_goals first | cases h | skip
  all_goals
    rename_i he
    rw [beq_iff_eq] at he
    subst he
    decide

theorem scanString_sound (n : Nat) : ∀ {cs s rest : List Char}, scanString n cs = some (s, rest) →
    ∃ t, CharsWritten s t ∧ cs = t ++ '"' :: rest := by
  induction n with
  | zero => intro cs s rest h; cases h
  | succ n ih =>
    intro cs s rest h
    rw [scanString.eq_def] at h
    simp only at h
    split at h
    · cases h
    · simp only [Option.some.injEq, Prod.mk.injEq] at h
      obtain ⟨rfl, rfl⟩ := h
      exact ⟨[], .nil, rfl⟩
    · split at h
      · cases h
      · rename_i c rest' hu
        obtain ⟨ds, hds, rfl⟩ := unicode_sound hu
        obtain ⟨r, hr, he⟩ := Option.map_eq_some_iff.1 h
        simp only [Prod.mk.injEq] at he
        obtain ⟨rfl, rfl⟩ := he
        obtain ⟨t, ht, rfl⟩ := ih (s := r.1) (rest := r.2) hr
        exact ⟨_, .cons c _ _ _ hds ht, by simp⟩
    · split at h
      · cases h
      · rename_i c hc
        obtain ⟨r, hr, he⟩ := Option.map_eq_some_iff.1 h
        simp only [Prod.mk.injEq] at he
        obtain ⟨rfl, rfl⟩ := he
        obtain ⟨t, ht, rfl⟩ := ih (s := r.1) (rest := r.2) hr
        exact ⟨_, .cons c _ _ _ (.short _ c (escaped_sound hc)) ht, by simp⟩
    · rename_i c rest' hq _ _
      split at h
      · cases h
      · rename_i hc
        simp only [Bool.or_eq_true, decide_eq_true_eq, beq_iff_eq, not_or] at hc
        obtain ⟨r, hr, he⟩ := Option.map_eq_some_iff.1 h
        simp only [Prod.mk.injEq] at he
        obtain ⟨rfl, rfl⟩ := he
        obtain ⟨t, ht, rfl⟩ := ih (s := r.1) (rest := r.2) hr
        exact ⟨_, .cons c _ _ _ (.plain c (by omega) (fun he => hq he) hc.2) ht, by simp⟩

theorem digits_sound {cs ds rest : List Char} (h : digits cs = (ds, rest)) : Digits ds ∧ cs = ds ++ rest := by
  simp only [digits, Prod.mk.injEq] at h
  obtain ⟨rfl, rfl⟩ := h
  refine ⟨?_, (List.takeWhile_append_dropWhile ..).symm⟩
  intro c hc
  exact (isDigit_iff c).1 (List.all_eq_true.1 (List.all_takeWhile (l := cs) (p := isDigit)) c hc)

theorem fraction_sound {cs fr rest : List Char} (h : fraction cs = (fr, rest)) :
    (fr = [] ∨ ∃ ds, ds ≠ [] ∧ Digits ds ∧ fr = '.' :: ds) ∧ cs = fr ++ rest := by
  unfold fraction at h
  split at h
  · rename_i r
    obtain ⟨h1, h2⟩ := digits_sound (cs := r) (ds := (digits r).1) (rest := (digits r).2) rfl
    simp only at h
    split at h
    · simp only [Prod.mk.injEq] at h
      obtain ⟨rfl, rfl⟩ := h
      exact ⟨.inl rfl, rfl⟩
    · rename_i hne
      simp only [Prod.mk.injEq] at h
      obtain ⟨rfl, rfl⟩ := h
      exact ⟨.inr ⟨_, by simpa using hne, h1, rfl⟩, by rw [List.cons_append, ← h2]⟩
  · simp only [Prod.mk.injEq] at h
    obtain ⟨rfl, rfl⟩ := h
    exact ⟨.inl rfl, rfl⟩

theorem exponentSign_sound (cs : List Char) : ((exponentSign cs).1 = [] ∨ (exponentSign cs).1 = ['+'] ∨ (exponentSign cs).1 = ['-']) ∧
    cs = (exponentSign cs).1 ++ (exponentSign cs).2 := by
  unfold exponentSign
  split <;> simp

theorem exponent_sound {cs ex rest : List Char} (h : exponent cs = (ex, rest)) :
    (ex = [] ∨ ∃ e s ds, (e = 'e' ∨ e = 'E') ∧ (s = [] ∨ s = ['+'] ∨ s = ['-']) ∧ ds ≠ [] ∧ Digits ds ∧ ex = e :: s ++ ds) ∧
    cs = ex ++ rest := by
  unfold exponent at h
  split at h
  · rename_i e r
    split at h
    · rename_i he
      obtain ⟨hs1, hs2⟩ := exponentSign_sound r
      obtain ⟨h1, h2⟩ := digits_sound (cs := (exponentSign r).2) (ds := (digits (exponentSign r).2).1)
        (rest := (digits (exponentSign r).2).2) rfl
      simp only at h
      split at h
      · simp only [Prod.mk.injEq] at h
        obtain ⟨rfl, rfl⟩ := h
        exact ⟨.inl rfl, rfl⟩
      · rename_i hne
        simp only [Prod.mk.injEq] at h
        obtain ⟨rfl, rfl⟩ := h
        refine ⟨.inr ⟨e, _, _, by simpa using he, hs1, by simpa using hne, h1, rfl⟩, ?_⟩
        rw [List.cons_append, List.cons_append, List.append_assoc, ← h2, ← hs2]
    · simp only [Prod.mk.injEq] at h
      obtain ⟨rfl, rfl⟩ := h
      exact ⟨.inl rfl, rfl⟩
  · simp only [Prod.mk.injEq] at h
    obtain ⟨rfl, rfl⟩ := h
    exact ⟨.inl rfl, rfl⟩

theorem minus_sound (cs : List Char) : ((minus cs).1 = [] ∨ (minus cs).1 = ['-']) ∧ cs = (minus cs).1 ++ (minus cs).2 := by
  unfold minus
  split <;> simp

theorem integer_sound (cs : List Char) (h : (integer cs).1 ≠ []) :
    ((integer cs).1 = ['0'] ∨ ∃ d ds, (integer cs).1 = d :: ds ∧ d ≠ '0' ∧ Digits (integer cs).1) ∧
    cs = (integer cs).1 ++ (integer cs).2 := by
  unfold integer at h ⊢
  split
  · simp
  · rename_i r hr
    simp only at h
    obtain ⟨h1, h2⟩ := digits_sound (cs := cs) (ds := (digits cs).1) (rest := (digits cs).2) rfl
    refine ⟨.inr ?_, h2⟩
    cases hd : (digits cs).1 with
    | nil => exact (h hd).elim
    | cons d ds =>
      refine ⟨d, ds, rfl, ?_, by rw [← hd]; exact h1⟩
      rintro rfl
      rw [hd, List.cons_append] at h2
      exact hr _ h2

theorem number_sound {cs t rest : List Char} (h : number cs = some (t, rest)) : NumberText t ∧ cs = t ++ rest := by
  unfold number at h
  obtain ⟨hm1, hm2⟩ := minus_sound cs
  simp only at h
  split at h
  · cases h
  · rename_i hne
    obtain ⟨hi1, hi2⟩ := integer_sound (minus cs).2 (by simpa using hne)
    obtain ⟨hf1, hf2⟩ := fraction_sound (cs := (integer (minus cs).2).2) (fr := (fraction (integer (minus cs).2).2).1)
      (rest := (fraction (integer (minus cs).2).2).2) rfl
    obtain ⟨he1, he2⟩ := exponent_sound (cs := (fraction (integer (minus cs).2).2).2)
      (ex := (exponent (fraction (integer (minus cs).2).2).2).1) (rest := (exponent (fraction (integer (minus cs).2).2).2).2) rfl
    simp only [Option.some.injEq, Prod.mk.injEq] at h
    obtain ⟨rfl, rfl⟩ := h
    refine ⟨⟨_, _, _, _, rfl, hm1, hi1, hf1, he1⟩, ?_⟩
    simp only [List.append_assoc]
    rw [← he2, ← hf2, ← hi2, ← hm2]

theorem drop_prefix {p cs : List Char} (h : p.isPrefixOf cs = true) : cs = p ++ cs.drop p.length := by
  obtain ⟨u, rfl⟩ := List.isPrefixOf_iff_prefix.1 h
  simp

theorem scalar_sound {cs : List Char} {j : Json} {rest : List Char} (h : scalar cs = some (j, rest)) :
    ∃ used, cs = used ++ rest ∧ Written j used := by
  unfold scalar at h
  split at h
  · rename_i hp
    simp only [Option.some.injEq, Prod.mk.injEq] at h
    obtain ⟨rfl, rfl⟩ := h
    exact ⟨_, drop_prefix hp, .null⟩
  split at h
  · rename_i hp
    simp only [Option.some.injEq, Prod.mk.injEq] at h
    obtain ⟨rfl, rfl⟩ := h
    exact ⟨_, drop_prefix hp, .true⟩
  split at h
  · rename_i hp
    simp only [Option.some.injEq, Prod.mk.injEq] at h
    obtain ⟨rfl, rfl⟩ := h
    exact ⟨_, drop_prefix hp, .false⟩
  split at h
  · rename_i t r hn
    simp only [Option.some.injEq, Prod.mk.injEq] at h
    obtain ⟨rfl, rfl⟩ := h
    obtain ⟨h1, h2⟩ := number_sound hn
    exact ⟨t, h2, .num t h1⟩
  split at h
  · rename_i hp
    simp only [Option.some.injEq, Prod.mk.injEq] at h
    obtain ⟨rfl, rfl⟩ := h
    exact ⟨_, drop_prefix hp, .special "NaN" (by simp)⟩
  split at h
  · rename_i hp
    simp only [Option.some.injEq, Prod.mk.injEq] at h
    obtain ⟨rfl, rfl⟩ := h
    exact ⟨_, drop_prefix hp, .special "Infinity" (by simp)⟩
  split at h
  · rename_i hp
    simp only [Option.some.injEq, Prod.mk.injEq] at h
    obtain ⟨rfl, rfl⟩ := h
    exact ⟨_, drop_prefix hp, .special "-Infinity" (by simp)⟩
  · cases h

theorem elements_prefix {l : List Json} {cs : List Char} (h : ElementsWritten l cs) {a : List Char} (ha : Blanks a) :
    ElementsWritten l (a ++ cs) := by
  have hap : ∀ {b : List Char}, Blanks b → Blanks (a ++ b) := fun hb c hc => (List.mem_append.1 hc).elim (ha c) (hb c)
  cases h with
  | one v a' cs b ha' hv hb =>
    have := ElementsWritten.one v (a ++ a') cs b (hap ha') hv hb
    simpa using this
  | more v a' cs b l ds ha' hv hb hl =>
    have := ElementsWritten.more v (a ++ a') cs b l ds (hap ha') hv hb hl
    simpa using this

theorem members_prefix {l : List (String × Json)} {cs : List Char} (h : MembersWritten l cs) {a : List Char} (ha : Blanks a) :
    MembersWritten l (a ++ cs) := by
  have hap : ∀ {b : List Char}, Blanks b → Blanks (a ++ b) := fun hb c hc => (List.mem_append.1 hc).elim (ha c) (hb c)
  cases h with
  | one k v a' ks a'' b' cs b ha' hk ha'' hb' hv hb =>
    have := MembersWritten.one k v (a ++ a') ks a'' b' cs b (hap ha') hk ha'' hb' hv hb
    simpa using this
  | more k v a' ks a'' b' cs b l ds ha' hk ha'' hb' hv hb hl =>
    have := MembersWritten.more k v (a ++ a') ks a'' b' cs b l ds (hap ha') hk ha'' hb' hv hb hl
    simpa using this

theorem string_sound {n : Nat} {cs k rest : List Char} (h : scanString n cs = some (k, rest)) :
    ∃ ks, StringWritten (String.ofList k) ks ∧ '"' :: cs = ks ++ rest := by
  obtain ⟨t, ht, rfl⟩ := scanString_sound n h
  exact ⟨'"' :: t ++ ['"'], ⟨t, by rwa [String.toList_ofList], rfl⟩, by simp⟩

theorem scan_sound (n : Nat) :
    (∀ {cs : List Char} {j : Json} {rest : List Char}, scan n cs = some (j, rest) → ∃ used, cs = used ++ rest ∧ Written j used) ∧
    (∀ {cs : List Char} {l : List Json} {rest : List Char}, elements n cs = some (l, rest) →
      ∃ used, cs = used ++ ']' :: rest ∧ ElementsWritten l used) ∧
    (∀ {cs : List Char} {d d' : List (String × Json)} {rest : List Char}, members n d cs = some (d', rest) →
      ∃ used l, cs = used ++ '}' :: rest ∧ MembersWritten l used ∧ d' = insertAll d l) := by
  induction n with
  | zero =>
    refine ⟨?_, ?_, ?_⟩
    · intro cs j rest h; rw [scan.eq_def] at h; cases h
    · intro cs j rest h; rw [elements.eq_def] at h; cases h
    · intro cs d d' rest h; rw [members.eq_def] at h; cases h
  | succ n ih =>
    obtain ⟨ih1, ih2, ih3⟩ := ih
    refine ⟨?_, ?_, ?_⟩
    · intro cs j rest h
      rw [scan.eq_def] at h
      simp only at h
      split at h
      · rename_i r
        obtain ⟨x, hx, he⟩ := Option.map_eq_some_iff.1 h
        simp only [Prod.mk.injEq] at he
        obtain ⟨rfl, rfl⟩ := he
        obtain ⟨ks, hk, he⟩ := string_sound (k := x.1) (rest := x.2) hx
        exact ⟨ks, he, .str _ _ hk⟩
      · rename_i r
        obtain ⟨a, ha, hr⟩ := skip_split r
        split at h
        · rename_i r' hsk
          simp only [Option.some.injEq, Prod.mk.injEq] at h
          obtain ⟨rfl, rfl⟩ := h
          exact ⟨'{' :: a ++ ['}'], by rw [hr, hsk]; simp, .obj0 a ha⟩
        · obtain ⟨x, hx, he⟩ := Option.map_eq_some_iff.1 h
          simp only [Prod.mk.injEq] at he
          obtain ⟨rfl, rfl⟩ := he
          obtain ⟨used, l, hu, hl, hd⟩ := ih3 (d' := x.1) (rest := x.2) hx
          refine ⟨'{' :: (a ++ used) ++ ['}'], by rw [hr, hu]; simp, ?_⟩
          rw [hd, insertAll_eq]
          exact .obj l _ (members_prefix hl ha)
      · rename_i r
        obtain ⟨a, ha, hr⟩ := skip_split r
        split at h
        · rename_i r' hsk
          simp only [Option.some.injEq, Prod.mk.injEq] at h
          obtain ⟨rfl, rfl⟩ := h
          exact ⟨'[' :: a ++ [']'], by rw [hr, hsk]; simp, .arr0 a ha⟩
        · obtain ⟨x, hx, he⟩ := Option.map_eq_some_iff.1 h
          simp only [Prod.mk.injEq] at he
          obtain ⟨rfl, rfl⟩ := he
          obtain ⟨used, hu, hl⟩ := ih2 (l := x.1) (rest := x.2) hx
          refine ⟨'[' :: (a ++ used) ++ [']'], by rw [hr, hu]; simp, ?_⟩
          exact .arr _ _ (elements_prefix hl ha)
      · exact scalar_sound h
    · intro cs l rest h
      rw [elements.eq_def] at h
      simp only at h
      split at h
      · cases h
      · rename_i v r hv
        obtain ⟨used, rfl, hw⟩ := ih1 hv
        obtain ⟨b, hb, hr⟩ := skip_split r
        split at h
        · rename_i r' hsk
          simp only [Option.some.injEq, Prod.mk.injEq] at h
          obtain ⟨rfl, rfl⟩ := h
          exact ⟨used ++ b, by rw [hr, hsk]; simp, .one v [] used b blanks_nil hw hb⟩
        · rename_i r' hsk
          obtain ⟨x, hx, he⟩ := Option.map_eq_some_iff.1 h
          simp only [Prod.mk.injEq] at he
          obtain ⟨rfl, rfl⟩ := he
          obtain ⟨a, ha, hr'⟩ := skip_split r'
          obtain ⟨used', hu, hl⟩ := ih2 (l := x.1) (rest := x.2) hx
          refine ⟨used ++ b ++ ',' :: (a ++ used'), by rw [hr, hsk, hr', hu]; simp, ?_⟩
          exact .more v [] used b _ _ blanks_nil hw hb (elements_prefix hl ha)
        · cases h
    · intro cs d d' rest h
      rw [members.eq_def] at h
      simp only at h
      split at h
      · rename_i r
        split at h
        · cases h
        · rename_i k r1 hk
          obtain ⟨ks, hks, hke⟩ := string_sound hk
          obtain ⟨a', ha', hr1⟩ := skip_split r1
          split at h
          · rename_i r2 hsk
            obtain ⟨b', hb', hr2⟩ := skip_split r2
            split at h
            · cases h
            · rename_i v r3 hv
              obtain ⟨used, hu, hw⟩ := ih1 hv
              obtain ⟨b, hb, hr3⟩ := skip_split r3
              split at h
              · rename_i r4 hsk4
                simp only [Option.some.injEq, Prod.mk.injEq] at h
                obtain ⟨rfl, rfl⟩ := h
                refine ⟨_, _, ?_, .one (String.ofList k) v [] ks a' b' used b blanks_nil hks ha' hb' hw hb, rfl⟩
                rw [hke, hr1, hsk, hr2, hu, hr3, hsk4]
                simp
              · rename_i r4 hsk4
                obtain ⟨a, ha, hr4⟩ := skip_split r4
                obtain ⟨used', l, hu', hl, hd⟩ := ih3 h
                refine ⟨_, _, ?_, .more (String.ofList k) v [] ks a' b' used b l (a ++ used') blanks_nil hks ha' hb' hw hb
                  (members_prefix hl ha), ?_⟩
                · rw [hke, hr1, hsk, hr2, hu, hr3, hsk4, hr4, hu']
                  simp
                · rw [hd]; rfl
              · cases h
          · cases h
      · cases h

theorem loads_iff (text : List Char) (j : Json) : loads text = some j ↔ Writes text j := by
  refine ⟨fun h => ?_, loads_of⟩
  unfold loads at h
  obtain ⟨a, ha, hr⟩ := skip_split text
  split at h
  · rename_i j' rest hs
    split at h
    · rename_i he
      simp only [Option.some.injEq] at h
      subst h
      obtain ⟨used, hu, hw⟩ := (scan_sound _).1 hs
      obtain ⟨b, hb, hr'⟩ := skip_split rest
      rw [List.isEmpty_iff.1 he, List.append_nil] at hr'
      refine ⟨a, used, rest, ha, hw, by rw [hr']; exact hb, ?_⟩
      rw [List.append_assoc, ← hu, ← hr]
    · cases h
  · cases h

end PashAnn.Json
