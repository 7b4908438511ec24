import Verif.Spec.JsonText

/-! Lemmas about reading and writing JSON texts. -/

namespace PashAnn.Json

open Spec.JsonText

theorem isBlank_iff (c : Char) : isBlank c = true ↔ c = ' ' ∨ c = '\t' ∨ c = '\n' ∨ c = '\r' := by
  simp [isBlank, or_assoc]

theorem skip_blanks {a : List Char} (h : Blanks a) (rest : List Char) : skip (a ++ rest) = skip rest := by
  induction a with
  | nil => rfl
  | cons c a ih =>
    have hc : isBlank c = true := (isBlank_iff c).2 (h c (by simp))
    have := ih (fun x hx => h x (by simp [hx]))
    simpa [skip, hc] using this

theorem skip_cons {c : Char} (h : isBlank c = false) (t : List Char) : skip (c :: t) = c :: t := by
  simp [skip, h]

theorem skip_all {a : List Char} (h : Blanks a) : skip a = [] := by
  have := skip_blanks h []
  simpa [skip] using this

theorem hexValue_of {c : Char} {n : Nat} (h : Hex c n) : hexValue c = some n := by
  have key : ∀ p ∈ "0123456789abcdef".toList.zip (List.range 16) ++ "0123456789ABCDEF".toList.zip (List.range 16),
      hexValue p.1 = some p.2 := by decide +kernel
  exact key (c, n) (List.mem_append.2 h)

theorem fourDigits_of {cs : List Char} {n : Nat} (h : Hex4 cs n) (rest : List Char) : fourDigits (cs ++ rest) = some (n, rest) := by
  obtain ⟨a, b, c, d, na, nb, nc, nd, rfl, ha, hb, hc, hd, rfl⟩ := h
  simp only [fourDigits, List.cons_append, List.nil_append, hexValue_of ha, hexValue_of hb, hexValue_of hc, hexValue_of hd]
  congr 2
  omega

theorem hex4_length {cs : List Char} {n : Nat} (h : Hex4 cs n) : cs.length = 4 := by
  obtain ⟨a, b, c, d, na, nb, nc, nd, rfl, _⟩ := h
  rfl

theorem toNat_valid (c : Char) : c.toNat < 0xd800 ∨ (0xdfff < c.toNat ∧ c.toNat < 0x110000) := c.valid

theorem unicode_one {c : Char} {cs : List Char} (h : Hex4 cs c.toNat) (rest : List Char) :
    unicode (cs ++ rest) = some (c, rest) := by
  have hv := toNat_valid c
  simp only [unicode, fourDigits_of h]
  rw [if_neg (by simp; omega), if_neg (by simp; omega), Char.ofNat_toNat]

theorem unicode_two {c : Char} {cs ds : List Char} {hi lo : Nat} (h : Hex4 cs (0xd800 + hi)) (h' : Hex4 ds (0xdc00 + lo))
    (hhi : hi < 1024) (hlo : lo < 1024) (hc : c.toNat = 0x10000 + hi * 1024 + lo) (rest : List Char) :
    unicode (cs ++ '\\' :: 'u' :: (ds ++ rest)) = some (c, rest) := by
  simp only [unicode, fourDigits_of h, fourDigits_of h']
  rw [if_pos (by simp; omega), if_pos (by simp; omega)]
  have : 65536 + (55296 + hi - 55296) * 1024 + (56320 + lo - 56320) = c.toNat := by omega
  rw [this, Char.ofNat_toNat]

theorem escaped_of {e c : Char} (h : (e, c) ∈ escapes) : escaped e = some c ∧ e ≠ 'u' := by
  have key : ∀ p ∈ escapes, escaped p.1 = some p.2 ∧ p.1 ≠ 'u' := by decide +kernel
  exact key (e, c) h

theorem charWritten_length {c : Char} {cs : List Char} (h : CharWritten c cs) : 1 ≤ cs.length := by
  cases h <;> simp

theorem scanString_cons {c : Char} {cs : List Char} (h : CharWritten c cs) (n : Nat) (rest : List Char) :
    scanString (n + 1) (cs ++ rest) = (scanString n rest).map fun r => (c :: r.1, r.2) := by
  cases h with
  | plain _ h1 h2 h3 =>
    simp only [List.cons_append, List.nil_append]
    rw [scanString.eq_def]
    simp only
    split
    · simp_all
    · rename_i heq; simp only [List.cons.injEq] at heq; exact absurd heq.1 h2
    · rename_i heq; simp only [List.cons.injEq] at heq; exact absurd heq.1 h3
    · rename_i heq; simp only [List.cons.injEq] at heq; exact absurd heq.1 h3
    · rename_i heq
      simp only [List.cons.injEq] at heq
      obtain ⟨rfl, rfl⟩ := heq
      rw [if_neg]
      simp [h3]
      omega
  | short e _ he =>
    obtain ⟨h1, h2⟩ := escaped_of he
    simp only [List.cons_append, List.nil_append]
    rw [scanString.eq_def]
    simp only [h1]
  | number _ ds hd =>
    simp only [List.cons_append]
    rw [scanString, unicode_one hd]
  | numbers _ ds es hi lo h1 h2 h3 h4 h5 =>
    simp only [List.cons_append, List.append_assoc]
    rw [scanString, unicode_two h1 h2 h3 h4 h5]

theorem scanString_of {s t : List Char} (h : CharsWritten s t) (n : Nat) (hn : t.length < n) (rest : List Char) :
    scanString n (t ++ '"' :: rest) = some (s, rest) := by
  induction h generalizing n with
  | nil =>
    obtain ⟨m, rfl⟩ : ∃ m, n = m + 1 := ⟨n - 1, by omega⟩
    rfl
  | cons c cs s t hc _ ih =>
    obtain ⟨m, rfl⟩ : ∃ m, n = m + 1 := ⟨n - 1, by omega⟩
    have := charWritten_length hc
    simp only [List.length_append] at hn
    rw [List.append_assoc, scanString_cons hc, ih m (by omega)]
    rfl

theorem scanString_written {s : String} {cs : List Char} (h : StringWritten s cs) (rest : List Char) (n : Nat)
    (hn : cs.length ≤ n) : ∃ t, cs ++ rest = '"' :: t ∧ scanString n t = some (s.toList, rest) := by
  obtain ⟨t, ht, rfl⟩ := h
  refine ⟨t ++ '"' :: rest, by simp, scanString_of ht _ ?_ rest⟩
  simp only [List.length_append, List.length_cons] at hn
  omega

/-- What can follow a value. -/
def Stops (rest : List Char) : Prop :=
  ∀ c t, rest = c :: t → isDigit c = false ∧ c ≠ '.' ∧ c ≠ 'e' ∧ c ≠ 'E'

theorem isDigit_iff (c : Char) : isDigit c = true ↔ c ∈ "0123456789".toList := by
  constructor
  · intro h
    simp only [isDigit, Bool.and_eq_true, decide_eq_true_eq] at h
    have h1 : '0'.toNat ≤ c.toNat := h.1
    have h2 : c.toNat ≤ '9'.toNat := h.2
    have h3 : c.toNat ∈ List.range' 48 10 := by simp at h1 h2 ⊢; omega
    have key : ∀ n ∈ List.range' 48 10, Char.ofNat n ∈ "0123456789".toList := by decide +kernel
    have := key _ h3
    rwa [Char.ofNat_toNat] at this
  · intro h
    have key : ∀ c ∈ "0123456789".toList, isDigit c = true := by decide +kernel
    exact key c h

theorem digits_of {ds : List Char} (h : Digits ds) {rest : List Char} (hr : ∀ c t, rest = c :: t → isDigit c = false) :
    digits (ds ++ rest) = (ds, rest) := by
  have h1 : ∀ c ∈ ds, isDigit c = true := fun c hc => (isDigit_iff c).2 (h c hc)
  simp only [digits]
  rw [List.takeWhile_append_of_pos h1, List.dropWhile_append_of_pos h1]
  cases rest with
  | nil => simp
  | cons c t => simp [hr c t rfl]

theorem exponent_of {ex : List Char}
    (h : ex = [] ∨ ∃ e s ds, (e = 'e' ∨ e = 'E') ∧ (s = [] ∨ s = ['+'] ∨ s = ['-']) ∧ ds ≠ [] ∧ Digits ds ∧ ex = e :: s ++ ds)
    {rest : List Char} (hr : Stops rest) : exponent (ex ++ rest) = (ex, rest) := by
  rcases h with rfl | ⟨e, s, ds, he, hs, hne, hd, rfl⟩
  · cases rest with
    | nil => rfl
    | cons c t =>
      obtain ⟨_, _, h2, h3⟩ := hr c t rfl
      simp [exponent, h2, h3]
  · have hdig := digits_of hd (fun c t h => (hr c t h).1)
    have hee : (e == 'e' || e == 'E') = true := by simpa using he
    have hemp : ds.isEmpty = false := by cases ds <;> simp_all
    rcases hs with rfl | rfl | rfl
    · obtain ⟨d, ds, rfl⟩ : ∃ d ds', ds = d :: ds' := by cases ds <;> simp_all
      have h1 : d ≠ '+' := by
        intro h; subst h
        have := hd '+' (by simp)
        revert this; decide
      have h2 : d ≠ '-' := by
        intro h; subst h
        have := hd '-' (by simp)
        revert this; decide
      simp only [exponent, List.cons_append, List.nil_append, hee, if_true]
      have : exponentSign (d :: (ds ++ rest)) = (([] : List Char), d :: (ds ++ rest)) := by
        unfold exponentSign
        split
        · simp_all
        · simp_all
        · rfl
      simp only [this]
      simp only [List.cons_append] at hdig
      rw [hdig]
      simp
    · simp [exponent, exponentSign, hee, hdig, hemp]
    · simp [exponent, exponentSign, hee, hdig, hemp]

theorem not_digit_dot : isDigit '.' = false := by decide

theorem number_of {cs : List Char} (h : NumberText cs) {rest : List Char} (hr : Stops rest) :
    number (cs ++ rest) = some (cs, rest) := by
  obtain ⟨sign, int, frac, ex, rfl, hsign, hint, hfrac, hex⟩ := h
  have hexp := exponent_of hex hr
  have hf : fraction (frac ++ (ex ++ rest)) = (frac, ex ++ rest) := by
    have hnd : ∀ c t, ex ++ rest = c :: t → isDigit c = false ∧ c ≠ '.' := by
      intro c t h
      rcases hex with rfl | ⟨e, s, ds, he, hs, hne, hd, rfl⟩
      · exact ⟨(hr c t h).1, (hr c t h).2.1⟩
      · simp only [List.cons_append, List.cons.injEq] at h
        obtain ⟨rfl, _⟩ := h
        rcases he with rfl | rfl <;> decide
    rcases hfrac with rfl | ⟨ds, hne, hd, rfl⟩
    · simp only [List.nil_append]
      cases hx : ex ++ rest with
      | nil => rfl
      | cons c t =>
        have := (hnd c t hx).2
        simp only [fraction]
        split
        · simp_all
        · rfl
    · have hemp : ds.isEmpty = false := by cases ds <;> simp_all
      simp [fraction, digits_of hd (fun c t h => (hnd c t h).1), hemp]
  have hnd : ∀ c t, frac ++ (ex ++ rest) = c :: t → isDigit c = false := by
    intro c t h
    rcases hfrac with rfl | ⟨ds, hne, hd, rfl⟩
    · rcases hex with rfl | ⟨e, s, ds, he, hs, hne, hd, rfl⟩
      · exact (hr c t h).1
      · simp only [List.cons_append, List.nil_append, List.cons.injEq] at h
        obtain ⟨rfl, _⟩ := h
        rcases he with rfl | rfl <;> decide
    · simp only [List.cons_append, List.cons.injEq] at h
      obtain ⟨rfl, _⟩ := h
      decide
  have hi : integer (int ++ (frac ++ (ex ++ rest))) = (int, frac ++ (ex ++ rest)) := by
    rcases hint with rfl | ⟨d, ds, rfl, hd0, hd⟩
    · rfl
    · unfold integer
      split
      · rename_i heq
        simp only [List.cons_append, List.cons.injEq] at heq
        exact absurd heq.1 hd0
      · rw [digits_of hd hnd]
  have hemp : int.isEmpty = false := by
    rcases hint with rfl | ⟨d, ds, rfl, _⟩ <;> rfl
  have hs : minus (sign ++ (int ++ (frac ++ (ex ++ rest)))) = (sign, int ++ (frac ++ (ex ++ rest))) := by
    rcases hsign with rfl | rfl
    · unfold minus
      split
      · rename_i heq
        rcases hint with rfl | ⟨d, ds, rfl, hd0, hd⟩
        · simp at heq
        · simp only [List.nil_append, List.cons_append, List.cons.injEq] at heq
          have := hd d (by simp)
          rw [heq.1] at this
          exact absurd this (by decide)
      · rfl
    · rfl
  simp only [number, List.append_assoc, hs, hi, hemp, hf, hexp]
  simp

/-- The first character of a value. -/
theorem written_head {j : Json} {cs : List Char} (h : Written j cs) :
    ∃ c t, cs = c :: t ∧ isBlank c = false ∧ c ≠ ']' ∧ c ≠ '}' := by
  cases h with
  | null => exact ⟨_, _, rfl, by decide, by decide, by decide⟩
  | true => exact ⟨_, _, rfl, by decide, by decide, by decide⟩
  | false => exact ⟨_, _, rfl, by decide, by decide, by decide⟩
  | num _ h =>
    obtain ⟨sign, int, frac, ex, rfl, hsign, hint, hfrac, hex⟩ := h
    rcases hsign with rfl | rfl
    · rcases hint with rfl | ⟨d, ds, rfl, hd0, hd⟩
      · exact ⟨_, _, rfl, by decide, by decide, by decide⟩
      · refine ⟨d, _, rfl, ?_⟩
        have key : ∀ d ∈ "0123456789".toList, isBlank d = false ∧ d ≠ ']' ∧ d ≠ '}' := by decide +kernel
        exact key d (hd d (by simp))
    · exact ⟨_, _, rfl, by decide, by decide, by decide⟩
  | special t h =>
    have key : ∀ t ∈ ["NaN", "Infinity", "-Infinity"], ∃ c r, t.toList = c :: r ∧ isBlank c = false ∧ c ≠ ']' ∧ c ≠ '}' := by
      simp [isBlank]
    exact key t h
  | str s _ h =>
    obtain ⟨t, ht, rfl⟩ := h
    exact ⟨_, _, rfl, by decide, by decide, by decide⟩
  | arr0 a _ => exact ⟨_, _, rfl, by decide, by decide, by decide⟩
  | arr l cs _ => exact ⟨_, _, rfl, by decide, by decide, by decide⟩
  | obj0 a _ => exact ⟨_, _, rfl, by decide, by decide, by decide⟩
  | obj l cs _ => exact ⟨_, _, rfl, by decide, by decide, by decide⟩

theorem skip_written {j : Json} {cs : List Char} (h : Written j cs) {a : List Char} (ha : Blanks a) (rest : List Char) :
    skip (a ++ (cs ++ rest)) = cs ++ rest := by
  obtain ⟨c, t, rfl, hc, _⟩ := written_head h
  rw [skip_blanks ha, List.cons_append, skip_cons hc]

theorem skip_string {s : String} {cs : List Char} (h : StringWritten s cs) {a : List Char} (ha : Blanks a) (rest : List Char) :
    skip (a ++ (cs ++ rest)) = cs ++ rest := skip_written (.str s cs h) ha rest

theorem number_head {cs : List Char} (h : NumberText cs) : ∃ c t, cs = c :: t ∧ (c = '-' ∨ c ∈ "0123456789".toList) := by
  obtain ⟨sign, int, frac, ex, rfl, hsign, hint, hfrac, hex⟩ := h
  rcases hsign with rfl | rfl
  · rcases hint with rfl | ⟨d, ds, rfl, hd0, hd⟩
    · exact ⟨_, _, rfl, by decide⟩
    · exact ⟨d, _, rfl, .inr (hd d (by simp))⟩
  · exact ⟨_, _, rfl, .inl rfl⟩

theorem scalar_number {cs : List Char} (h : NumberText cs) {rest : List Char} (hr : Stops rest) :
    scalar (cs ++ rest) = some (.num (String.ofList cs), rest) := by
  have hn := number_of h hr
  obtain ⟨c, t, rfl, hc⟩ := number_head h
  have key : ∀ c ∈ '-' :: "0123456789".toList, c ≠ 'n' ∧ c ≠ 't' ∧ c ≠ 'f' := by decide +kernel
  obtain ⟨h1, h2, h3⟩ := key c (by rcases hc with rfl | hc; · simp
                                   · exact List.mem_cons_of_mem _ hc)
  unfold scalar
  rw [if_neg, if_neg, if_neg, hn]
  all_goals
    intro hh
    have := List.isPrefixOf_iff_prefix.1 hh
    obtain ⟨u, hu⟩ := this
    have hu := (List.cons.inj hu).1.symm
    first
    | exact h1 (hu.trans (by decide))
    | exact h2 (hu.trans (by decide))
    | exact h3 (hu.trans (by decide))

theorem scan_other {n : Nat} {c : Char} {t : List Char} (h1 : c ≠ '"') (h2 : c ≠ '{') (h3 : c ≠ '[') :
    scan (n + 1) (c :: t) = scalar (c :: t) := by
  rw [scan.eq_def]
  simp only
  split
  · rename_i heq; simp only [List.cons.injEq] at heq; exact absurd heq.1 h1
  · rename_i heq; simp only [List.cons.injEq] at heq; exact absurd heq.1 h2
  · rename_i heq; simp only [List.cons.injEq] at heq; exact absurd heq.1 h3
  · rfl

theorem elements_head {l : List Json} {cs : List Char} (h : ElementsWritten l cs) (rest : List Char) :
    ∃ c t, skip (cs ++ rest) = c :: t ∧ c ≠ ']' := by
  cases h with
  | one v a cs b ha hv hb =>
    obtain ⟨c, t, rfl, hc, h1, _⟩ := written_head hv
    exact ⟨c, t ++ (b ++ rest), by simp [skip_blanks ha, skip_cons hc], h1⟩
  | more v a cs b l ds ha hv hb hl =>
    obtain ⟨c, t, rfl, hc, h1, _⟩ := written_head hv
    exact ⟨c, t ++ (b ++ (',' :: ds ++ rest)), by simp [skip_blanks ha, skip_cons hc], h1⟩

theorem members_head {l : List (String × Json)} {cs : List Char} (h : MembersWritten l cs) (rest : List Char) :
    ∃ c t, skip (cs ++ rest) = c :: t ∧ c ≠ '}' := by
  cases h with
  | one k v a ks a' b' cs b ha hk _ _ _ _ =>
    obtain ⟨t, ht, rfl⟩ := hk
    exact ⟨'"', _, by simp only [List.append_assoc, List.cons_append]; rw [skip_blanks ha, skip_cons (by decide)], by decide⟩
  | more k v a ks a' b' cs b l ds ha hk _ _ _ _ _ =>
    obtain ⟨t, ht, rfl⟩ := hk
    exact ⟨'"', _, by simp only [List.append_assoc, List.cons_append]; rw [skip_blanks ha, skip_cons (by decide)], by decide⟩

/-- The items put into a dictionary one after the other. -/
def insertAll (d l : List (String × Json)) : List (String × Json) := l.foldl (fun d e => insert d e.1 e.2) d

theorem lookup_reverse_snoc (l : List (String × Json)) (k : String) (v : Json) (x : String) :
    (l ++ [(k, v)]).reverse.lookup x = if x = k then some v else l.reverse.lookup x := by
  simp only [List.reverse_append, List.reverse_cons, List.reverse_nil, List.nil_append, List.cons_append, List.lookup_cons]
  by_cases h : x = k
  · simp [h]
  · have : (x == k) = false := by simpa using h
    simp [h, this]

theorem insert_asDict (l : List (String × Json)) (k : String) (v : Json) : insert (asDict l) k v = asDict (l ++ [(k, v)]) := by
  have hk : (asDict l).any (fun e => e.1 == k) = decide (k ∈ l.map Prod.fst) := by
    by_cases h : k ∈ l.map Prod.fst
    · rw [decide_eq_true h, List.any_eq_true]
      exact ⟨(k, _), List.mem_map.2 ⟨k, List.mem_eraseDups.2 h, rfl⟩, by simp⟩
    · rw [decide_eq_false h, List.any_eq_false]
      rintro e he
      obtain ⟨x, hx, rfl⟩ := List.mem_map.1 he
      rw [List.mem_eraseDups] at hx
      simp only [beq_iff_eq]
      rintro rfl
      exact h hx
  unfold insert
  rw [hk]
  have hd : (List.map Prod.fst (l ++ [(k, v)])).eraseDups =
      (l.map Prod.fst).eraseDups ++ (if k ∈ l.map Prod.fst then [] else [k]) := by
    rw [List.map_append, List.eraseDups_append]
    congr 1
    by_cases h : k ∈ l.map Prod.fst
    · rw [if_pos h]
      have : List.removeAll (List.map Prod.fst [(k, v)]) (l.map Prod.fst) = [] := by
        simp only [List.removeAll, List.map_cons, List.map_nil, List.filter_cons, List.filter_nil]
        rw [if_neg]
        simpa using h
      rw [this]; rfl
    · rw [if_neg h]
      have : List.removeAll (List.map Prod.fst [(k, v)]) (l.map Prod.fst) = [k] := by
        simp only [List.removeAll, List.map_cons, List.map_nil, List.filter_cons, List.filter_nil]
        rw [if_pos]
        simpa using h
      rw [this]; rfl
  by_cases h : k ∈ l.map Prod.fst
  · rw [if_pos (decide_eq_true h)]
    unfold asDict
    rw [hd, if_pos h, List.append_nil, List.map_map]
    refine List.map_congr_left (fun x hx => ?_)
    rw [lookup_reverse_snoc]
    by_cases hxk : x = k
    · simp [hxk]
    · simp [hxk]
  · rw [if_neg (by simpa using h)]
    unfold asDict
    rw [hd, if_neg h, List.map_append]
    congr 1
    · refine List.map_congr_left (fun x hx => ?_)
      rw [lookup_reverse_snoc, if_neg]
      rintro rfl
      exact h (List.mem_eraseDups.1 hx)
    · simp

theorem insertAll_eq (l : List (String × Json)) : insertAll [] l = asDict l := by
  have key : ∀ (l a : List (String × Json)), insertAll (asDict a) l = asDict (a ++ l) := by
    intro l
    induction l with
    | nil => intro a; simp [insertAll]
    | cons e l ih =>
      intro a
      have := ih (a ++ [e])
      rw [List.append_assoc, List.singleton_append] at this
      rw [← this, ← insert_asDict a e.1 e.2]
      rfl
  exact key l []

theorem asDict_nodup {l : List (String × Json)} (h : (l.map Prod.fst).Nodup) : asDict l = l := by
  rw [← insertAll_eq]
  have key : ∀ (l d : List (String × Json)), ((d ++ l).map Prod.fst).Nodup → insertAll d l = d ++ l := by
    intro l
    induction l with
    | nil => intro d _; simp [insertAll]
    | cons e l ih =>
      intro d hd
      have h1 : insert d e.1 e.2 = d ++ [e] := by
        unfold insert
        rw [if_neg]
        intro hh
        simp only [List.any_eq_true, beq_iff_eq] at hh
        obtain ⟨x, hx, hxe⟩ := hh
        simp only [List.map_append, List.nodup_append] at hd
        exact hd.2.2 _ (List.mem_map.2 ⟨x, hx, rfl⟩) e.1 (by simp) hxe
      show insertAll (insert d e.1 e.2) l = _
      rw [h1, ih (d ++ [e]) (by simpa using hd)]
      simp
  exact key l [] h

theorem stops_blanks {b : List Char} (hb : Blanks b) {c : Char} (hc : c = ',' ∨ c = ']' ∨ c = '}') (rest : List Char) :
    Stops (b ++ c :: rest) := by
  intro x t h
  have key : ∀ x ∈ [' ', '\t', '\n', '\r', ',', ']', '}'], isDigit x = false ∧ x ≠ '.' ∧ x ≠ 'e' ∧ x ≠ 'E' := by decide +kernel
  apply key
  cases b with
  | nil =>
    simp only [List.nil_append, List.cons.injEq] at h
    obtain ⟨rfl, _⟩ := h
    rcases hc with rfl | rfl | rfl <;> simp
  | cons y b =>
    simp only [List.cons_append, List.cons.injEq] at h
    obtain ⟨rfl, _⟩ := h
    rcases hb y (by simp) with rfl | rfl | rfl | rfl <;> simp

mutual
theorem scan_of {j : Json} {cs : List Char} (h : Written j cs) (n : Nat) (hn : cs.length < n) (rest : List Char)
    (hr : Stops rest) : scan n (cs ++ rest) = some (j, rest) := by
  obtain ⟨m, rfl⟩ : ∃ m, n = m + 1 := ⟨n - 1, by omega⟩
  cases h with
  | null => exact scan_other (by decide) (by decide) (by decide)
  | true => exact scan_other (by decide) (by decide) (by decide)
  | false => exact scan_other (by decide) (by decide) (by decide)
  | num _ h =>
    have hs := scalar_number h hr
    obtain ⟨c, t, rfl, hc⟩ := number_head h
    have key : ∀ c ∈ '-' :: "0123456789".toList, c ≠ '"' ∧ c ≠ '{' ∧ c ≠ '[' := by decide +kernel
    obtain ⟨h1, h2, h3⟩ := key c (by rcases hc with rfl | hc; · simp
                                     · exact List.mem_cons_of_mem _ hc)
    rw [List.cons_append] at hs ⊢
    rw [scan_other h1 h2 h3, hs]
  | special t h =>
    have key : ∀ t ∈ ["NaN", "Infinity", "-Infinity"], scan (m + 1) (t.toList ++ rest) = some (.num t, rest) := by
      intro t ht
      simp only [List.mem_cons, List.not_mem_nil, or_false] at ht
      rcases ht with rfl | rfl | rfl <;> exact scan_other (by decide) (by decide) (by decide)
    exact key t h
  | str s _ h =>
    obtain ⟨t, ht, hs⟩ := scanString_written h rest m (by omega)
    rw [ht, scan.eq_def]
    simp [hs]
  | arr0 a ha =>
    rw [scan.eq_def]
    simp only [List.cons_append, List.append_assoc, List.nil_append]
    rw [skip_blanks ha, skip_cons (by decide)]
    rfl
  | arr l cs h =>
    have he := elements_of h m (by simp only [List.length_cons, List.length_append, List.length_nil] at hn; omega) rest
    obtain ⟨c, t, hc, hne⟩ := elements_head h (']' :: rest)
    rw [scan.eq_def]
    simp only [List.cons_append, List.append_assoc, List.nil_append]
    rw [hc] at he ⊢
    split
    · rename_i heq; simp only [List.cons.injEq] at heq; exact absurd heq.1 hne
    · rw [he]; rfl
  | obj0 a ha =>
    rw [scan.eq_def]
    simp only [List.cons_append, List.append_assoc, List.nil_append]
    rw [skip_blanks ha, skip_cons (by decide)]
    rfl
  | obj l cs h =>
    have he := members_of h m (by simp only [List.length_cons, List.length_append, List.length_nil] at hn; omega) [] rest
    obtain ⟨c, t, hc, hne⟩ := members_head h ('}' :: rest)
    rw [scan.eq_def]
    simp only [List.cons_append, List.append_assoc, List.nil_append]
    rw [hc] at he ⊢
    split
    · rename_i heq; simp only [List.cons.injEq] at heq; exact absurd heq.1 hne
    · rw [he, ← insertAll_eq]; rfl
theorem elements_of {l : List Json} {cs : List Char} (h : ElementsWritten l cs) (n : Nat) (hn : cs.length + 1 < n)
    (rest : List Char) : elements n (skip (cs ++ ']' :: rest)) = some (l, rest) := by
  obtain ⟨m, rfl⟩ : ∃ m, n = m + 1 := ⟨n - 1, by omega⟩
  cases h with
  | one v a cs b ha hv hb =>
    simp only [List.length_append] at hn
    have h1 := scan_of hv m (by omega) (b ++ ']' :: rest) (stops_blanks hb (by simp) rest)
    simp only [List.append_assoc]
    rw [skip_written hv ha, elements.eq_def]
    simp only [h1]
    rw [skip_blanks hb, skip_cons (by decide)]
    rfl
  | more v a cs b l ds ha hv hb hl =>
    simp only [List.length_append, List.length_cons] at hn
    have h1 := scan_of hv m (by omega) (b ++ ',' :: (ds ++ ']' :: rest)) (stops_blanks hb (by simp) _)
    have h2 := elements_of hl m (by omega) rest
    simp only [List.append_assoc, List.cons_append]
    rw [skip_written hv ha, elements.eq_def]
    simp only [h1]
    rw [skip_blanks hb, skip_cons (by decide)]
    simp only [h2]
    rfl
theorem members_of {l : List (String × Json)} {cs : List Char} (h : MembersWritten l cs) (n : Nat) (hn : cs.length + 1 < n)
    (d : List (String × Json)) (rest : List Char) :
    members n d (skip (cs ++ '}' :: rest)) = some (insertAll d l, rest) := by
  obtain ⟨m, rfl⟩ : ∃ m, n = m + 1 := ⟨n - 1, by omega⟩
  cases h with
  | one k v a ks a' b' cs b ha hk ha' hb' hv hb =>
    simp only [List.length_append, List.length_cons] at hn
    have h1 := scan_of hv m (by omega) (b ++ '}' :: rest) (stops_blanks hb (by simp) rest)
    obtain ⟨t, ht, hs⟩ := scanString_written hk (a' ++ (':' :: (b' ++ (cs ++ (b ++ '}' :: rest))))) m (by omega)
    simp only [List.append_assoc, List.cons_append]
    rw [skip_string hk ha, ht, members.eq_def]
    simp only [hs]
    rw [skip_blanks ha', skip_cons (by decide)]
    simp only
    rw [skip_written hv hb']
    simp only [h1]
    rw [skip_blanks hb, skip_cons (by decide)]
    simp only [String.ofList_toList]
    rfl
  | more k v a ks a' b' cs b l ds ha hk ha' hb' hv hb hl =>
    simp only [List.length_append, List.length_cons] at hn
    have h1 := scan_of hv m (by omega) (b ++ ',' :: (ds ++ '}' :: rest)) (stops_blanks hb (by simp) _)
    have h2 := members_of hl m (by omega) (insert d k v) rest
    obtain ⟨t, ht, hs⟩ := scanString_written hk (a' ++ (':' :: (b' ++ (cs ++ (b ++ ',' :: (ds ++ '}' :: rest)))))) m (by omega)
    simp only [List.append_assoc, List.cons_append]
    rw [skip_string hk ha, ht, members.eq_def]
    simp only [hs]
    rw [skip_blanks ha', skip_cons (by decide)]
    simp only
    rw [skip_written hv hb']
    simp only [h1]
    rw [skip_blanks hb, skip_cons (by decide)]
    simp only [String.ofList_toList]
    rw [h2]
    rfl
end

theorem loads_of {text : List Char} {j : Json} (h : Writes text j) : loads text = some j := by
  obtain ⟨a, cs, b, ha, hj, hb, rfl⟩ := h
  have hst : Stops b := by
    intro x t hx
    have key : ∀ x ∈ [' ', '\t', '\n', '\r'], isDigit x = false ∧ x ≠ '.' ∧ x ≠ 'e' ∧ x ≠ 'E' := by decide +kernel
    apply key
    rcases hb x (by simp [hx]) with rfl | rfl | rfl | rfl <;> simp
  unfold loads
  rw [List.append_assoc, skip_written hj ha, scan_of hj _ (by simp; omega) b hst]
  simp [skip_all hb]

/-! Writing. -/

theorem hexDigit_hex (n : Nat) (h : n < 16) : Hex (hexDigit n) n := by
  have key : ∀ n ∈ List.range 16, (hexDigit n, n) ∈ "0123456789abcdef".toList.zip (List.range 16) := by decide +kernel
  exact .inl (key n (List.mem_range.2 h))

theorem uText_hex4 (n : Nat) (h : n < 65536) : ∃ cs, uText n = '\\' :: 'u' :: cs ∧ Hex4 cs n :=
  ⟨_, rfl, _, _, _, _, _, _, _, _, rfl, hexDigit_hex _ (by omega), hexDigit_hex _ (by omega), hexDigit_hex _ (by omega),
    hexDigit_hex _ (by omega), by omega⟩

theorem charText_written (c : Char) : CharWritten c (charText c) := by
  unfold charText
  have hv := toNat_valid c
  split
  · rename_i h; rw [beq_iff_eq] at h; subst h; exact .short _ _ (by decide)
  split
  · rename_i h; rw [beq_iff_eq] at h; subst h; exact .short _ _ (by decide)
  split
  · rename_i h; rw [beq_iff_eq] at h; subst h; exact .short _ _ (by decide)
  split
  · rename_i h; rw [beq_iff_eq] at h; subst h; exact .short _ _ (by decide)
  split
  · rename_i h; rw [beq_iff_eq] at h; subst h; exact .short _ _ (by decide)
  split
  · rename_i h; rw [beq_iff_eq] at h; subst h; exact .short _ _ (by decide)
  split
  · rename_i h; rw [beq_iff_eq] at h; subst h; exact .short _ _ (by decide)
  split
  · rename_i h1 h2 _ _ _ _ _ h
    simp only [Bool.and_eq_true, decide_eq_true_eq] at h
    simp only [beq_iff_eq] at h1 h2
    exact .plain c h.1 h2 h1
  split
  · rename_i h
    obtain ⟨cs, hcs, hx⟩ := uText_hex4 c.toNat (by omega)
    rw [hcs]
    exact .number c cs hx
  · rename_i h
    obtain ⟨cs, hcs, hx⟩ := uText_hex4 (0xd800 + (c.toNat - 0x10000) / 1024) (by omega)
    obtain ⟨ds, hds, hy⟩ := uText_hex4 (0xdc00 + (c.toNat - 0x10000) % 1024) (by omega)
    rw [hcs, hds]
    exact .numbers c cs ds _ _ hx hy (by omega) (by omega) (by omega)

theorem charsText_written (s : List Char) : CharsWritten s (s.flatMap charText) := by
  induction s with
  | nil => exact .nil
  | cons c s ih => exact .cons c _ s _ (charText_written c) ih

theorem strText_written (s : String) : StringWritten s (strText s) := ⟨_, charsText_written _, rfl⟩

theorem newLine_blanks (level : Nat) : Blanks (newLine level) := by
  intro c hc
  simp only [newLine, List.mem_cons, List.mem_replicate] at hc
  rcases hc with rfl | ⟨_, rfl⟩ <;> simp

theorem blanks_nil : Blanks [] := nofun

theorem blanks_blank : Blanks [' '] := by intro c hc; simp_all

theorem rest_written (level level' : Nat) (l : List Json) (v : Json) (hv : Written v (text level v))
    (hl : ∀ w ∈ l, Written w (text level w)) :
    ElementsWritten (v :: l) (newLine level ++ text level v ++ textRest level l ++ newLine level') := by
  induction l generalizing v with
  | nil =>
    have := ElementsWritten.one v (newLine level) _ (newLine level') (newLine_blanks _) hv (newLine_blanks _)
    simpa [textRest] using this
  | cons w l ih =>
    have h1 := ih w (hl w (by simp)) (fun x hx => hl x (by simp [hx]))
    have := ElementsWritten.more v (newLine level) _ [] (w :: l) _ (newLine_blanks _) hv blanks_nil h1
    simpa [textRest] using this

theorem members_written (level level' : Nat) (l : List (String × Json)) (k : String) (v : Json) (hv : Written v (text level v))
    (hl : ∀ e ∈ l, Written e.2 (text level e.2)) :
    MembersWritten ((k, v) :: l)
      (newLine level ++ strText k ++ ": ".toList ++ text level v ++ textMembers level l ++ newLine level') := by
  induction l generalizing k v with
  | nil =>
    have := MembersWritten.one k v (newLine level) _ [] [' '] _ (newLine level') (newLine_blanks _) (strText_written k) blanks_nil
      blanks_blank hv (newLine_blanks _)
    simpa [textMembers] using this
  | cons e l ih =>
    obtain ⟨k', w⟩ := e
    have h1 := ih k' w (hl (k', w) (by simp)) (fun x hx => hl x (by simp [hx]))
    have := MembersWritten.more k v (newLine level) _ [] [' '] _ [] _ _ (newLine_blanks _) (strText_written k) blanks_nil
      blanks_blank hv blanks_nil h1
    simpa [textMembers] using this

theorem text_written {j : Json} (h : Plain j) (level : Nat) : Written j (text level j) := by
  induction h generalizing level with
  | null => exact .null
  | bool b => cases b; exact .false; exact .true
  | str s => exact .str s _ (strText_written s)
  | arr l _ ih =>
    cases l with
    | nil => exact .arr0 [] blanks_nil
    | cons v l =>
      have := Written.arr _ _ (rest_written (level + 1) level l v (ih v (by simp) _) (fun w hw => ih w (by simp [hw]) _))
      simpa [text] using this
  | obj l hn _ ih =>
    cases l with
    | nil => exact .obj0 [] blanks_nil
    | cons e l =>
      obtain ⟨k, v⟩ := e
      have := Written.obj _ _ (members_written (level + 1) level l k v (ih (k, v) (by simp) _) (fun w hw => ih w (by simp [hw]) _))
      rw [asDict_nodup hn] at this
      simpa [text] using this

end PashAnn.Json
