import Verif.Lemmas.JsonBytes

/-!
Lemmas about beginnings of texts and bytes that hold a JSON object.
-/

namespace PashAnn.Json
open Spec.JsonText

/-- The text of an object ends with its brace, whatever follows. -/
theorem scan_obj {l : List (String × Json)} {cs : List Char} (h : Written (.obj l) cs) (n : Nat) (hn : cs.length < n)
    (rest : List Char) : scan n (cs ++ rest) = some (.obj l, rest) := by
  obtain ⟨m, rfl⟩ : ∃ m, n = m + 1 := ⟨n - 1, by omega⟩
  cases h with
  | obj0 a ha =>
    rw [scan.eq_def]
    simp only [List.cons_append, List.append_assoc, List.nil_append]
    rw [skip_blanks ha, skip_cons (by decide)]
    rfl
  | obj l cs h =>
    have he := members_of h m (by simp only [List.length_cons, List.length_append, List.length_nil] at hn; omega) [] rest
    obtain ⟨c, t, hc, hne⟩ := members_head h ('}' :: rest)
    rw [scan.eq_def]
    simp only [List.cons_append, List.append_assoc, List.nil_append]
    rw [hc] at he ⊢
    split
    · rename_i heq; simp only [List.cons.injEq] at heq; exact absurd heq.1 hne
    · rw [he, ← insertAll_eq]; rfl

theorem obj_head {l : List (String × Json)} {cs : List Char} (h : Written (.obj l) cs) : ∃ t, cs = '{' :: t := by
  cases h with
  | obj0 a ha => exact ⟨_, rfl⟩
  | obj l cs h => exact ⟨_, rfl⟩

theorem of_head {j : Json} {cs t : List Char} (h : Written j cs) (hc : cs = '{' :: t) : ∃ l, j = .obj l := by
  cases h with
  | null => simp at hc
  | true => simp at hc
  | false => simp at hc
  | num _ h =>
      obtain ⟨c, u, rfl, hd⟩ := number_head h
      simp only [List.cons.injEq] at hc
      obtain ⟨rfl, _⟩ := hc
      have key : ¬ ('{' = '-' ∨ '{' ∈ "0123456789".toList) := by decide +kernel
      exact absurd hd key
  | special s h =>
      have key : ∀ t ∈ ["NaN", "Infinity", "-Infinity"], t.toList.head? ≠ some '{' := by decide +kernel
      exact absurd (by rw [hc]; rfl) (key s h)
  | str s _ h =>
      obtain ⟨u, _, rfl⟩ := h
      simp at hc
  | arr0 a h => simp at hc
  | arr l cs h => simp at hc
  | obj0 a h => exact ⟨_, rfl⟩
  | obj l cs h => exact ⟨_, rfl⟩

theorem beginning {p s : List Char} {l : List (String × Json)} {j : Json} (h : Writes (p ++ s) (.obj l)) (hp : Writes p j) :
    j = .obj l ∧ Blanks s := by
  obtain ⟨a, cs, b, ha, hw, hb, ht⟩ := h
  obtain ⟨a', cs', b', ha', hw', hb', rfl⟩ := hp
  have e1 : cs ++ b = cs' ++ (b' ++ s) := by
    rw [← skip_written hw ha b, ← skip_written hw' ha' (b' ++ s)]
    congr 1
    simpa [List.append_assoc] using ht.symm
  obtain ⟨t, ht'⟩ := obj_head hw
  obtain ⟨c, u, hc', hbl, _⟩ := written_head hw'
  have hhead : cs' = '{' :: u := by
    rw [ht', hc'] at e1
    simp only [List.cons_append, List.cons.injEq] at e1
    rw [hc', ← e1.1]
  obtain ⟨l', rfl⟩ := of_head hw' hhead
  have s1 := scan_obj hw (cs.length + cs'.length + 1) (by omega) b
  have s2 := scan_obj hw' (cs.length + cs'.length + 1) (by omega) (b' ++ s)
  rw [e1, s2] at s1
  simp only [Option.some.injEq, Prod.mk.injEq] at s1
  refine ⟨s1.1, fun x hx => hb x ?_⟩
  rw [← s1.2]
  simp [hx]

/-- A text of one character writes no object, and it is no blank. -/
theorem single_char {c : Char} {j : Json} (h : Writes [c] j) : c ≠ '{' ∧ isBlank c = false := by
  have hc : isBlank c = false := by
    obtain ⟨a, cs, b, ha, hw, hb, ht⟩ := h
    obtain ⟨d, t, rfl, hd, _⟩ := written_head hw
    cases a with
    | nil => simp at ht; rw [ht.1]; exact hd
    | cons x a => simp at ht
  refine ⟨?_, hc⟩
  rintro rfl
  have := loads_of h
  exact absurd this (by rw [show loads ['{'] = none from rfl]; simp)

theorem obj_first {text : List Char} {l : List (String × Json)} {c : Char} {t : List Char} (h : Writes text (.obj l))
    (ht : text = c :: t) : c = '{' ∨ isBlank c = true := by
  obtain ⟨a, cs, b, ha, hw, hb, rfl⟩ := h
  cases a with
  | nil =>
      obtain ⟨u, rfl⟩ := obj_head hw
      simp at ht
      exact .inl ht.1.symm
  | cons x a =>
      simp at ht
      exact .inr (by rw [← ht.1]; exact (isBlank_iff x).2 (ha x (by simp)))

end PashAnn.Json

namespace PashAnn.Bytes
open Spec Spec.Encodings
open Spec.JsonText (Writes Blanks)

theorem numbers_cons (e : Encoding) (c : Char) (t : List Char) : numbers e (c :: t) = e.char c.toNat ++ numbers e t := by
  simp [numbers]

theorem toNat_inj {c d : Char} (h : c.toNat = d.toNat) : c = d := by
  rw [← Char.ofNat_toNat c, h, Char.ofNat_toNat]

theorem numbers_prefix (e : Encoding) : ∀ (t' t : List Char) (s : List Nat), numbers e t' ++ s = numbers e t → ∃ u, t = t' ++ u := by
  intro t'
  induction t' with
  | nil => intro t s _; exact ⟨t, rfl⟩
  | cons c t' ih =>
      intro t s h
      cases t with
      | nil =>
          rw [numbers_cons] at h
          have := (inverse e).nonempty c.toNat
          simp [numbers, this] at h
      | cons d t =>
          rw [numbers_cons, numbers_cons, List.append_assoc] at h
          have h1 := (inverse e).there c (numbers e t' ++ s)
          rw [h, (inverse e).there d] at h1
          simp only [Option.some.injEq, Prod.mk.injEq] at h1
          obtain ⟨u, rfl⟩ := ih t s h1.2.symm
          exact ⟨u, by rw [toNat_inj h1.1]; rfl⟩

/-- The bytes before the text. -/
def pre (e : Encoding) (marked : Bool) : List Nat := if marked then markBytes e else []

theorem numbers8_nz {t : List Char} (h : ∀ c ∈ t, 9 ≤ c.toNat) (r : List Nat) : numbers .utf8 t ≠ 0 :: r := by
  cases t with
  | nil => simp [numbers]
  | cons c t =>
      have hc := h c (by simp)
      obtain ⟨b, l, hb, hz⟩ := utf8_head c.toNat (by omega)
      rw [numbers_cons]
      simp only [Encoding.char, hb, List.cons_append, ne_eq, List.cons.injEq, not_and]
      intro h0; exact absurd h0 hz

theorem numbers16_nz {t : List Char} (h : ∀ c ∈ t, 9 ≤ c.toNat) (r : List Nat) : numbers (.utf16 .little) t ≠ 0 :: 0 :: r := by
  cases t with
  | nil => simp [numbers]
  | cons c t =>
      have hc := h c (by simp)
      obtain ⟨a, b, l, hb, hz⟩ := utf16_head c.toNat (by omega)
      rw [numbers_cons]
      simp only [Encoding.char, hb, List.cons_append, ne_eq, List.cons.injEq, not_and]
      intro h0 h1
      rcases hz with hz | hz
      · exact absurd h0 hz
      · exact absurd h1 hz

/-- Two texts in different encodings of which one begins with the other: the shorter has a single character. -/
theorem other_encoding {e e' : Encoding} {k k' : Bool} {c c' : Char} {t t' : List Char} {s : List Nat}
    (h9 : ∀ x ∈ c :: t, 9 ≤ x.toNat) (h9' : ∀ x ∈ c' :: t', 9 ≤ x.toNat) (hc : c.toNat < 128) (hc' : c'.toNat < 128)
    (h : pre e' k' ++ (numbers e' (c' :: t') ++ s) = pre e k ++ numbers e (c :: t)) :
    (e' = e ∧ k' = k) ∨ (c' = c ∧ t' = []) := by
  have z : ∀ x ∈ t, 9 ≤ x.toNat := fun x hx => h9 x (by simp [hx])
  have z' : ∀ x ∈ t', 9 ≤ x.toNat := fun x hx => h9' x (by simp [hx])
  have n9 := h9 c (by simp)
  have n9' := h9' c' (by simp)
  rw [numbers_cons, numbers_cons, ascii_char e _ hc, ascii_char e' _ hc'] at h
  have short8 : ∀ r, numbers .utf8 t' ++ s = 0 :: r → t' = [] := by
    intro r hr
    cases ht : numbers .utf8 t' with
    | nil =>
        cases t' with
        | nil => rfl
        | cons x t' =>
            rw [numbers_cons] at ht
            have := (inverse .utf8).nonempty x.toNat
            simp [this] at ht
    | cons y l =>
        rw [ht] at hr
        simp only [List.cons_append, List.cons.injEq] at hr
        exact absurd (by rw [ht, hr.1]) (numbers8_nz z' l)
  have short16 : ∀ r, numbers (.utf16 .little) t' ++ s = 0 :: 0 :: r → t' = [] := by
    intro r hr
    cases t' with
    | nil => rfl
    | cons x t' =>
        have hx := z' x (by simp)
        obtain ⟨a, b, l, hb, hz⟩ := utf16_head x.toNat (by omega)
        rw [numbers_cons] at hr
        simp only [Encoding.char, hb, List.cons_append, List.cons.injEq] at hr
        rcases hz with hz | hz
        · exact absurd hr.1 hz
        · exact absurd hr.2.1 hz
  rcases e with _ | (_ | _) | (_ | _) <;> rcases e' with _ | (_ | _) | (_ | _) <;> cases k <;> cases k' <;>
    simp only [pre, markBytes, List.nil_append, List.cons_append, List.cons.injEq, if_true, if_false, Bool.false_eq_true,
      and_self, true_or, reduceCtorEq, false_and, and_false, false_or, Nat.reduceEqDiff] at h ⊢ <;>
    first
    | exact absurd h id
    | (exfalso; omega)
    | exact ⟨toNat_inj h.1, short8 _ h.2⟩
    | exact ⟨toNat_inj h.1, short16 _ h.2.2⟩
    | exact absurd h.2.symm (numbers8_nz z _)
    | exact absurd h.2.2.symm (numbers16_nz z _)

theorem holds_iff (bytes : List UInt8) (j : Json) :
    Holds bytes j ↔ ∃ e k text, Writes text j ∧ bytes.map UInt8.toNat = pre e k ++ numbers e text := by
  constructor
  · rintro ⟨e, text, hw, rfl | rfl⟩
    · exact ⟨e, false, text, hw, by rw [encode_numbers]; rfl⟩
    · exact ⟨e, true, text, hw, by rw [encode_numbers, numbers_mark]; rfl⟩
  · rintro ⟨e, k, text, hw, h⟩
    refine ⟨e, text, hw, ?_⟩
    cases k with
    | false => exact .inl ((eq_encode_iff _ _ _).2 h)
    | true => exact .inr ((eq_encode_iff _ _ _).2 (by rw [h, numbers_mark]; rfl))

theorem bytes_beginning {q s : List UInt8} {l : List (String × Json)} {j : Json} (h : Holds (q ++ s) (.obj l)) (hq : Holds q j) :
    j = .obj l := by
  obtain ⟨e, k, text, hw, hb⟩ := (holds_iff _ _).1 h
  obtain ⟨e', k', text', hw', hb'⟩ := (holds_iff _ _).1 hq
  rw [List.map_append, hb', List.append_assoc] at hb
  obtain ⟨c, t, ht, hc⟩ := writes_head hw
  obtain ⟨c', t', ht', hc'⟩ := writes_head hw'
  have h9 := writes_ge hw
  have h9' := writes_ge hw'
  rw [ht] at h9 hb
  rw [ht'] at h9' hb
  rcases other_encoding h9 h9' hc hc' hb with ⟨rfl, rfl⟩ | ⟨rfl, rfl⟩
  · have := List.append_cancel_left hb
    obtain ⟨u, hu⟩ := numbers_prefix _ _ _ _ this
    rw [← ht, ← ht'] at hu
    rw [hu] at hw
    exact (Json.beginning hw hw').1
  · rw [ht'] at hw'
    obtain ⟨h1, h2⟩ := Json.single_char hw'
    rcases Json.obj_first hw ht with h3 | h3
    · exact absurd h3 h1
    · rw [h2] at h3; cases h3

end PashAnn.Bytes
