import Verif.Model.JsonBytes
import Verif.Spec.Encodings
import Verif.Lemmas.JsonSound

set_option linter.unusedSimpArgs false

/-! Decoding is the inverse of encoding, and the encoding of a JSON text is guessed. -/

namespace PashAnn.Bytes
open Spec.Encodings (Encoding Order mark Holds)
open Spec.JsonText

theorem isNext_iff (b : Nat) : isNext b = true ↔ 0x80 ≤ b ∧ b < 0xC0 := by simp [isNext]

theorem first8_utf8 (n : Nat) (h : n < 0x110000) (rest : List Nat) :
    first8 (Spec.Encodings.utf8 n ++ rest) = some (n, rest) := by
  unfold Spec.Encodings.utf8
  split
  · rename_i h; simp [first8, h]
  split
  · rename_i h1 h2
    have e : (0xC0 + n / 64 - 0xC0) * 64 + (0x80 + n % 64 - 0x80) = n := by omega
    have hn : isNext (0x80 + n % 64) = true := (isNext_iff _).2 (by omega)
    simp only [List.cons_append, List.nil_append, first8, e, hn]
    rw [if_neg (by omega), if_neg (by omega), if_pos (by omega), if_pos (by simp; omega)]
  split
  · rename_i h1 h2 h3
    have e : ((0xE0 + n / 64 / 64 - 0xE0) * 64 + (0x80 + n / 64 % 64 - 0x80)) * 64 + (0x80 + n % 64 - 0x80) = n := by omega
    have hn : isNext (0x80 + n % 64) = true := (isNext_iff _).2 (by omega)
    have hn2 : isNext (0x80 + n / 64 % 64) = true := (isNext_iff _).2 (by omega)
    simp only [List.cons_append, List.nil_append, first8, e, hn, hn2]
    rw [if_neg (by omega), if_neg (by omega), if_neg (by omega), if_pos (by omega), if_pos (by simp; omega)]
  · rename_i h1 h2 h3
    have e : (((0xF0 + n / 64 / 64 / 64 - 0xF0) * 64 + (0x80 + n / 64 / 64 % 64 - 0x80)) * 64 + (0x80 + n / 64 % 64 - 0x80)) * 64
        + (0x80 + n % 64 - 0x80) = n := by omega
    have hn : isNext (0x80 + n % 64) = true := (isNext_iff _).2 (by omega)
    have hn2 : isNext (0x80 + n / 64 % 64) = true := (isNext_iff _).2 (by omega)
    have hn3 : isNext (0x80 + n / 64 / 64 % 64) = true := (isNext_iff _).2 (by omega)
    simp only [List.cons_append, List.nil_append, first8, e, hn, hn2, hn3]
    rw [if_neg (by omega), if_neg (by omega), if_neg (by omega), if_neg (by omega), if_pos (by omega), if_pos (by simp; omega)]

theorem first8_inv {b : List Nat} {n : Nat} {rest : List Nat} (h : first8 b = some (n, rest)) :
    b = Spec.Encodings.utf8 n ++ rest := by
  unfold Spec.Encodings.utf8
  cases b with
  | nil => cases h
  | cons a r =>
    unfold first8 at h
    dsimp only at h
    split at h
    · rename_i h1; cases h; rw [if_pos h1]; rfl
    split at h
    · cases h
    split at h
    · split at h
      · rename_i h1 h2 h3 _ b r
        simp only [Bool.and_eq_true, isNext_iff, decide_eq_true_eq, Option.ite_none_right_eq_some, Option.some.injEq, Prod.mk.injEq] at h
        obtain ⟨⟨⟨hb1, hb2⟩, hn⟩, rfl, rfl⟩ := h
        rw [if_neg (by omega), if_pos (by omega)]
        simp only [List.cons_append, List.nil_append, List.cons.injEq, and_true]
        omega
      · cases h
    split at h
    · split at h
      · rename_i h1 h2 h3 h4 _ b c r
        simp only [Bool.and_eq_true, isNext_iff, decide_eq_true_eq, Option.ite_none_right_eq_some, Option.some.injEq, Prod.mk.injEq] at h
        obtain ⟨⟨⟨⟨hb1, hb2⟩, hc1, hc2⟩, hn⟩, rfl, rfl⟩ := h
        rw [if_neg (by omega), if_neg (by omega), if_pos (by omega)]
        simp only [List.cons_append, List.nil_append, List.cons.injEq, and_true]
        omega
      · cases h
    split at h
    · split at h
      · rename_i h1 h2 h3 h4 h5 _ b c d r
        simp only [Bool.and_eq_true, isNext_iff, decide_eq_true_eq, Option.ite_none_right_eq_some, Option.some.injEq, Prod.mk.injEq] at h
        obtain ⟨⟨⟨⟨⟨⟨hb1, hb2⟩, hc1, hc2⟩, hd1, hd2⟩, hn⟩, hn'⟩, rfl, rfl⟩ := h
        rw [if_neg (by omega), if_neg (by omega), if_neg (by omega)]
        simp only [List.cons_append, List.nil_append, List.cons.injEq, and_true]
        omega
      · cases h
    · cases h

/-- The order of the bytes as the decoders are told. -/
def isBig : Order → Bool
  | .big => true
  | .little => false

theorem two_eq (o : Order) (u : Nat) : ∃ a b, Spec.Encodings.two o u = [a, b] ∧ two (isBig o) a b = u := by
  cases o with
  | big => exact ⟨_, _, rfl, by simp [two, isBig]; omega⟩
  | little => exact ⟨_, _, rfl, by simp [two, isBig]; omega⟩

theorem two_inv (o : Order) {a b : Nat} (ha : a < 256) (hb : b < 256) : Spec.Encodings.two o (two (isBig o) a b) = [a, b] := by
  cases o with
  | big =>
      simp only [two, isBig, Spec.Encodings.two, Order.bytes, if_true]
      congr 1
      · omega
      · congr 1; omega
  | little =>
      show [(b * 256 + a) % 256, (b * 256 + a) / 256] = [a, b]
      congr 1
      · omega
      · congr 1; omega

theorem first16_utf16 (o : Order) (n : Nat) (h : n < 0x110000) (hs : n < 0xD800 ∨ 0xDFFF < n) (rest : List Nat) :
    first16 (isBig o) (Spec.Encodings.utf16 o n ++ rest) = some (n, rest) := by
  unfold Spec.Encodings.utf16
  split
  · obtain ⟨a, b, e, hu⟩ := two_eq o n
    rw [e]
    simp only [List.cons_append, List.nil_append, first16, hu]
    rw [if_neg (by omega)]
  · obtain ⟨a, b, e, hu⟩ := two_eq o (0xD800 + (n - 0x10000) / 1024)
    obtain ⟨c, d, e', hv⟩ := two_eq o (0xDC00 + (n - 0x10000) % 1024)
    rw [e, e']
    simp only [List.cons_append, List.nil_append, first16, hu, hv]
    rw [if_pos (by omega), if_pos (by omega)]
    simp only [Option.some.injEq, Prod.mk.injEq, and_true]
    omega

theorem first16_inv (o : Order) {b : List Nat} (hb : ∀ x ∈ b, x < 256) {n : Nat} {rest : List Nat}
    (h : first16 (isBig o) b = some (n, rest)) (hs : n < 0xD800 ∨ 0xDFFF < n) : b = Spec.Encodings.utf16 o n ++ rest := by
  match b with
  | [] => cases h
  | [_] => cases h
  | x :: y :: r =>
    have hx := hb x (by simp)
    have hy := hb y (by simp)
    have e := two_inv o hx hy
    have hlt : two (isBig o) x y < 0x10000 := by unfold two; split <;> omega
    unfold first16 at h
    dsimp only at h
    split at h
    · rename_i hu
      split at h
      · rename_i c d r'
        have hc := hb c (by simp)
        have hd := hb d (by simp)
        have e' := two_inv o hc hd
        split at h
        · rename_i hv
          simp only [Option.some.injEq, Prod.mk.injEq] at h
          obtain ⟨rfl, rfl⟩ := h
          unfold Spec.Encodings.utf16
          rw [if_neg (by omega)]
          have h1 : 0xD800 + (0x10000 + (two (isBig o) x y - 0xD800) * 1024 + (two (isBig o) c d - 0xDC00) - 0x10000) / 1024 =
              two (isBig o) x y := by omega
          have h2 : 0xDC00 + (0x10000 + (two (isBig o) x y - 0xD800) * 1024 + (two (isBig o) c d - 0xDC00) - 0x10000) % 1024 =
              two (isBig o) c d := by omega
          rw [h1, h2, e, e']
          rfl
        · cases h; omega
      · cases h; omega
    · cases h
      unfold Spec.Encodings.utf16
      rw [if_pos hlt, e]
      rfl

theorem first32_utf32 (o : Order) (n : Nat) (h : n < 0x110000) (rest : List Nat) :
    first32 (isBig o) (Spec.Encodings.utf32 o n ++ rest) = some (n, rest) := by
  cases o with
  | big =>
      have e : (n / 256 / 256 / 256 * 256 + n / 256 / 256 % 256) * 65536 + (n / 256 % 256 * 256 + n % 256) = n := by omega
      simp only [Spec.Encodings.utf32, Order.bytes, List.cons_append, List.nil_append, first32, isBig, two, if_true, e]
      rw [if_pos h]
  | little =>
      have e : (n / 256 / 256 / 256 * 256 + n / 256 / 256 % 256) * 65536 + (n / 256 % 256 * 256 + n % 256) = n := by omega
      show first32 false ([n % 256, n / 256 % 256, n / 256 / 256 % 256, n / 256 / 256 / 256] ++ rest) = _
      simp only [List.cons_append, List.nil_append, first32, two, if_false, e, Bool.false_eq_true]
      rw [if_pos h]

theorem first32_inv (o : Order) {b : List Nat} (hb : ∀ x ∈ b, x < 256) {n : Nat} {rest : List Nat}
    (h : first32 (isBig o) b = some (n, rest)) : b = Spec.Encodings.utf32 o n ++ rest := by
  match b with
  | [] => cases h
  | [_] => cases h
  | [_, _] => cases h
  | [_, _, _] => cases h
  | x :: y :: z :: w :: r =>
    have hx := hb x (by simp)
    have hy := hb y (by simp)
    have hz := hb z (by simp)
    have hw := hb w (by simp)
    cases o with
    | big =>
        simp only [first32, isBig, two, if_true, Option.ite_none_right_eq_some, Option.some.injEq, Prod.mk.injEq] at h
        obtain ⟨_, rfl, rfl⟩ := h
        simp only [Spec.Encodings.utf32, Order.bytes, List.cons_append, List.nil_append, List.cons.injEq, and_true]
        omega
    | little =>
        simp only [first32, isBig, two, if_false, Bool.false_eq_true, Option.ite_none_right_eq_some, Option.some.injEq, Prod.mk.injEq] at h
        obtain ⟨_, rfl, rfl⟩ := h
        simp only [Spec.Encodings.utf32, Order.bytes, List.reverse_cons, List.reverse_nil, List.cons_append, List.nil_append, List.cons.injEq, and_true]
        omega

/-- What a decoder of single characters must satisfy. -/
structure Inverse (first : List Nat → Option (Nat × List Nat)) (enc : Nat → List Nat) : Prop where
  there (c : Char) (rest : List Nat) : first (enc c.toNat ++ rest) = some (c.toNat, rest)
  back (b : List Nat) (hb : ∀ x ∈ b, x < 256) (n : Nat) (rest : List Nat) : first b = some (n, rest) → n.isValidChar → b = enc n ++ rest
  nonempty (n : Nat) : enc n ≠ []

theorem toNat_valid (c : Char) : c.toNat.isValidChar := c.valid

theorem toNat_lt (c : Char) : c.toNat < 0x110000 ∧ (c.toNat < 0xD800 ∨ 0xDFFF < c.toNat) := by
  have := toNat_valid c
  unfold Nat.isValidChar at this
  omega

theorem ofNat_toNat {n : Nat} (h : n.isValidChar) : (Char.ofNat n).toNat = n := by
  unfold Char.ofNat
  rw [dif_pos h]
  rfl

/-- The decoders. -/
def firstOf : Encoding → List Nat → Option (Nat × List Nat)
  | .utf8 => first8
  | .utf16 o => first16 (isBig o)
  | .utf32 o => first32 (isBig o)

theorem inverse (e : Encoding) : Inverse (firstOf e) e.char := by
  cases e with
  | utf8 =>
      refine ⟨fun c rest => first8_utf8 _ (toNat_lt c).1 rest, fun b _ n rest h _ => first8_inv h, fun n => ?_⟩
      simp only [Encoding.char, Spec.Encodings.utf8]
      repeat' split
      all_goals simp
  | utf16 o =>
      refine ⟨fun c rest => first16_utf16 o _ (toNat_lt c).1 (toNat_lt c).2 rest, fun b hb n rest h hv => first16_inv o hb h ?_, fun n => ?_⟩
      · unfold Nat.isValidChar at hv; omega
      · obtain ⟨x, y, h1, _⟩ := two_eq o n
        obtain ⟨z, w, h2, _⟩ := two_eq o (0xD800 + (n - 0x10000) / 1024)
        simp only [Encoding.char, Spec.Encodings.utf16, h1, h2]
        split <;> simp
  | utf32 o =>
      refine ⟨fun c rest => first32_utf32 o _ (toNat_lt c).1 rest, fun b hb n rest h hv => first32_inv o hb h, fun n => ?_⟩
      cases o <;> simp [Encoding.char, Spec.Encodings.utf32, Order.bytes]

theorem decodeWith_iff {first : List Nat → Option (Nat × List Nat)} {enc : Nat → List Nat} (hi : Inverse first enc) :
    ∀ (k : Nat) (b : List Nat) (_ : ∀ x ∈ b, x < 256) (_ : b.length ≤ k) (text : List Char),
      decodeWith first k b = .ok text ↔ b = text.flatMap fun c => enc c.toNat := by
  intro k
  induction k with
  | zero =>
      intro b hb hl text
      cases b with
      | cons => simp at hl
      | nil =>
          cases text with
          | nil => simp [decodeWith]
          | cons c t => simp [decodeWith, hi.nonempty]
  | succ k ih =>
      intro b hb hl text
      cases b with
      | nil =>
          cases text with
          | nil => simp [decodeWith]
          | cons c t => simp [decodeWith, hi.nonempty]
      | cons x b =>
          rw [decodeWith]
          cases hf : first (x :: b) with
          | none =>
              simp only
              constructor
              · intro h; cases h
              · intro h
                cases text with
                | nil => simp at h
                | cons c t =>
                    rw [h, List.flatMap_cons, hi.there] at hf
                    cases hf
          | some r =>
              obtain ⟨n, rest⟩ := r
              simp only
              constructor
              · intro h
                split at h
                · rename_i hv
                  have hb' := hi.back _ hb n rest hf hv
                  cases hd : decodeWith first k rest with
                  | error e => rw [hd] at h; cases h
                  | ok t =>
                      rw [hd] at h
                      cases h
                      rw [hb', List.flatMap_cons, ofNat_toNat hv, ← (ih rest ?_ ?_ t).1 hd]
                      · intro y hy; exact hb y (by rw [hb']; simp [hy])
                      · have := congrArg List.length hb'
                        have h1 : 0 < (enc n).length := List.length_pos_iff.2 (hi.nonempty n)
                        simp only [List.length_append, List.length_cons] at this hl
                        omega
                · cases h
              · intro h
                cases text with
                | nil => simp at h
                | cons c t =>
                    have h1 : 0 < (enc c.toNat).length := List.length_pos_iff.2 (hi.nonempty _)
                    have hlen := congrArg List.length h
                    rw [List.flatMap_cons] at h hlen
                    rw [h, hi.there] at hf
                    simp only [Option.some.injEq, Prod.mk.injEq] at hf
                    obtain ⟨rfl, rfl⟩ := hf
                    rw [if_pos (toNat_valid c), (ih _ ?_ ?_ t).2 rfl]
                    · simp [Except.map]
                    · intro y hy; exact hb y (by rw [h]; exact List.mem_append_right _ hy)
                    · simp only [List.length_append, List.length_cons] at hlen hl
                      omega

/-! Characters of JSON texts. -/

theorem blanks_ge {cs : List Char} (h : Blanks cs) : ∀ c ∈ cs, 9 ≤ c.toNat := by
  intro c hc
  rcases h c hc with rfl | rfl | rfl | rfl <;> decide

theorem hex4_ge {cs : List Char} {n : Nat} (h : Hex4 cs n) : ∀ c ∈ cs, 9 ≤ c.toNat := by
  have key : ∀ e ∈ "0123456789abcdef".toList.zip (List.range 16) ++ "0123456789ABCDEF".toList.zip (List.range 16), 9 ≤ e.1.toNat := by
    decide +kernel
  have hx : ∀ c n, Hex c n → 9 ≤ c.toNat := fun c n h => key (c, n) (List.mem_append.2 h)
  obtain ⟨a, b, c, d, na, nb, nc, nd, rfl, ha, hb, hc, hd, _⟩ := h
  intro x hx'
  simp only [List.mem_cons, List.not_mem_nil, or_false] at hx'
  rcases hx' with rfl | rfl | rfl | rfl
  · exact hx _ _ ha
  · exact hx _ _ hb
  · exact hx _ _ hc
  · exact hx _ _ hd

theorem charWritten_ge {c : Char} {cs : List Char} (h : CharWritten c cs) : ∀ x ∈ cs, 9 ≤ x.toNat := by
  cases h with
  | plain h32 _ _ => intro x hx; rw [List.mem_singleton.1 hx]; omega
  | short e c he =>
      have key : ∀ e ∈ escapes, 9 ≤ e.1.toNat := by decide +kernel
      intro x hx
      simp only [List.mem_cons, List.not_mem_nil, or_false] at hx
      rcases hx with rfl | rfl
      · decide
      · exact key _ he
  | number _ cs h4 =>
      intro x hx
      simp only [List.mem_cons] at hx
      rcases hx with rfl | rfl | hx
      · decide
      · decide
      · exact hex4_ge h4 x hx
  | numbers _ cs ds hi lo h4 h4' _ _ _ =>
      intro x hx
      simp only [List.cons_append, List.mem_cons, List.mem_append] at hx
      rcases hx with rfl | rfl | hx | rfl | rfl | hx
      · decide
      · decide
      · exact hex4_ge h4 x hx
      · decide
      · decide
      · exact hex4_ge h4' x hx

theorem charsWritten_ge {s cs : List Char} (h : CharsWritten s cs) : ∀ x ∈ cs, 9 ≤ x.toNat := by
  induction h with
  | nil => simp
  | cons c cs s t hc _ ih =>
      intro x hx
      rcases List.mem_append.1 hx with hx | hx
      · exact charWritten_ge hc x hx
      · exact ih x hx

theorem stringWritten_ge {s : String} {cs : List Char} (h : StringWritten s cs) : ∀ x ∈ cs, 9 ≤ x.toNat := by
  obtain ⟨t, ht, rfl⟩ := h
  intro x hx
  simp only [List.cons_append, List.mem_cons, List.mem_append, List.not_mem_nil, or_false] at hx
  rcases hx with rfl | hx | rfl
  · decide
  · exact charsWritten_ge ht x hx
  · decide

theorem digits_ge {cs : List Char} (h : Digits cs) : ∀ c ∈ cs, 9 ≤ c.toNat := by
  have key : ∀ c ∈ "0123456789".toList, 9 ≤ c.toNat := by decide +kernel
  exact fun c hc => key c (h c hc)

theorem numberText_ge {cs : List Char} (h : NumberText cs) : ∀ c ∈ cs, 9 ≤ c.toNat := by
  obtain ⟨sign, int, frac, exp, rfl, hs, hi, hf, he⟩ := h
  intro c hc
  simp only [List.mem_append] at hc
  rcases hc with ((hc | hc) | hc) | hc
  · rcases hs with rfl | rfl
    · simp at hc
    · rw [List.mem_singleton.1 hc]; decide
  · rcases hi with rfl | ⟨d, ds, rfl, _, hd⟩
    · rw [List.mem_singleton.1 hc]; decide
    · exact digits_ge hd c hc
  · rcases hf with rfl | ⟨ds, _, hd, rfl⟩
    · simp at hc
    · rcases List.mem_cons.1 hc with rfl | hc
      · decide
      · exact digits_ge hd c hc
  · rcases he with rfl | ⟨e, s, ds, he, hs, _, hd, rfl⟩
    · simp at hc
    · rw [List.cons_append, List.mem_cons, List.mem_append] at hc
      rcases hc with rfl | hc | hc
      · rcases he with rfl | rfl <;> decide
      · rcases hs with rfl | rfl | rfl
        · simp at hc
        · rw [List.mem_singleton.1 hc]; decide
        · rw [List.mem_singleton.1 hc]; decide
      · exact digits_ge hd c hc

mutual
theorem written_ge {j : Json} {cs : List Char} (h : Written j cs) : ∀ c ∈ cs, 9 ≤ c.toNat := by
  cases h with
  | null => decide +kernel
  | true => decide +kernel
  | false => decide +kernel
  | num _ h => exact numberText_ge h
  | special t h =>
      have key : ∀ t ∈ ["NaN", "Infinity", "-Infinity"], ∀ c ∈ t.toList, 9 ≤ c.toNat := by decide +kernel
      exact key t h
  | str s _ h => exact stringWritten_ge h
  | arr0 a h =>
      intro c hc
      simp only [List.cons_append, List.mem_cons, List.mem_append, List.not_mem_nil, or_false] at hc
      rcases hc with rfl | hc | rfl
      · decide
      · exact blanks_ge h c hc
      · decide
  | arr l cs h =>
      have := elementsWritten_ge h
      intro c hc
      simp only [List.cons_append, List.mem_cons, List.mem_append, List.not_mem_nil, or_false] at hc
      rcases hc with rfl | hc | rfl
      · decide
      · exact this c hc
      · decide
  | obj0 a h =>
      intro c hc
      simp only [List.cons_append, List.mem_cons, List.mem_append, List.not_mem_nil, or_false] at hc
      rcases hc with rfl | hc | rfl
      · decide
      · exact blanks_ge h c hc
      · decide
  | obj l cs h =>
      have := membersWritten_ge h
      intro c hc
      simp only [List.cons_append, List.mem_cons, List.mem_append, List.not_mem_nil, or_false] at hc
      rcases hc with rfl | hc | rfl
      · decide
      · exact this c hc
      · decide
termination_by 2 * cs.length
decreasing_by all_goals simp; omega
theorem elementsWritten_ge {l : List Json} {cs : List Char} (h : ElementsWritten l cs) : ∀ c ∈ cs, 9 ≤ c.toNat := by
  cases h with
  | one v a cs b ha hv hb =>
      have := written_ge hv
      intro c hc
      simp only [List.mem_append] at hc
      rcases hc with (hc | hc) | hc
      · exact blanks_ge ha c hc
      · exact this c hc
      · exact blanks_ge hb c hc
  | more v a cs b l ds ha hv hb hl =>
      have := written_ge hv
      have := elementsWritten_ge hl
      intro c hc
      simp only [List.mem_append, List.mem_cons] at hc
      rcases hc with ((hc | hc) | hc) | rfl | hc
      · exact blanks_ge ha c hc
      · exact written_ge hv c hc
      · exact blanks_ge hb c hc
      · decide
      · exact this c hc
termination_by 2 * cs.length + 1
decreasing_by all_goals simp; omega
theorem membersWritten_ge {l : List (String × Json)} {cs : List Char} (h : MembersWritten l cs) : ∀ c ∈ cs, 9 ≤ c.toNat := by
  cases h with
  | one k v a ks a' b' cs b ha hk ha' hb' hv hb =>
      have := written_ge hv
      intro c hc
      simp only [List.mem_append, List.mem_cons] at hc
      rcases hc with ((((hc | hc) | hc) | rfl | hc) | hc) | hc
      · exact blanks_ge ha c hc
      · exact stringWritten_ge hk c hc
      · exact blanks_ge ha' c hc
      · decide
      · exact blanks_ge hb' c hc
      · exact this c hc
      · exact blanks_ge hb c hc
  | more k v a ks a' b' cs b l ds ha hk ha' hb' hv hb hl =>
      have h1 := written_ge hv
      have h2 := membersWritten_ge hl
      intro c hc
      simp only [List.mem_append, List.mem_cons] at hc
      rcases hc with (((((hc | hc) | hc) | rfl | hc) | hc) | hc) | rfl | hc
      · exact blanks_ge ha c hc
      · exact stringWritten_ge hk c hc
      · exact blanks_ge ha' c hc
      · decide
      · exact blanks_ge hb' c hc
      · exact h1 c hc
      · exact blanks_ge hb c hc
      · decide
      · exact h2 c hc
termination_by 2 * cs.length + 1
decreasing_by all_goals simp; omega
end

theorem writes_ge {text : List Char} {j : Json} (h : Writes text j) : ∀ c ∈ text, 9 ≤ c.toNat := by
  obtain ⟨a, cs, b, ha, hw, hb, rfl⟩ := h
  intro c hc
  simp only [List.mem_append] at hc
  rcases hc with (hc | hc) | hc
  · exact blanks_ge ha c hc
  · exact written_ge hw c hc
  · exact blanks_ge hb c hc

theorem written_head {j : Json} {cs : List Char} (h : Written j cs) : ∃ c t, cs = c :: t ∧ c.toNat < 128 := by
  cases h with
  | null => exact ⟨_, _, rfl, by decide⟩
  | true => exact ⟨_, _, rfl, by decide⟩
  | false => exact ⟨_, _, rfl, by decide⟩
  | num _ h =>
      obtain ⟨c, t, rfl, hc⟩ := Json.number_head h
      have key : ∀ c ∈ '-' :: "0123456789".toList, c.toNat < 128 := by decide +kernel
      exact ⟨c, t, rfl, key c (by rcases hc with rfl | hc; · simp
                                  · exact List.mem_cons_of_mem _ hc)⟩
  | special t h =>
      have key : ∀ t ∈ ["NaN", "Infinity", "-Infinity"], ∃ c ∈ t.toList.head?, c.toNat < 128 := by decide +kernel
      obtain ⟨c, hc, h128⟩ := key t h
      cases ht : t.toList with
      | nil => rw [ht] at hc; simp at hc
      | cons d l => rw [ht] at hc; simp at hc; subst hc; exact ⟨_, _, rfl, h128⟩
  | str s _ h => obtain ⟨t, _, rfl⟩ := h; exact ⟨_, _, rfl, by decide⟩
  | arr0 a h => exact ⟨_, _, rfl, by decide⟩
  | arr l cs h => exact ⟨_, _, rfl, by decide⟩
  | obj0 a h => exact ⟨_, _, rfl, by decide⟩
  | obj l cs h => exact ⟨_, _, rfl, by decide⟩

theorem writes_head {text : List Char} {j : Json} (h : Writes text j) : ∃ c t, text = c :: t ∧ c.toNat < 128 := by
  obtain ⟨a, cs, b, ha, hw, hb, rfl⟩ := h
  cases a with
  | nil =>
      obtain ⟨c, t, rfl, hc⟩ := written_head hw
      exact ⟨c, t ++ b, rfl, hc⟩
  | cons c a =>
      refine ⟨c, a ++ cs ++ b, rfl, ?_⟩
      rcases ha c (by simp) with rfl | rfl | rfl | rfl <;> decide

/-! The guess. -/

/-- The bytes of a text, as numbers. -/
def numbers (e : Encoding) (text : List Char) : List Nat := text.flatMap fun c => e.char c.toNat

theorem char_lt (e : Encoding) (n : Nat) (h : n < 0x110000) : ∀ x ∈ e.char n, x < 256 := by
  cases e with
  | utf8 =>
      simp only [Encoding.char, Spec.Encodings.utf8]
      repeat' split
      all_goals simp only [List.mem_cons, List.not_mem_nil, or_false, forall_eq_or_imp, forall_eq]; omega
  | utf16 o =>
      simp only [Encoding.char, Spec.Encodings.utf16, Spec.Encodings.two]
      cases o <;> split <;>
        simp only [Order.bytes, List.reverse_cons, List.reverse_nil, List.nil_append, List.cons_append, List.mem_cons, List.not_mem_nil, or_false,
          forall_eq_or_imp, forall_eq] <;> omega
  | utf32 o =>
      cases o <;>
        simp only [Encoding.char, Spec.Encodings.utf32, Order.bytes, List.reverse_cons, List.reverse_nil, List.nil_append, List.cons_append, List.mem_cons,
          List.not_mem_nil, or_false, forall_eq_or_imp, forall_eq] <;> omega

theorem numbers_lt (e : Encoding) (text : List Char) : ∀ x ∈ numbers e text, x < 256 := by
  intro x hx
  obtain ⟨c, _, hc⟩ := List.mem_flatMap.1 hx
  exact char_lt e _ (toNat_lt c).1 x hc

theorem map_toNat (l : List Nat) (h : ∀ x ∈ l, x < 256) : (l.map UInt8.ofNat).map UInt8.toNat = l := by
  rw [List.map_map]
  conv => rhs; rw [← List.map_id l]
  refine List.map_congr_left fun x hx => ?_
  simp only [Function.comp, id, UInt8.toNat_ofNat']
  have := h x hx
  omega

theorem map_ofNat (l : List UInt8) : (l.map UInt8.toNat).map UInt8.ofNat = l := by
  rw [List.map_map]
  conv => rhs; rw [← List.map_id l]
  exact List.map_congr_left fun x _ => by simp

theorem encode_numbers (e : Encoding) (text : List Char) : (e.encode text).map UInt8.toNat = numbers e text :=
  map_toNat _ (numbers_lt e text)

theorem eq_encode_iff (e : Encoding) (text : List Char) (bytes : List UInt8) :
    bytes = e.encode text ↔ bytes.map UInt8.toNat = numbers e text := by
  constructor
  · rintro rfl; exact encode_numbers e text
  · intro h
    rw [← map_ofNat bytes, h]
    rfl

theorem bytes_lt (bytes : List UInt8) : ∀ x ∈ bytes.map UInt8.toNat, x < 256 := by
  intro x hx
  obtain ⟨u, _, rfl⟩ := List.mem_map.1 hx
  exact u.toNat_lt

/-- The codec for an encoding without a mark. -/
def codecOf : Encoding → Codec
  | .utf8 => .utf8
  | .utf16 .big => .utf16be
  | .utf16 .little => .utf16le
  | .utf32 .big => .utf32be
  | .utf32 .little => .utf32le

/-- The codec for an encoding with a mark. -/
def markedOf : Encoding → Codec
  | .utf8 => .utf8sig
  | .utf16 _ => .utf16
  | .utf32 _ => .utf32

theorem decode_codecOf (e : Encoding) (b : List Nat) : decode (codecOf e) b = decodeWith (firstOf e) b.length b := by
  match e with
  | .utf8 => rfl
  | .utf16 .big => rfl
  | .utf16 .little => rfl
  | .utf32 .big => rfl
  | .utf32 .little => rfl

/-- The bytes of the mark. -/
def markBytes : Encoding → List Nat
  | .utf8 => [0xEF, 0xBB, 0xBF]
  | .utf16 .big => [0xFE, 0xFF]
  | .utf16 .little => [0xFF, 0xFE]
  | .utf32 .big => [0, 0, 0xFE, 0xFF]
  | .utf32 .little => [0xFF, 0xFE, 0, 0]

theorem numbers_mark (e : Encoding) (text : List Char) : numbers e (mark :: text) = markBytes e ++ numbers e text := by
  have h : e.char mark.toNat = markBytes e := by
    match e with
    | .utf8 => decide +kernel
    | .utf16 .big => decide +kernel
    | .utf16 .little => decide +kernel
    | .utf32 .big => decide +kernel
    | .utf32 .little => decide +kernel
  show e.char mark.toNat ++ _ = _
  rw [h]
  rfl

theorem decode_marked (e : Encoding) (b : List Nat) :
    decode (markedOf e) (markBytes e ++ b) = decodeWith (firstOf e) (markBytes e ++ b).length b := by
  match e with
  | .utf8 => rfl
  | .utf16 .big => rfl
  | .utf16 .little => rfl
  | .utf32 .big => rfl
  | .utf32 .little => rfl

theorem ascii_char (e : Encoding) (n : Nat) (h : n < 128) :
    e.char n = match e with
      | .utf8 => [n]
      | .utf16 .big => [0, n]
      | .utf16 .little => [n, 0]
      | .utf32 .big => [0, 0, 0, n]
      | .utf32 .little => [n, 0, 0, 0] := by
  have h1 : n / 256 = 0 := by omega
  have h2 : n % 256 = n := by omega
  match e with
  | .utf8 => simp [Encoding.char, Spec.Encodings.utf8, h]
  | .utf16 .big => simp [Encoding.char, Spec.Encodings.utf16, Spec.Encodings.two, Order.bytes, h1, h2, show n < 65536 by omega]
  | .utf16 .little => simp [Encoding.char, Spec.Encodings.utf16, Spec.Encodings.two, Order.bytes, h1, h2, show n < 65536 by omega]
  | .utf32 .big => simp [Encoding.char, Spec.Encodings.utf32, Order.bytes, h1, h2]
  | .utf32 .little => simp [Encoding.char, Spec.Encodings.utf32, Order.bytes, h1, h2]

theorem utf8_head (n : Nat) (h : n ≠ 0) : ∃ b l, Spec.Encodings.utf8 n = b :: l ∧ b ≠ 0 := by
  unfold Spec.Encodings.utf8
  split
  · exact ⟨_, _, rfl, h⟩
  split
  · exact ⟨_, _, rfl, by omega⟩
  split
  · exact ⟨_, _, rfl, by omega⟩
  · exact ⟨_, _, rfl, by omega⟩

theorem utf16_head (n : Nat) (h : n ≠ 0) : ∃ a b l, Spec.Encodings.utf16 .little n = a :: b :: l ∧ (a ≠ 0 ∨ b ≠ 0) := by
  unfold Spec.Encodings.utf16
  split
  · exact ⟨_, _, _, rfl, by omega⟩
  · exact ⟨_, _, _, rfl, by omega⟩

theorem detect_plain (e : Encoding) (c : Char) (t : List Char) (h9 : 9 ≤ c.toNat) (h128 : c.toNat < 128)
    (ht : ∀ d ∈ t, d.toNat ≠ 0) : detect (numbers e (c :: t)) = codecOf e := by
  have hc := ascii_char e c.toNat h128
  have hn : numbers e (c :: t) = e.char c.toNat ++ numbers e t := rfl
  have hz : c.toNat ≠ 0 := by omega
  have hF : c.toNat ≠ 0xFF := by omega
  have hE : c.toNat ≠ 0xFE := by omega
  have hEF : c.toNat ≠ 0xEF := by omega
  rw [hn, hc]
  match e with
  | .utf8 =>
      cases t with
      | nil => simp [numbers, detect, codecOf, List.isPrefixOf, hz, hF, hE, hEF, hz.symm, hF.symm, hE.symm, hEF.symm]
      | cons d t =>
          obtain ⟨b, l, hb, hb0⟩ := utf8_head d.toNat (ht d (by simp))
          have : numbers .utf8 (d :: t) = b :: (l ++ numbers .utf8 t) := by
            show Spec.Encodings.utf8 d.toNat ++ _ = _
            rw [hb]; rfl
          rw [this]
          generalize l ++ numbers .utf8 t = r
          match r with
          | [] => simp [detect, codecOf, List.isPrefixOf, hz, hb0, hz.symm, hF.symm, hE.symm, hEF.symm]
          | [x] => simp [detect, codecOf, List.isPrefixOf, hz.symm, hF.symm, hE.symm, hEF.symm]
          | x :: y :: r => simp [detect, codecOf, List.isPrefixOf, hz, hb0, hz.symm, hF.symm, hE.symm, hEF.symm]
  | .utf16 .big =>
      cases t with
      | nil => simp [numbers, detect, codecOf, List.isPrefixOf, hz.symm]
      | cons d t =>
          obtain ⟨x, y, hxy, _⟩ := two_eq .big d.toNat
          obtain ⟨x', y', hxy', _⟩ := two_eq .big (0xD800 + (d.toNat - 0x10000) / 1024)
          have : ∃ x y r, numbers (.utf16 .big) (d :: t) = x :: y :: r := by
            show ∃ x y r, Spec.Encodings.utf16 .big d.toNat ++ _ = x :: y :: r
            unfold Spec.Encodings.utf16
            split
            · rw [hxy]; exact ⟨_, _, _, rfl⟩
            · rw [hxy']; exact ⟨_, _, _, rfl⟩
          obtain ⟨x, y, r, hr⟩ := this
          rw [hr]
          simp [detect, codecOf, List.isPrefixOf, hz, hz.symm]
  | .utf16 .little =>
      cases t with
      | nil => simp [numbers, detect, codecOf, List.isPrefixOf, hz, hz.symm, hF.symm, hE.symm, hEF.symm]
      | cons d t =>
          obtain ⟨a, b, l, hab, h0⟩ := utf16_head d.toNat (ht d (by simp))
          have : numbers (.utf16 .little) (d :: t) = a :: b :: (l ++ numbers (.utf16 .little) t) := by
            show Spec.Encodings.utf16 .little d.toNat ++ _ = _
            rw [hab]; rfl
          rw [this]
          have h0' : ¬ (a = 0 ∧ b = 0) := by omega
          have h0'' : a = 0 → ¬ b = 0 := by omega
          simp [detect, codecOf, List.isPrefixOf, hz, hz.symm, hF.symm, hE.symm, hEF.symm]
          exact h0''
  | .utf32 .big => simp [detect, codecOf, List.isPrefixOf]
  | .utf32 .little => simp [detect, codecOf, List.isPrefixOf, hz, hz.symm, hF.symm, hE.symm, hEF.symm]

theorem detect_marked (e : Encoding) (c : Char) (t : List Char) (h9 : 9 ≤ c.toNat) (h128 : c.toNat < 128) :
    detect (numbers e (mark :: c :: t)) = markedOf e := by
  have hc := ascii_char e c.toNat h128
  have hn : numbers e (c :: t) = e.char c.toNat ++ numbers e t := rfl
  have hz : c.toNat ≠ 0 := by omega
  rw [numbers_mark, hn, hc]
  match e with
  | .utf8 => simp [detect, markBytes, markedOf, List.isPrefixOf]
  | .utf16 .big => simp [detect, markBytes, markedOf, List.isPrefixOf]
  | .utf16 .little => simp [detect, markBytes, markedOf, List.isPrefixOf, hz.symm]
  | .utf32 .big => simp [detect, markBytes, markedOf, List.isPrefixOf]
  | .utf32 .little => simp [detect, markBytes, markedOf, List.isPrefixOf]

theorem isPrefix_append {p b : List Nat} (h : p.isPrefixOf b = true) : ∃ r, b = p ++ r := by
  obtain ⟨r, hr⟩ := List.isPrefixOf_iff_prefix.1 h
  exact ⟨r, hr.symm⟩

/-- A text that was decoded is what the bytes are an encoding of. -/
theorem decode_sound {b : List Nat} (hb : ∀ x ∈ b, x < 256) {text : List Char} (h : decode (detect b) b = .ok text) :
    ∃ e, b = numbers e text ∨ b = numbers e (mark :: text) := by
  have plain : ∀ e, detect b = codecOf e → ∃ e, b = numbers e text ∨ b = numbers e (mark :: text) := by
    intro e he
    rw [he, decode_codecOf] at h
    exact ⟨e, .inl ((decodeWith_iff (inverse e) _ b hb (Nat.le_refl _) text).1 h)⟩
  have marked : ∀ e r, detect b = markedOf e → b = markBytes e ++ r → ∃ e, b = numbers e text ∨ b = numbers e (mark :: text) := by
    rintro e r he rfl
    rw [he, decode_marked] at h
    refine ⟨e, .inr ?_⟩
    rw [numbers_mark, (decodeWith_iff (inverse e) _ r (fun x hx => hb x (List.mem_append_right _ hx)) (by simp) text).1 h]
    rfl
  have hd : detect b = detect b := rfl
  conv at hd => rhs; unfold detect
  split at hd
  · rename_i hp
    rcases Bool.or_eq_true_iff.1 hp with hp | hp
    · obtain ⟨r, hr⟩ := isPrefix_append hp; exact marked (.utf32 .big) r hd hr
    · obtain ⟨r, hr⟩ := isPrefix_append hp; exact marked (.utf32 .little) r hd hr
  split at hd
  · rename_i hp
    rcases Bool.or_eq_true_iff.1 hp with hp | hp
    · obtain ⟨r, hr⟩ := isPrefix_append hp; exact marked (.utf16 .big) r hd hr
    · obtain ⟨r, hr⟩ := isPrefix_append hp; exact marked (.utf16 .little) r hd hr
  split at hd
  · rename_i hp
    obtain ⟨r, hr⟩ := isPrefix_append hp; exact marked .utf8 r hd hr
  split at hd
  · split at hd
    · split at hd
      · exact plain (.utf16 .big) hd
      · exact plain (.utf32 .big) hd
    · split at hd
      · split at hd
        · exact plain (.utf16 .little) hd
        · exact plain (.utf32 .little) hd
      · exact plain .utf8 hd
  · split at hd
    · exact plain (.utf16 .big) hd
    · split at hd
      · exact plain (.utf16 .little) hd
      · exact plain .utf8 hd
  · exact plain .utf8 hd

/-- JSON texts are decoded. -/
theorem decode_complete {text : List Char} {j : Json} (h : Writes text j) (e : Encoding) :
    decode (detect (numbers e text)) (numbers e text) = .ok text ∧
    decode (detect (numbers e (mark :: text))) (numbers e (mark :: text)) = .ok text := by
  have h9 := writes_ge h
  obtain ⟨c, t, rfl, h128⟩ := writes_head h
  have hc := h9 c (by simp)
  constructor
  · rw [detect_plain e c t hc h128 (fun d hd => by have := h9 d (by simp [hd]); omega), decode_codecOf]
    exact (decodeWith_iff (inverse e) _ _ (numbers_lt e _) (Nat.le_refl _) _).2 rfl
  · rw [detect_marked e c t hc h128, numbers_mark, decode_marked]
    exact (decodeWith_iff (inverse e) _ _ (numbers_lt e _) (by simp) _).2 rfl

theorem loads_iff (bytes : List UInt8) (j : Json) : loads bytes = .ok j ↔ Holds bytes j := by
  constructor
  · intro h
    unfold loads at h
    cases hd : decode (detect (bytes.map UInt8.toNat)) (bytes.map UInt8.toNat) with
    | error e => simp only [hd] at h; cases h
    | ok text =>
        simp only [hd, bind, Except.bind] at h
        split at h
        · rename_i j' hj
          cases h
          obtain ⟨e, he⟩ := decode_sound (bytes_lt bytes) hd
          refine ⟨e, text, (Json.loads_iff _ _).1 hj, ?_⟩
          simp only [eq_encode_iff]
          exact he
        · cases h
  · rintro ⟨e, text, hw, h⟩
    have hd := decode_complete hw e
    simp only [eq_encode_iff] at h
    unfold loads
    rcases h with h | h
    · simp only [h, hd.1, bind, Except.bind, (Json.loads_iff _ _).2 hw]
    · simp only [h, hd.2, bind, Except.bind, (Json.loads_iff _ _).2 hw]

/-- A text in UTF-8 without null characters and without a mark is decoded, whatever it is. -/
theorem decode_utf8 (text : List Char) (h0 : ∀ c ∈ text, c.toNat ≠ 0) (hm : text.head? ≠ some mark) :
    decode (detect (numbers .utf8 text)) (numbers .utf8 text) = .ok text := by
  have hd : detect (numbers .utf8 text) = .utf8 := by
    cases text with
    | nil => rfl
    | cons c t =>
        have hf : first8 (numbers .utf8 (c :: t)) = some (c.toNat, numbers .utf8 t) := (inverse .utf8).there c _
        obtain ⟨x, l, hx, hx0⟩ := utf8_head c.toNat (h0 c (by simp))
        have hn : numbers .utf8 (c :: t) = x :: (l ++ numbers .utf8 t) := by
          show Spec.Encodings.utf8 c.toNat ++ _ = _
          rw [hx]; rfl
        have hx8 : x < 0xF8 := by
          rcases Nat.lt_or_ge x 0xF8 with h | h
          · exact h
          · rw [hn] at hf
            unfold first8 at hf
            dsimp only at hf
            rw [if_neg (by omega), if_neg (by omega), if_neg (by omega), if_neg (by omega), if_neg (by omega)] at hf
            cases hf
        have hsig : [0xEF, 0xBB, 0xBF].isPrefixOf (numbers .utf8 (c :: t)) = false := by
          rw [Bool.eq_false_iff]
          intro hp
          obtain ⟨r, hr⟩ := isPrefix_append hp
          rw [hr, show [0xEF, 0xBB, 0xBF] = Spec.Encodings.utf8 0xFEFF by decide +kernel, first8_utf8 _ (by decide)] at hf
          simp only [Option.some.injEq, Prod.mk.injEq] at hf
          refine hm ?_
          rw [List.head?_cons, Option.some.injEq, mark, hf.1, Char.ofNat_toNat]
        have hsecond : ∀ y r, l ++ numbers .utf8 t = y :: r → x < 0x80 → y ≠ 0 := by
          intro y r hy h80
          have hl : l = [] := by
            rcases Nat.lt_or_ge c.toNat 0x80 with h | h
            · have := ascii_char .utf8 c.toNat h
              simp only [Encoding.char] at this
              rw [hx] at this
              simp only [List.cons.injEq] at this
              exact this.2
            · exfalso
              unfold Spec.Encodings.utf8 at hx
              rw [if_neg (by omega)] at hx
              split at hx
              · simp only [List.cons.injEq] at hx; omega
              split at hx
              · simp only [List.cons.injEq] at hx; omega
              · simp only [List.cons.injEq] at hx; omega
          rw [hl, List.nil_append] at hy
          cases t with
          | nil => cases hy
          | cons d t =>
              obtain ⟨z, l', hz, hz0⟩ := utf8_head d.toNat (h0 d (by simp))
              have : numbers .utf8 (d :: t) = z :: (l' ++ numbers .utf8 t) := by
                show Spec.Encodings.utf8 d.toNat ++ _ = _
                rw [hz]; rfl
              rw [this] at hy
              cases hy
              exact hz0
        have hsecond' : ∀ y r, l ++ numbers .utf8 t = y :: r → y ≠ 0 := by
          intro y r hy
          rcases Nat.lt_or_ge x 0x80 with h | h
          · exact hsecond y r hy h
          · rintro rfl
            rw [hn, hy] at hf
            unfold first8 at hf
            dsimp only at hf
            rw [if_neg (by omega)] at hf
            split at hf
            · cases hf
            split at hf
            · simp [isNext] at hf
            split at hf
            · cases r with
              | nil => cases hf
              | cons => simp [isNext] at hf
            · match r with
              | [] => cases hf
              | [_] => cases hf
              | _ :: _ :: _ => simp [isNext] at hf
        rw [hn] at hsig ⊢
        unfold detect
        have e1 : (255 == x) = false := by simp; omega
        have e2 : (254 == x) = false := by simp; omega
        have e3 : (0 == x) = false := by simp; omega
        rw [hsig]
        simp only [List.isPrefixOf, e1, e2, e3, Bool.false_and, Bool.or_self, Bool.false_eq_true, if_false]
        revert hsecond'
        generalize l ++ numbers .utf8 t = r
        intro hs
        match r with
        | [] => rfl
        | [y] => simp [hx0, hs y [] rfl]
        | [y, z] => rfl
        | y :: z :: w :: r => simp [hx0, hs y _ rfl]
  rw [hd]
  exact (decodeWith_iff (inverse .utf8) _ _ (numbers_lt .utf8 _) (Nat.le_refl _) _).2 rfl

theorem loads_utf8 (text : List Char) (h0 : ∀ c ∈ text, c.toNat ≠ 0) (hm : text.head? ≠ some mark) :
    loads (Encoding.utf8.encode text) =
      match Json.loads text with
      | some j => .ok j
      | none => .error (.valueError "JSONDecodeError") := by
  unfold loads
  simp only [encode_numbers, decode_utf8 text h0 hm, bind, Except.bind]
  cases Json.loads text <;> rfl

theorem decodeWith_error {first : List Nat → Option (Nat × List Nat)} {e : PyErr} : ∀ (k : Nat) (b : List Nat), decodeWith first k b = .error e →
    e = .valueError "UnicodeDecodeError" ∨ e = .outsideModel := by
  intro k
  induction k with
  | zero =>
      intro b h
      cases b <;> cases h
      exact .inl rfl
  | succ k ih =>
      intro b h
      cases b with
      | nil => cases h
      | cons x b =>
          rw [decodeWith] at h
          split at h
          · cases h; exact .inl rfl
          · split at h
            · rename_i n rest _ _
              cases hd : decodeWith first k rest with
              | error e' => rw [hd] at h; cases h; exact ih rest hd
              | ok t => rw [hd] at h; cases h
            · cases h; exact .inr rfl

theorem loads_error {bytes : List UInt8} {e : PyErr} (h : loads bytes = .error e) :
    e ∈ [PyErr.valueError "UnicodeDecodeError", .valueError "JSONDecodeError", .outsideModel] := by
  unfold loads at h
  cases hd : decode (detect (bytes.map UInt8.toNat)) (bytes.map UInt8.toNat) with
  | error e' =>
      simp only [hd] at h
      cases h
      have : e = .valueError "UnicodeDecodeError" ∨ e = .outsideModel := by
        unfold decode at hd
        split at hd <;> exact decodeWith_error _ _ hd
      rcases this with rfl | rfl <;> simp
  | ok text =>
      simp only [hd, bind, Except.bind] at h
      split at h
      · cases h
      · cases h; simp

end PashAnn.Bytes
