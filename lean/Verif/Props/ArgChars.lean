import Verif.Spec.ArgChars

/-! Property C52: formatting of shell words. -/

namespace PashAnn
open Spec

theorem pyChr_ok (n : Int) : (∃ c, pyChr n = .ok c) ↔ CharCode n := by
  unfold pyChr CharCode
  constructor
  · rintro ⟨c, h⟩
    split at h
    · cases h
    · rename_i hr
      split at h
      · rename_i hv; exact ⟨by omega, hv⟩
      · cases h
  · rintro ⟨h0, hv⟩
    have : ¬ (n < 0 ∨ 0x110000 ≤ n) := by
      rcases hv with hv | ⟨_, hv⟩ <;> omega
    rw [if_neg this, dif_pos hv]
    exact ⟨_, rfl⟩

/-- C52. `format_arg_chars` returns exactly on words built from the known kinds. -/
theorem C52_defined (l : List ArgChar) : (∃ s, formatArgChars l = .ok s) ↔ KnownAll l := by
  suffices (∀ x : ArgChar, (∃ s, formatArgChar x = .ok s) ↔ Known x) ∧
      ∀ l : List ArgChar, (∃ s, formatArgChars l = .ok s) ↔ KnownAll l from this.2 l
  have cons : ∀ (x : ArgChar) (l : List ArgChar), ((∃ s, formatArgChar x = .ok s) ↔ Known x) →
      ((∃ s, formatArgChars l = .ok s) ↔ KnownAll l) → ((∃ s, formatArgChars (x :: l) = .ok s) ↔ KnownAll (x :: l)) := by
    intro x l hx hl
    constructor
    · rintro ⟨s, h⟩
      rw [formatArgChars] at h
      cases h1 : formatArgChar x with
      | error e => rw [h1] at h; cases h
      | ok r =>
          rw [h1] at h
          cases h2 : formatArgChars l with
          | error e => rw [h2] at h; cases h
          | ok rs => exact .cons (hx.1 ⟨r, h1⟩) (hl.1 ⟨rs, h2⟩)
    · intro h
      cases h with
      | cons h1 h2 =>
          obtain ⟨r, h1⟩ := hx.2 h1
          obtain ⟨rs, h2⟩ := hl.2 h2
          exact ⟨r ++ rs, by rw [formatArgChars, h1, h2]; rfl⟩
  have single : ∀ x : ArgChar, (∀ l, x = .Q l → ((∃ s, formatArgChars l = .ok s) ↔ KnownAll l)) →
      ((∃ s, formatArgChar x = .ok s) ↔ Known x) := by
    intro x hq
    cases x with
    | C n =>
        constructor
        · rintro ⟨s, h⟩
          rw [formatArgChar] at h
          cases h1 : pyChr n with
          | error e => rw [h1] at h; cases h
          | ok c => exact .C ((pyChr_ok n).1 ⟨c, h1⟩)
        · intro h; cases h with
          | C h =>
              obtain ⟨c, hc⟩ := (pyChr_ok n).2 h
              exact ⟨[c], by rw [formatArgChar, hc]; rfl⟩
    | E n =>
        constructor
        · rintro ⟨s, h⟩
          rw [formatArgChar] at h
          cases h1 : pyChr n with
          | error e => rw [h1] at h; cases h
          | ok c => exact .E ((pyChr_ok n).1 ⟨c, h1⟩)
        · intro h; cases h with
          | E h =>
              obtain ⟨c, hc⟩ := (pyChr_ok n).2 h
              exact ⟨[c], by rw [formatArgChar, hc]; rfl⟩
    | B s => exact ⟨fun _ => .B s, fun _ => ⟨_, by rw [formatArgChar]⟩⟩
    | V fields =>
        constructor
        · rintro ⟨s, h⟩
          rw [formatArgChar] at h
          by_cases hlen : 3 ≤ fields.length
          · exact .V hlen
          · rw [List.getElem?_eq_none (by omega)] at h; cases h
        · intro h; cases h with
          | V h => exact ⟨_, by rw [formatArgChar, List.getElem?_eq_getElem (by omega)]⟩
    | Q l =>
        constructor
        · rintro ⟨s, h⟩
          rw [formatArgChar] at h
          cases h1 : formatArgChars l with
          | error e => rw [h1] at h; cases h
          | ok r => exact .Q ((hq l rfl).1 ⟨r, h1⟩)
        · intro h; cases h with
          | Q h =>
              obtain ⟨r, hr⟩ := (hq l rfl).2 h
              exact ⟨_, by rw [formatArgChar, hr]; rfl⟩
    | other k =>
        constructor
        · rintro ⟨s, h⟩; rw [formatArgChar] at h; cases h
        · intro h; cases h
  have nil : (∃ s, formatArgChars [] = .ok s) ↔ KnownAll [] := ⟨fun _ => .nil, fun _ => ⟨[], by rw [formatArgChars]⟩⟩
  have all : ∀ x : ArgChar, (∃ s, formatArgChar x = .ok s) ↔ Known x := by
    intro x
    induction x using ArgChar.rec (motive_2 := fun l => (∃ s, formatArgChars l = .ok s) ↔ KnownAll l) with
    | C n => exact single _ (fun l h => by cases h)
    | B n => exact single _ (fun l h => by cases h)
    | V n => exact single _ (fun l h => by cases h)
    | E n => exact single _ (fun l h => by cases h)
    | other n => exact single _ (fun l h => by cases h)
    | Q l ih => exact single _ (fun l h => by cases h; exact ih)
    | nil => exact nil
    | cons x l ihx ihl => exact cons x l ihx ihl
  refine ⟨all, fun l => ?_⟩
  induction l with
  | nil => exact nil
  | cons x l ih => exact cons x l (all x) ih

/-- C52. A key other than the five is reported as not implemented, if nothing before it fails. -/
theorem C52_unknown (l r : List ArgChar) (k : String) (h : KnownAll l) :
    formatArgChars (l ++ .other k :: r) = .error .notImplementedError := by
  induction l with
  | nil => rw [List.nil_append, formatArgChars, formatArgChar]; rfl
  | cons x l ih =>
      have h' := h
      cases h with
      | cons h1 h2 =>
          obtain ⟨s, hs⟩ := (C52_defined (x :: l)).2 h'
          rw [List.cons_append, formatArgChars, ih h2]
          rw [formatArgChars] at hs
          cases hx : formatArgChar x with
          | error e => rw [hx] at hs; cases hs
          | ok r => rfl

/-- C52. Formatting is compositional under concatenation. -/
theorem C52_append (l r : List ArgChar) : formatArgChars (l ++ r) = (do
    let a ← formatArgChars l
    let b ← formatArgChars r
    .ok (a ++ b)) := by
  induction l with
  | nil =>
      rw [List.nil_append, formatArgChars]
      cases formatArgChars r <;> rfl
  | cons x l ih =>
      rw [List.cons_append, formatArgChars, formatArgChars, ih]
      cases formatArgChar x with
      | error e => rfl
      | ok a =>
          cases formatArgChars l with
          | error e => rfl
          | ok b =>
              cases formatArgChars r with
              | error e => rfl
              | ok c =>
                  show Except.ok (a ++ (b ++ c)) = Except.ok (a ++ b ++ c)
                  rw [List.append_assoc]

example : formatArgChars [.C 97, .Q [.V ["Normal", "false", "x"], .C 32], .B "ls"] = .ok "a\"${x} \"$(ls)".toList := by
  decide +kernel

/-- C52's last part is false: an escaped and a plain character, and a quotation and two literal quote characters,
have the same text. -/
theorem C52_injective_false (n : Int) (l : List ArgChar) :
    formatArgChars [.E n] = formatArgChars [.C n] ∧
    formatArgChars [.Q l] = formatArgChars (.C 34 :: l ++ [.C 34]) ∧
    ArgChar.E n ≠ ArgChar.C n := by
  refine ⟨by simp only [formatArgChars, formatArgChar], ?_, by simp⟩
  have h34 : pyChr 34 = .ok '"' := by decide
  rw [List.cons_append, formatArgChars, formatArgChar, formatArgChars, formatArgChars, formatArgChar, h34, C52_append,
    formatArgChars, formatArgChar, h34, formatArgChars]
  cases formatArgChars l with
  | error e => rfl
  | ok r =>
      show Except.ok ('"' :: r ++ ['"'] ++ []) = Except.ok (['"'] ++ (r ++ (['"'] ++ [])))
      simp

/-- Texts up to a delimiter they do not contain are determined. -/
theorem until_inj {α : Type} {d : α} {u v r s : List α} (hu : d ∉ u) (hv : d ∉ v) (h : u ++ d :: r = v ++ d :: s) :
    u = v ∧ r = s := by
  induction u generalizing v with
  | nil =>
      cases v with
      | nil => simpa using h
      | cons b v =>
          simp only [List.nil_append, List.cons_append, List.cons.injEq] at h
          exact absurd h.1 (fun he => hv (by simp [he]))
  | cons a u ih =>
      cases v with
      | nil =>
          simp only [List.nil_append, List.cons_append, List.cons.injEq] at h
          exact absurd h.1.symm (fun he => hu (by simp [he]))
      | cons b v =>
          simp only [List.cons_append, List.cons.injEq] at h
          obtain ⟨rfl, h⟩ := h
          obtain ⟨rfl, h'⟩ := ih (fun hm => hu (by simp [hm])) (fun hm => hv (by simp [hm])) h
          exact ⟨rfl, h'⟩

theorem pyChr_toNat (c : Char) : pyChr c.toNat = .ok c := by
  have hv : (c.toNat : Int).toNat.isValidChar := c.valid
  unfold pyChr
  have : ¬ ((c.toNat : Int) < 0 ∨ 0x110000 ≤ (c.toNat : Int)) := by
    rcases hv with hv | ⟨_, hv⟩ <;> simp at hv <;> omega
  rw [if_neg this, dif_pos hv]
  congr 1

/-- The text of an unambiguous argument character, by cases. -/
theorem unambiguous_text {x : ArgChar} (h : Unambiguous x) :
    (∃ c, x = .C (Char.toNat c) ∧ c ≠ '$' ∧ c ≠ '"' ∧ formatArgChar x = .ok [c]) ∨
    (∃ s, x = .B s ∧ ')' ∉ s.toList ∧ '"' ∉ s.toList ∧ formatArgChar x = .ok ('$' :: '(' :: s.toList ++ [')'])) ∨
    (∃ s, x = .V ["Normal", "false", s] ∧ '}' ∉ s.toList ∧ '"' ∉ s.toList ∧
      formatArgChar x = .ok ('$' :: '{' :: s.toList ++ ['}'])) := by
  cases x with
  | C n =>
      obtain ⟨c, rfl, h1, h2⟩ := h
      exact .inl ⟨c, rfl, h1, h2, by rw [formatArgChar, pyChr_toNat]; rfl⟩
  | B s => exact .inr (.inl ⟨s, rfl, h.1, h.2, by rw [formatArgChar]⟩)
  | V l =>
      obtain ⟨s, rfl, h1, h2⟩ := h
      exact .inr (.inr ⟨s, rfl, h1, h2, by rw [formatArgChar]; rfl⟩)
  | Q l => exact h.elim
  | E n => exact h.elim
  | other k => exact h.elim

/-- Texts of unambiguous argument characters contain no quote and are not empty. -/
theorem unambiguous_noquote {x : ArgChar} (h : Unambiguous x) : ∃ t, formatArgChar x = .ok t ∧ '"' ∉ t ∧ t ≠ [] := by
  rcases unambiguous_text h with ⟨c, _, _, h2, ht⟩ | ⟨s, _, _, h2, ht⟩ | ⟨s, _, _, h2, ht⟩
  · exact ⟨_, ht, by simp [Ne.symm h2], by simp⟩
  · exact ⟨_, ht, by simpa using h2, by simp⟩
  · exact ⟨_, ht, by simpa using h2, by simp⟩

/-- They form a prefix code. -/
theorem unambiguous_prefix {x y : ArgChar} (hx : Unambiguous x) (hy : Unambiguous y) {t u r s : List Char}
    (ht : formatArgChar x = .ok t) (hu : formatArgChar y = .ok u) (h : t ++ r = u ++ s) : x = y ∧ r = s := by
  rcases unambiguous_text hx with ⟨c, rfl, c1, c2, hc⟩ | ⟨b, rfl, b1, b2, hc⟩ | ⟨b, rfl, b1, b2, hc⟩ <;>
  rcases unambiguous_text hy with ⟨c', rfl, c1', c2', hc'⟩ | ⟨b', rfl, b1', b2', hc'⟩ | ⟨b', rfl, b1', b2', hc'⟩ <;>
  rw [hc] at ht <;> rw [hc'] at hu <;> cases ht <;> cases hu
  · simp only [List.cons_append, List.nil_append, List.cons.injEq] at h
    obtain ⟨rfl, rfl⟩ := h; exact ⟨rfl, rfl⟩
  · simp only [List.cons_append, List.nil_append, List.cons.injEq] at h
    exact absurd h.1 c1
  · simp only [List.cons_append, List.nil_append, List.cons.injEq] at h
    exact absurd h.1 c1
  · simp only [List.cons_append, List.nil_append, List.cons.injEq] at h
    exact absurd h.1.symm c1'
  · simp only [List.cons_append, List.append_assoc, List.nil_append, List.cons.injEq, true_and] at h
    obtain ⟨h1, h2⟩ := until_inj b1 b1' h
    exact ⟨by rw [String.toList_inj.1 h1], h2⟩
  · simp [List.cons.injEq] at h
  · simp only [List.cons_append, List.nil_append, List.cons.injEq] at h
    exact absurd h.1.symm c1'
  · simp [List.cons.injEq] at h
  · simp only [List.cons_append, List.append_assoc, List.nil_append, List.cons.injEq, true_and] at h
    obtain ⟨h1, h2⟩ := until_inj b1 b1' h
    exact ⟨by rw [String.toList_inj.1 h1], h2⟩

theorem formatArgChars_cons {x : ArgChar} {l : List ArgChar} {s : List Char} (h : formatArgChars (x :: l) = .ok s) :
    ∃ a b, formatArgChar x = .ok a ∧ formatArgChars l = .ok b ∧ s = a ++ b := by
  rw [formatArgChars] at h
  cases h1 : formatArgChar x with
  | error e => rw [h1] at h; cases h
  | ok a =>
      rw [h1] at h
      cases h2 : formatArgChars l with
      | error e => rw [h2] at h; cases h
      | ok b => rw [h2] at h; cases h; exact ⟨a, b, rfl, rfl, rfl⟩

/-- A prefix code with non-empty texts is uniquely readable. -/
theorem code_inj (P : ArgChar → Prop) (hne : ∀ x t, P x → formatArgChar x = .ok t → t ≠ [])
    (hpre : ∀ x y t u r s, P x → P y → formatArgChar x = .ok t → formatArgChar y = .ok u → t ++ r = u ++ s →
      x = y ∧ r = s) (l m : List ArgChar) (hl : ∀ x ∈ l, P x) (hm : ∀ x ∈ m, P x) (s : List Char)
    (h1 : formatArgChars l = .ok s) (h2 : formatArgChars m = .ok s) : l = m := by
  induction l generalizing m s with
  | nil =>
      rw [formatArgChars] at h1; cases h1
      cases m with
      | nil => rfl
      | cons y m =>
          obtain ⟨a, b, ha, _, he⟩ := formatArgChars_cons h2
          have := hne y a (hm y (by simp)) ha
          rw [eq_comm, List.append_eq_nil_iff] at he
          exact absurd he.1 this
  | cons x l ih =>
      obtain ⟨a, b, ha, hb, rfl⟩ := formatArgChars_cons h1
      cases m with
      | nil =>
          rw [formatArgChars] at h2
          have he := (Except.ok.inj h2).symm
          rw [List.append_eq_nil_iff] at he
          exact absurd he.1 (hne x a (hl x (by simp)) ha)
      | cons y m =>
          obtain ⟨c, d, hc, hd, he⟩ := formatArgChars_cons h2
          obtain ⟨rfl, rfl⟩ := hpre x y a c b d (hl x (by simp)) (hm y (by simp)) ha hc he
          rw [ih m (fun z hz => hl z (by simp [hz])) (fun z hz => hm z (by simp [hz])) b hb hd]

theorem unambiguous_list {q : List ArgChar} (h : ∀ y ∈ q, Unambiguous y) : ∃ t, formatArgChars q = .ok t ∧ '"' ∉ t := by
  induction q with
  | nil => exact ⟨[], by rw [formatArgChars], by simp⟩
  | cons x q ih =>
      obtain ⟨t, ht, hq⟩ := ih (fun y hy => h y (by simp [hy]))
      obtain ⟨a, ha, haq, _⟩ := unambiguous_noquote (h x (by simp))
      exact ⟨a ++ t, by rw [formatArgChars, ha, ht]; rfl, by simp [haq, hq]⟩

/-- C52, the part that holds: different unambiguous words give different texts. -/
theorem C52_injective_partial (l m : List ArgChar) (hl : UnambiguousWord l) (hm : UnambiguousWord m)
    (h : formatArgChars l = formatArgChars m) : l = m := by
  have inner : ∀ q q' : List ArgChar, (∀ y ∈ q, Unambiguous y) → (∀ y ∈ q', Unambiguous y) → ∀ t,
      formatArgChars q = .ok t → formatArgChars q' = .ok t → q = q' := by
    intro q q' hq hq' t h1 h2
    exact code_inj Unambiguous (fun x t hx ht => by
      obtain ⟨t', ht', _, hn⟩ := unambiguous_noquote hx
      rw [ht] at ht'; cases ht'; exact hn)
      (fun x y t u r s hx hy ht hu he => unambiguous_prefix hx hy ht hu he) q q' hq hq' t h1 h2
  have quoteText : ∀ q : List ArgChar, (∀ y ∈ q, Unambiguous y) → ∃ t, formatArgChars q = .ok t ∧ '"' ∉ t ∧
      formatArgChar (.Q q) = .ok ('"' :: t ++ ['"']) := by
    intro q hq
    obtain ⟨t, ht, hn⟩ := unambiguous_list hq
    exact ⟨t, ht, hn, by rw [formatArgChar, ht]; rfl⟩
  have known : ∀ l : List ArgChar, UnambiguousWord l → ∃ s, formatArgChars l = .ok s := by
    intro l hl
    induction l with
    | nil => exact ⟨[], by rw [formatArgChars]⟩
    | cons x l ih =>
        obtain ⟨s, hs⟩ := ih (fun y hy => hl y (by simp [hy]))
        rcases hl x (by simp) with hx | ⟨q, rfl, hq⟩
        · obtain ⟨a, ha, _⟩ := unambiguous_noquote hx
          exact ⟨a ++ s, by rw [formatArgChars, ha, hs]; rfl⟩
        · obtain ⟨t, _, _, hq⟩ := quoteText q hq
          exact ⟨_, by rw [formatArgChars, hq, hs]; rfl⟩
  -- a character other than a quotation does not start with a quote
  have start : ∀ x t r, Unambiguous x → formatArgChar x = .ok t → ∀ s, t ++ r ≠ '"' :: s := by
    intro x t r hx ht s he
    obtain ⟨t', ht', hq, hn⟩ := unambiguous_noquote hx
    rw [ht] at ht'; cases ht'
    cases t with
    | nil => exact hn rfl
    | cons c t =>
        simp only [List.cons_append, List.cons.injEq] at he
        exact hq (by simp [he.1])
  obtain ⟨s, hs⟩ := known l hl
  refine code_inj (fun x => Unambiguous x ∨ ∃ q, x = .Q q ∧ ∀ y ∈ q, Unambiguous y) ?_ ?_ l m hl hm s hs (h ▸ hs)
  · rintro x t (hx | ⟨q, rfl, hq⟩) ht
    · obtain ⟨t', ht', _, hn⟩ := unambiguous_noquote hx
      rw [ht] at ht'; cases ht'; exact hn
    · obtain ⟨t', _, _, hq'⟩ := quoteText q hq
      rw [ht] at hq'; cases hq'; simp
  · rintro x y t u r s (hx | ⟨q, rfl, hq⟩) (hy | ⟨q', rfl, hq'⟩) ht hu he
    · exact unambiguous_prefix hx hy ht hu he
    · obtain ⟨t', _, _, hq'⟩ := quoteText q' hq'
      rw [hu] at hq'; cases hq'
      exact absurd he (by rw [List.cons_append, List.cons_append]; exact start x t r hx ht _)
    · obtain ⟨t', _, _, hq'⟩ := quoteText q hq
      rw [ht] at hq'; cases hq'
      exact absurd he.symm (by rw [List.cons_append, List.cons_append]; exact start y u s hy hu _)
    · obtain ⟨a, ha, hna, hqa⟩ := quoteText q hq
      obtain ⟨b, hb, hnb, hqb⟩ := quoteText q' hq'
      rw [ht] at hqa; cases hqa
      rw [hu] at hqb; cases hqb
      simp only [List.cons_append, List.append_assoc, List.nil_append, List.cons.injEq, true_and] at he
      obtain ⟨rfl, rfl⟩ := until_inj hna hnb he
      exact ⟨by rw [inner q q' hq hq' a ha hb], rfl⟩

example : UnambiguousWord [.C 97, .Q [.V ["Normal", "false", "x"], .C 32], .B "ls"] := by
  intro x hx
  simp only [List.mem_cons, List.not_mem_nil, or_false] at hx
  rcases hx with rfl | rfl | rfl
  · exact .inl ⟨'a', by decide, by decide, by decide⟩
  · refine .inr ⟨_, rfl, ?_⟩
    intro y hy
    simp only [List.mem_cons, List.not_mem_nil, or_false] at hy
    rcases hy with rfl | rfl
    · exact ⟨"x", rfl, by decide, by decide⟩
    · exact ⟨' ', by decide, by decide, by decide⟩
  · exact .inl ⟨by decide, by decide⟩

end PashAnn
