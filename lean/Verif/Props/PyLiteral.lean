import Verif.Spec.PyLiteral
import Verif.Model.PlanText

/-!
C87: a name in a printed list of names is a string literal of Python for that name and for no other one.
-/

namespace PashAnn
open Spec Text

theorem hexDigit_value {n : Nat} (h : n < 16) : HexValue (hexDigit n) n := by
  have key : ∀ n : Fin 16, "0123456789abcdef".toList[(n : Nat)]? = some (hexDigit n) := by decide +kernel
  exact .inl (key ⟨n, h⟩)

theorem hexValue_lt {c : Char} {n : Nat} (h : HexValue c n) : n < 16 := by
  rcases h with h | h
  · exact (List.getElem?_eq_some_iff.1 h).1
  · exact (List.getElem?_eq_some_iff.1 h).1

theorem hexValue_unique {c : Char} {a b : Nat} (h : HexValue c a) (h' : HexValue c b) : a = b := by
  have ha := hexValue_lt h
  have hb := hexValue_lt h'
  have key : ∀ a b : Fin 16, ∀ l ∈ ["0123456789abcdef", "0123456789ABCDEF"], ∀ l' ∈ ["0123456789abcdef", "0123456789ABCDEF"],
      l.toList[(a : Nat)]? = l'.toList[(b : Nat)]? → a = b := by decide +kernel
  rcases h with h | h <;> rcases h' with h' | h' <;>
    exact congrArg Fin.val (key ⟨a, ha⟩ ⟨b, hb⟩ _ (by simp) _ (by simp) (h.trans h'.symm))

theorem reprChar_piece {q c : Char} (hq : q = '\'' ∨ q = '"') : LiteralPiece q (reprChar q c) c := by
  unfold reprChar
  split
  · rename_i h; subst h; exact .escaped (.inl rfl)
  · split
    · rename_i h; subst h; exact .escaped (.inr hq)
    · split
      · rename_i h; subst h; exact .newline
      · split
        · rename_i h; subst h; exact .return
        · split
          · rename_i h; subst h; exact .tab
          · split
            · rename_i h
              have hc : c = Char.ofNat (16 * (c.toNat / 16) + c.toNat % 16) := by
                rw [Nat.div_add_mod]; exact (Char.ofNat_toNat c).symm
              have := LiteralPiece.hex (q := q) (hexDigit_value (n := c.toNat / 16) (by omega))
                (hexDigit_value (n := c.toNat % 16) (by omega))
              rwa [← hc] at this
            · exact .plain ‹_› ‹_› ‹_›

theorem piece_unique {q c c' : Char} {p p' t t' : List Char} (h : LiteralPiece q p c) (h' : LiteralPiece q p' c')
    (e : p ++ t = p' ++ t') : c = c' ∧ t = t' := by
  cases h with
  | hex h1 h2 =>
      cases h' with
      | hex h3 h4 =>
          simp only [List.cons_append, List.nil_append, List.cons.injEq, true_and] at e
          obtain ⟨rfl, rfl, rfl⟩ := e
          rw [hexValue_unique h1 h3, hexValue_unique h2 h4]
          exact ⟨rfl, rfl⟩
      | plain _ h _ => simp at e; exact absurd e.1.symm h
      | escaped h => simp at e; obtain ⟨rfl, _⟩ := e; simp at h
      | _ => simp at e
  | plain _ h _ =>
      cases h' with
      | plain => simpa using e
      | _ => simp at e; exact absurd e.1 h
  | escaped h =>
      cases h' with
      | plain _ h _ => simp at e; exact absurd e.1.symm h
      | escaped => simpa using e
      | _ => simp at e; obtain ⟨rfl, _⟩ := e; simp at h
  | _ =>
      cases h' with
      | plain _ h _ => simp at e; exact absurd e.1.symm h
      | escaped h => simp at e; obtain ⟨rfl, _⟩ := e; simp at h
      | _ => simp at e <;> exact ⟨rfl, e⟩

theorem body_unique {q : Char} {t s s' : List Char} (h : LiteralBody q t s) (h' : LiteralBody q t s') : s' = s := by
  have pne : ∀ {p c}, LiteralPiece q p c → p ≠ [] := by intro p c h; cases h <;> simp
  induction h generalizing s' with
  | nil =>
      generalize ht : ([] : List Char) = t at h'
      cases h' with
      | nil => rfl
      | cons hp _ => exact absurd (List.append_eq_nil_iff.1 ht.symm).1 (pne hp)
  | @cons p c t s hp _ ih =>
      generalize ht : p ++ t = t' at h'
      cases h' with
      | nil => exact absurd (List.append_eq_nil_iff.1 ht).1 (pne hp)
      | cons hp' hb' =>
          obtain ⟨rfl, rfl⟩ := piece_unique hp hp' ht
          rw [ih hb']

/-- C87. A name in a printed list is a string literal of Python for this name and for no other. -/
theorem C87_names_literal (s : String) : StringLiteral (strRepr s) s ∧ ∀ s', StringLiteral (strRepr s) s' → s' = s := by
  have hq : quoteFor s = '\'' ∨ quoteFor s = '"' := by unfold quoteFor; split <;> simp
  have hb : ∀ l : List Char, LiteralBody (quoteFor s) (l.flatMap (reprChar (quoteFor s))) l := by
    intro l
    induction l with
    | nil => exact .nil
    | cons c l ih => rw [List.flatMap_cons]; exact .cons (reprChar_piece hq) ih
  have ht : (strRepr s).toList = quoteFor s :: s.toList.flatMap (reprChar (quoteFor s)) ++ [quoteFor s] := by
    rw [strRepr, String.toList_ofList]
  refine ⟨⟨_, _, hq, ht, hb _⟩, ?_⟩
  rintro s' ⟨q, t, _, he, h'⟩
  rw [ht] at he
  simp only [List.cons_append, List.cons.injEq] at he
  obtain ⟨rfl, he⟩ := he
  have he := List.append_cancel_right he
  subst he
  exact String.toList_inj.1 (body_unique (hb _) h')

/-- A name with a newline and quotes, and the text that is printed for it. -/
example : strRepr "it's a \"tab\"\t\x07" = "'it\\'s a \"tab\"\\t\\x07'" ∧
    StringLiteral "'it\\'s a \"tab\"\\t\\x07'" "it's a \"tab\"\t\x07" := by
  have h : strRepr "it's a \"tab\"\t\x07" = "'it\\'s a \"tab\"\\t\\x07'" := by decide +kernel
  exact ⟨h, h ▸ (C87_names_literal _).1⟩

end PashAnn
