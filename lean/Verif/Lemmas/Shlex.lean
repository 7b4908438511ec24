import Verif.Model.Shlex
import Verif.Spec.ShellWords

namespace PashAnn.Shlex
open PashAnn.Spec

theorem isBlank_iff (c : Char) : isBlank c = true ↔ Blank c := by
  simp [isBlank, Blank, or_assoc]

theorem isBlank_false_iff (c : Char) : isBlank c = false ↔ ¬ Blank c := by
  rw [← isBlank_iff]; simp

theorem Pieces.append {r v r' v'} (h : Pieces r v) (h' : Pieces r' v') : Pieces (r ++ r') (v ++ v') := by
  induction h with
  | nil => exact h'
  | cons hp _ ih => rw [List.append_assoc, List.append_assoc]; exact .cons hp ih

/-! Completeness: the lexer follows the specification. -/

theorem lexGo_space_blank {c : Char} (cs esc) (h : Blank c) :
    lexGo (c :: cs) .space [] false esc = lexGo cs .space [] false esc := by
  simp [lexGo, (isBlank_iff c).2 h]

theorem lexGo_space_blanks {bs : List Char} (cs esc) (h : ∀ c ∈ bs, Blank c) :
    lexGo (bs ++ cs) .space [] false esc = lexGo cs .space [] false esc := by
  induction bs with
  | nil => rfl
  | cons c bs ih =>
      rw [List.cons_append, lexGo_space_blank _ _ (h c (by simp)), ih (fun x hx => h x (by simp [hx]))]

theorem lexGo_single (body : List Char) (h : '\'' ∉ body) (cs tok q esc) :
    ∃ esc', lexGo (body ++ '\'' :: cs) (.quote '\'') tok q esc = lexGo cs .word (tok ++ body) true esc' := by
  induction body generalizing tok q esc with
  | nil => exact ⟨esc, by simp [lexGo]⟩
  | cons c body ih =>
      simp only [List.mem_cons, not_or] at h
      obtain ⟨esc', he⟩ := ih h.2 (tok ++ [c]) true esc
      refine ⟨esc', ?_⟩
      have hc : (c == '\'') = false := by simpa using fun e => h.1 e.symm
      simp [lexGo, hc]
      simpa using he

theorem lexGo_double {r v : List Char} (h : DQBody r v) (cs tok q esc) :
    ∃ esc', lexGo (r ++ '"' :: cs) (.quote '"') tok q esc = lexGo cs .word (tok ++ v) true esc' := by
  induction h generalizing tok q esc with
  | nil => exact ⟨esc, by simp [lexGo]⟩
  | @plain c r v h1 h2 _ ih =>
      obtain ⟨esc', he⟩ := ih (tok ++ [c]) true esc
      exact ⟨esc', by simp [lexGo, h1, isEscape, h2]; simpa using he⟩
  | @escaped c r v h1 _ ih =>
      obtain ⟨esc', he⟩ := ih (tok ++ [c]) true (.quote '"')
      refine ⟨esc', ?_⟩
      rcases h1 with rfl | rfl
      · simp [lexGo, isEscape]; simpa using he
      · simp [lexGo, isEscape]; simpa using he
  | @backslash c r v h1 h2 _ ih =>
      obtain ⟨esc', he⟩ := ih (tok ++ ['\\', c]) true (.quote '"')
      exact ⟨esc', by simp [lexGo, isEscape, h1, h2]; simpa using he⟩

theorem lexGo_piece {r v : List Char} (h : Piece r v) (cs tok q esc) :
    ∃ q' esc', lexGo (r ++ cs) .word tok q esc = lexGo cs .word (tok ++ v) q' esc' ∧
      (v ≠ [] ∨ q' = true) ∧ (q = true → q' = true) := by
  cases h with
  | @plain c h1 h2 h3 h4 =>
      refine ⟨q, esc, ?_, by simp, id⟩
      simp [lexGo, (isBlank_false_iff c).2 h1, isQuote, isEscape, h2, h3, h4]
  | @escaped c =>
      exact ⟨q, .word, by simp [lexGo, isBlank, isQuote, isEscape], by simp, id⟩
  | @single body hb =>
      obtain ⟨esc', he⟩ := lexGo_single _ hb cs tok q esc
      refine ⟨true, esc', ?_, by simp, by simp⟩
      simp [lexGo, isBlank, isQuote]
      simpa using he
  | double hd =>
      obtain ⟨esc', he⟩ := lexGo_double hd cs tok q esc
      refine ⟨true, esc', ?_, by simp, by simp⟩
      simp [lexGo, isBlank, isQuote]
      simpa using he

theorem lexGo_pieces {r v : List Char} (h : Pieces r v) (cs tok q esc) (hq : tok ≠ [] ∨ q = true) :
    ∃ q' esc', lexGo (r ++ cs) .word tok q esc = lexGo cs .word (tok ++ v) q' esc' ∧
      (tok ++ v ≠ [] ∨ q' = true) := by
  induction h generalizing tok q esc with
  | nil => exact ⟨q, esc, by simp, by simpa using hq⟩
  | @cons r v r' v' hp _ ih =>
      obtain ⟨q1, esc1, h1, h2, _⟩ := lexGo_piece hp (r' ++ cs) tok q esc
      obtain ⟨q2, esc2, h4, h5⟩ := ih (tok ++ v) q1 esc1 (by
        rcases h2 with h | h
        · left; simp [h]
        · exact .inr h)
      exact ⟨q2, esc2, by rw [List.append_assoc, h1, h4, List.append_assoc], by simpa using h5⟩

/-- In the state between words a piece is read as in the state inside a word. -/
theorem lexGo_space_piece {r v : List Char} (h : Piece r v) (cs esc) :
    lexGo (r ++ cs) .space [] false esc = lexGo (r ++ cs) .word [] false esc := by
  cases h with
  | @plain c h1 h2 h3 h4 => simp [lexGo, (isBlank_false_iff c).2 h1, isQuote, isEscape, h2, h3, h4]
  | escaped => simp [lexGo, isBlank, isQuote, isEscape]
  | single hb => simp [lexGo, isBlank, isQuote, isEscape]
  | double hd => simp [lexGo, isBlank, isQuote, isEscape]

theorem lexGo_atEnd {rest : List Char} (h : AtEnd rest) (tok q esc) (hq : tok ≠ [] ∨ q = true) :
    lexGo rest .word tok q esc = (lexGo rest .space [] false .space).map (tok :: ·) := by
  rcases h with rfl | ⟨c, cs, rfl, hc⟩
  · simp [lexGo, emitAtEof, Except.map]
    rcases hq with h | h <;> simp [h]
  · simp only [lexGo, (isBlank_iff c).2 hc, if_true]
    rcases hq with h | h <;> simp [h]

theorem lexGo_complete {text : List Char} {ws : List (List Char)} (h : Lexes text ws) (esc) :
    lexGo text .space [] false esc = .ok ws := by
  induction h generalizing esc with
  | done hb =>
      have := lexGo_space_blanks [] esc hb
      rw [List.append_nil] at this
      rw [this]; simp [lexGo, emitAtEof]
  | @word bs raw val rest ws hb hw he _ ih =>
      obtain ⟨r, v, r', v', hp, hps, rfl, rfl⟩ := hw
      rw [List.append_assoc, lexGo_space_blanks _ _ hb, List.append_assoc, lexGo_space_piece hp]
      obtain ⟨q1, esc1, h1, h2, _⟩ := lexGo_piece hp (r' ++ rest) [] false esc
      obtain ⟨q2, esc2, h4, h5⟩ := lexGo_pieces hps rest ([] ++ v) q1 esc1 (by simpa using h2)
      rw [h1, h4, lexGo_atEnd he _ _ _ h5, ih]
      simp [Except.map]

/-! Soundness: what the lexer accepts is as specified. -/

/-- What is accepted from inside a word. -/
def WordRest (cs tok : List Char) (ws : List (List Char)) : Prop :=
  ∃ r v rest ws', cs = r ++ rest ∧ Pieces r v ∧ AtEnd rest ∧ Lexes rest ws' ∧ ws = (tok ++ v) :: ws'

/-- What is accepted from inside a single-quoted string. -/
def SingleRest (cs tok : List Char) (ws : List (List Char)) : Prop :=
  ∃ body cs', cs = body ++ '\'' :: cs' ∧ '\'' ∉ body ∧ WordRest cs' (tok ++ body) ws

/-- What is accepted from inside a double-quoted string. -/
def DoubleRest (cs tok : List Char) (ws : List (List Char)) : Prop :=
  ∃ r v cs', cs = r ++ '"' :: cs' ∧ DQBody r v ∧ WordRest cs' (tok ++ v) ws

theorem WordRest.piece {r v cs tok ws} (hp : Piece r v) (h : WordRest cs (tok ++ v) ws) :
    WordRest (r ++ cs) tok ws := by
  obtain ⟨r', v', rest, ws', rfl, hps, he, hl, rfl⟩ := h
  exact ⟨r ++ r', v ++ v', rest, ws', by simp, .cons hp hps, he, hl, by simp⟩

theorem Lexes.ofWordRest {r v cs ws} (hp : Piece r v) (h : WordRest cs v ws) : Lexes (r ++ cs) ws := by
  obtain ⟨r', v', rest, ws', rfl, hps, he, hl, rfl⟩ := h
  have := Lexes.word (bs := []) (by simp) ⟨r, v, r', v', hp, hps, rfl, rfl⟩ he hl
  simpa using this

theorem Lexes.blank_cons {c cs ws} (hc : Blank c) (h : Lexes cs ws) : Lexes (c :: cs) ws := by
  cases h with
  | done hb => exact .done (by simpa [hc] using hb)
  | @word bs raw val rest ws hb hw he hl =>
      have := Lexes.word (bs := c :: bs) (by simpa [hc] using hb) hw he hl
      simpa using this

theorem Except.map_ok {ε α β} {f : α → β} {x : Except ε α} {b : β} (h : x.map f = .ok b) :
    ∃ a, x = .ok a ∧ f a = b := by
  cases x with
  | error e => simp [Except.map] at h
  | ok a => exact ⟨a, rfl, by simpa [Except.map] using h⟩

theorem lexGo_sound (cs : List Char) :
    (∀ esc ws, lexGo cs .space [] false esc = .ok ws → Lexes cs ws) ∧
    (∀ tok q esc ws, (tok ≠ [] ∨ q = true) → lexGo cs .word tok q esc = .ok ws → WordRest cs tok ws) ∧
    (∀ tok q esc ws, lexGo cs (.quote '\'') tok q esc = .ok ws → SingleRest cs tok ws) ∧
    (∀ tok q esc ws, lexGo cs (.quote '"') tok q esc = .ok ws → DoubleRest cs tok ws) ∧
    (∀ tok q ws, lexGo cs .escape tok q .word = .ok ws → ∃ c cs', cs = c :: cs' ∧ WordRest cs' (tok ++ [c]) ws) ∧
    (∀ tok q ws, lexGo cs .escape tok q (.quote '"') = .ok ws →
      ∃ c cs', cs = c :: cs' ∧ DoubleRest cs' (tok ++ (if c = '\\' ∨ c = '"' then [c] else ['\\', c])) ws) := by
  induction cs with
  | nil =>
      refine ⟨?_, ?_, ?_, ?_, ?_, ?_⟩
      · intro esc ws h
        simp [lexGo, emitAtEof] at h; subst h; exact .done (by simp)
      · intro tok q esc ws hq h
        have : ws = [tok] := by
          rcases hq with hq | hq <;> simp [lexGo, emitAtEof, hq] at h <;> exact h.symm
        subst this
        exact ⟨[], [], [], [], rfl, .nil, .inl rfl, .done (by simp), by simp⟩
      all_goals intros; simp [lexGo] at *
  | cons c cs ih =>
      obtain ⟨ihS, ihW, ihQ, ihD, ihE, ihF⟩ := ih
      refine ⟨?_, ?_, ?_, ?_, ?_, ?_⟩
      · intro esc ws h
        by_cases hb : Blank c
        · rw [lexGo_space_blank _ _ hb] at h
          exact Lexes.blank_cons hb (ihS _ _ h)
        · simp only [lexGo, (isBlank_false_iff c).2 hb] at h
          by_cases he : c = '\\'
          · subst he
            simp [isEscape] at h
            obtain ⟨c, cs', rfl, hw⟩ := ihE _ _ _ h
            exact Lexes.ofWordRest (r := ['\\', c]) .escaped (by simpa using hw)
          · by_cases h1 : c = '\''
            · subst h1
              simp [isEscape, isQuote] at h
              obtain ⟨body, cs', rfl, hb', hw⟩ := ihQ _ _ _ _ h
              have := Lexes.ofWordRest (.single hb') hw
              simpa using this
            · by_cases h2 : c = '"'
              · subst h2
                simp [isEscape, isQuote] at h
                obtain ⟨r, v, cs', rfl, hd, hw⟩ := ihD _ _ _ _ h
                have := Lexes.ofWordRest (.double hd) hw
                simpa using this
              · simp [isEscape, isQuote, he, h1, h2] at h
                exact Lexes.ofWordRest (r := [c]) (.plain hb h1 h2 he) (ihW _ _ _ _ (by simp) h)
      · intro tok q esc ws hq h
        by_cases hb : Blank c
        · rw [lexGo_atEnd (.inr ⟨c, cs, rfl, hb⟩) _ _ _ hq] at h
          obtain ⟨ws', h', rfl⟩ := Except.map_ok h
          rw [lexGo_space_blank _ _ hb] at h'
          exact ⟨[], [], c :: cs, ws', rfl, .nil, .inr ⟨c, cs, rfl, hb⟩, Lexes.blank_cons hb (ihS _ _ h'), by simp⟩
        · simp only [lexGo, (isBlank_false_iff c).2 hb] at h
          by_cases he : c = '\\'
          · subst he
            simp [isEscape, isQuote] at h
            obtain ⟨c, cs', rfl, hw⟩ := ihE _ _ _ h
            exact WordRest.piece (r := ['\\', c]) .escaped hw
          · by_cases h1 : c = '\''
            · subst h1
              simp [isQuote] at h
              obtain ⟨body, cs', rfl, hb', hw⟩ := ihQ _ _ _ _ h
              have := WordRest.piece (.single hb') hw
              simpa using this
            · by_cases h2 : c = '"'
              · subst h2
                simp [isQuote] at h
                obtain ⟨r, v, cs', rfl, hd, hw⟩ := ihD _ _ _ _ h
                have := WordRest.piece (.double hd) hw
                simpa using this
              · simp [isEscape, isQuote, he, h1, h2] at h
                exact WordRest.piece (r := [c]) (.plain hb h1 h2 he) (ihW _ _ _ _ (by simp) h)
      · intro tok q esc ws h
        by_cases h1 : c = '\''
        · subst h1
          simp [lexGo] at h
          exact ⟨[], cs, rfl, by simp, by simpa using ihW _ _ _ _ (by simp) h⟩
        · simp [lexGo, h1] at h
          obtain ⟨body, cs', rfl, hb, hw⟩ := ihQ _ _ _ _ h
          exact ⟨c :: body, cs', rfl, by simp [hb]; exact fun e => h1 e.symm, by simpa using hw⟩
      · intro tok q esc ws h
        by_cases h1 : c = '"'
        · subst h1
          simp [lexGo] at h
          exact ⟨[], [], cs, rfl, .nil, by simpa using ihW _ _ _ _ (by simp) h⟩
        · by_cases h2 : c = '\\'
          · subst h2
            simp [lexGo, isEscape] at h
            obtain ⟨d, cs', rfl, r, v, cs'', rfl, hd, hw⟩ := ihF _ _ _ h
            by_cases hd' : d = '\\' ∨ d = '"'
            · simp only [hd', if_true] at hw
              exact ⟨'\\' :: d :: r, d :: v, cs'', rfl, .escaped hd' hd, by simpa using hw⟩
            · simp only [hd', if_false] at hw
              rw [not_or] at hd'
              exact ⟨'\\' :: d :: r, '\\' :: d :: v, cs'', rfl, .backslash hd'.1 hd'.2 hd, by simpa using hw⟩
          · simp [lexGo, h1, isEscape, h2] at h
            obtain ⟨r, v, cs', rfl, hd, hw⟩ := ihD _ _ _ _ h
            exact ⟨c :: r, c :: v, cs', rfl, .plain h1 h2 hd, by simpa using hw⟩
      · intro tok q ws h
        simp [lexGo] at h
        exact ⟨c, cs, rfl, ihW _ _ _ _ (by simp) h⟩
      · intro tok q ws h
        refine ⟨c, cs, rfl, ?_⟩
        by_cases hc : c = '\\' ∨ c = '"'
        · simp only [hc, if_true]
          rcases hc with rfl | rfl <;> simp [lexGo] at h <;> exact ihD _ _ _ _ h
        · simp only [hc, if_false]
          rw [not_or] at hc
          simp [lexGo, hc.1, hc.2] at h
          exact ihD _ _ _ _ h

theorem lexGo_iff (cs : List Char) (esc : LexState) (ws : List (List Char)) :
    lexGo cs .space [] false esc = .ok ws ↔ Lexes cs ws :=
  ⟨(lexGo_sound cs).1 esc ws, fun h => lexGo_complete h esc⟩

/-! Errors. -/

/-- The exception raised for an unfinished word. -/
def errOf : Unfinished → PyErr
  | .quotation => .valueError "No closing quotation"
  | .escape => .valueError "No escaped character"

theorem errOf_inj {a b} (h : errOf a = errOf b) : a = b := by
  cases a <;> cases b <;> simp [errOf] at h ⊢

/-- What is rejected from inside a word. -/
def BrokenWord (m : Unfinished) (cs : List Char) : Prop :=
  ∃ r v rest, cs = r ++ rest ∧ Pieces r v ∧ (Dangling m rest ∨ (AtEnd rest ∧ Broken m rest))

/-- What is rejected from inside a single-quoted string. -/
def BrokenSingle (m : Unfinished) (cs : List Char) : Prop :=
  (m = .quotation ∧ '\'' ∉ cs) ∨ ∃ body cs', cs = body ++ '\'' :: cs' ∧ '\'' ∉ body ∧ BrokenWord m cs'

/-- What is rejected from inside a double-quoted string. -/
def BrokenDouble (m : Unfinished) (cs : List Char) : Prop :=
  (m = .quotation ∧ ∃ v, DQBody cs v) ∨ (m = .escape ∧ ∃ r v, cs = r ++ ['\\'] ∧ DQBody r v) ∨
  ∃ r v cs', cs = r ++ '"' :: cs' ∧ DQBody r v ∧ BrokenWord m cs'

theorem BrokenWord.piece {m r v cs} (hp : Piece r v) (h : BrokenWord m cs) : BrokenWord m (r ++ cs) := by
  obtain ⟨r', v', rest, rfl, hps, h⟩ := h
  exact ⟨r ++ r', v ++ v', rest, by simp, .cons hp hps, h⟩

theorem BrokenWord.dangling {m d} (h : Dangling m d) : BrokenWord m d :=
  ⟨[], [], d, rfl, .nil, .inl h⟩

theorem Broken.ofBrokenWord {m r v cs} (hp : Piece r v) (h : BrokenWord m cs) : Broken m (r ++ cs) := by
  obtain ⟨r', v', rest, rfl, hps, hd | ⟨he, hb⟩⟩ := h
  · have := Broken.here (bs := []) (by simp) (.cons hp hps) hd
    simpa using this
  · have := Broken.later (bs := []) (by simp) ⟨r, v, r', v', hp, hps, rfl, rfl⟩ he hb
    simpa using this

theorem Broken.dangling {m d} (h : Dangling m d) : Broken m d := by
  have := Broken.here (bs := []) (by simp) .nil h
  simpa using this

theorem Broken.blank_cons {c cs m} (hc : Blank c) (h : Broken m cs) : Broken m (c :: cs) := by
  cases h with
  | @here bs r v d hb hps hd =>
      have := Broken.here (bs := c :: bs) (by simpa [hc] using hb) hps hd
      simpa using this
  | @later bs raw val rest hb hw he hl =>
      have := Broken.later (bs := c :: bs) (by simpa [hc] using hb) hw he hl
      simpa using this

theorem BrokenSingle.word {m cs} (h : BrokenSingle m cs) : BrokenWord m ('\'' :: cs) := by
  rcases h with ⟨rfl, h⟩ | ⟨body, cs', rfl, hb, hw⟩
  · exact .dangling (.single h)
  · have := BrokenWord.piece (.single hb) hw
    simpa using this

theorem BrokenDouble.word {m cs} (h : BrokenDouble m cs) : BrokenWord m ('"' :: cs) := by
  rcases h with ⟨rfl, v, h⟩ | ⟨rfl, r, v, rfl, h⟩ | ⟨r, v, cs', rfl, hb, hw⟩
  · exact .dangling (.double h)
  · exact .dangling (.doubleEscape h)
  · have := BrokenWord.piece (.double hb) hw
    simpa using this

theorem BrokenSingle.text {m cs} (h : BrokenSingle m cs) : Broken m ('\'' :: cs) := by
  rcases h with ⟨rfl, h⟩ | ⟨body, cs', rfl, hb, hw⟩
  · exact Broken.dangling (.single h)
  · have := Broken.ofBrokenWord (.single hb) hw
    simpa using this

theorem BrokenDouble.text {m cs} (h : BrokenDouble m cs) : Broken m ('"' :: cs) := by
  rcases h with ⟨rfl, v, h⟩ | ⟨rfl, r, v, rfl, h⟩ | ⟨r, v, cs', rfl, hb, hw⟩
  · exact Broken.dangling (.double h)
  · exact Broken.dangling (.doubleEscape h)
  · have := Broken.ofBrokenWord (.double hb) hw
    simpa using this

theorem Except.map_error {ε α β} {f : α → β} {x : Except ε α} {e : ε} (h : x.map f = .error e) :
    x = .error e := by
  cases x <;> simp_all [Except.map]

theorem lexGo_error_sound (cs : List Char) :
    (∀ esc e, lexGo cs .space [] false esc = .error e → ∃ m, e = errOf m ∧ Broken m cs) ∧
    (∀ tok q esc e, (tok ≠ [] ∨ q = true) → lexGo cs .word tok q esc = .error e →
      ∃ m, e = errOf m ∧ BrokenWord m cs) ∧
    (∀ tok q esc e, lexGo cs (.quote '\'') tok q esc = .error e → ∃ m, e = errOf m ∧ BrokenSingle m cs) ∧
    (∀ tok q esc e, lexGo cs (.quote '"') tok q esc = .error e → ∃ m, e = errOf m ∧ BrokenDouble m cs) ∧
    (∀ tok q e, lexGo cs .escape tok q .word = .error e →
      ∃ m, e = errOf m ∧ ((m = .escape ∧ cs = []) ∨ ∃ c cs', cs = c :: cs' ∧ BrokenWord m cs')) ∧
    (∀ tok q e, lexGo cs .escape tok q (.quote '"') = .error e →
      ∃ m, e = errOf m ∧ ((m = .escape ∧ cs = []) ∨ ∃ c cs', cs = c :: cs' ∧ BrokenDouble m cs')) := by
  induction cs with
  | nil =>
      refine ⟨?_, ?_, ?_, ?_, ?_, ?_⟩
      · intro esc e h; simp [lexGo] at h
      · intro tok q esc e hq h; simp [lexGo] at h
      · intro tok q esc e h; simp [lexGo] at h
        exact ⟨.quotation, by simp [errOf, h], .inl ⟨rfl, by simp⟩⟩
      · intro tok q esc e h; simp [lexGo] at h
        exact ⟨.quotation, by simp [errOf, h], .inl ⟨rfl, [], .nil⟩⟩
      · intro tok q e h; simp [lexGo] at h
        exact ⟨.escape, by simp [errOf, h], .inl ⟨rfl, rfl⟩⟩
      · intro tok q e h; simp [lexGo] at h
        exact ⟨.escape, by simp [errOf, h], .inl ⟨rfl, rfl⟩⟩
  | cons c cs ih =>
      obtain ⟨ihS, ihW, ihQ, ihD, ihE, ihF⟩ := ih
      refine ⟨?_, ?_, ?_, ?_, ?_, ?_⟩
      · intro esc e h
        by_cases hb : Blank c
        · rw [lexGo_space_blank _ _ hb] at h
          obtain ⟨m, rfl, hm⟩ := ihS _ _ h
          exact ⟨m, rfl, Broken.blank_cons hb hm⟩
        · simp only [lexGo, (isBlank_false_iff c).2 hb] at h
          by_cases he : c = '\\'
          · subst he
            simp [isEscape] at h
            obtain ⟨m, rfl, ⟨rfl, rfl⟩ | ⟨c, cs', rfl, hw⟩⟩ := ihE _ _ _ h
            · exact ⟨_, rfl, Broken.dangling .escape⟩
            · exact ⟨m, rfl, Broken.ofBrokenWord (r := ['\\', c]) .escaped hw⟩
          · by_cases h1 : c = '\''
            · subst h1
              simp [isEscape, isQuote] at h
              obtain ⟨m, rfl, hm⟩ := ihQ _ _ _ _ h
              exact ⟨m, rfl, hm.text⟩
            · by_cases h2 : c = '"'
              · subst h2
                simp [isEscape, isQuote] at h
                obtain ⟨m, rfl, hm⟩ := ihD _ _ _ _ h
                exact ⟨m, rfl, hm.text⟩
              · simp [isEscape, isQuote, he, h1, h2] at h
                obtain ⟨m, rfl, hm⟩ := ihW _ _ _ _ (by simp) h
                exact ⟨m, rfl, Broken.ofBrokenWord (r := [c]) (.plain hb h1 h2 he) hm⟩
      · intro tok q esc e hq h
        by_cases hb : Blank c
        · rw [lexGo_atEnd (.inr ⟨c, cs, rfl, hb⟩) _ _ _ hq] at h
          have h' := Except.map_error h
          rw [lexGo_space_blank _ _ hb] at h'
          obtain ⟨m, rfl, hm⟩ := ihS _ _ h'
          exact ⟨m, rfl, [], [], c :: cs, rfl, .nil, .inr ⟨.inr ⟨c, cs, rfl, hb⟩, Broken.blank_cons hb hm⟩⟩
        · simp only [lexGo, (isBlank_false_iff c).2 hb] at h
          by_cases he : c = '\\'
          · subst he
            simp [isEscape, isQuote] at h
            obtain ⟨m, rfl, ⟨rfl, rfl⟩ | ⟨c, cs', rfl, hw⟩⟩ := ihE _ _ _ h
            · exact ⟨_, rfl, .dangling .escape⟩
            · exact ⟨m, rfl, BrokenWord.piece (r := ['\\', c]) .escaped hw⟩
          · by_cases h1 : c = '\''
            · subst h1
              simp [isQuote] at h
              obtain ⟨m, rfl, hm⟩ := ihQ _ _ _ _ h
              exact ⟨m, rfl, hm.word⟩
            · by_cases h2 : c = '"'
              · subst h2
                simp [isQuote] at h
                obtain ⟨m, rfl, hm⟩ := ihD _ _ _ _ h
                exact ⟨m, rfl, hm.word⟩
              · simp [isEscape, isQuote, he, h1, h2] at h
                obtain ⟨m, rfl, hm⟩ := ihW _ _ _ _ (by simp) h
                exact ⟨m, rfl, BrokenWord.piece (r := [c]) (.plain hb h1 h2 he) hm⟩
      · intro tok q esc e h
        by_cases h1 : c = '\''
        · subst h1
          simp [lexGo] at h
          obtain ⟨m, rfl, hm⟩ := ihW _ _ _ _ (by simp) h
          exact ⟨m, rfl, .inr ⟨[], cs, rfl, by simp, hm⟩⟩
        · simp [lexGo, h1] at h
          have h1' : '\'' ≠ c := fun e => h1 e.symm
          obtain ⟨m, rfl, ⟨rfl, hm⟩ | ⟨body, cs', rfl, hb, hw⟩⟩ := ihQ _ _ _ _ h
          · exact ⟨_, rfl, .inl ⟨rfl, by simp [hm, h1']⟩⟩
          · exact ⟨m, rfl, .inr ⟨c :: body, cs', rfl, by simp [hb, h1'], hw⟩⟩
      · intro tok q esc e h
        by_cases h1 : c = '"'
        · subst h1
          simp [lexGo] at h
          obtain ⟨m, rfl, hm⟩ := ihW _ _ _ _ (by simp) h
          exact ⟨m, rfl, .inr (.inr ⟨[], [], cs, rfl, .nil, hm⟩)⟩
        · by_cases h2 : c = '\\'
          · subst h2
            simp [lexGo, isEscape] at h
            obtain ⟨m, rfl, ⟨rfl, rfl⟩ | ⟨d, cs', rfl, hm⟩⟩ := ihF _ _ _ h
            · exact ⟨_, rfl, .inr (.inl ⟨rfl, [], [], rfl, .nil⟩)⟩
            · refine ⟨m, rfl, ?_⟩
              have key : ∀ r v, DQBody r v → ∃ v', DQBody ('\\' :: d :: r) v' := by
                intro r v h
                by_cases hd : d = '\\' ∨ d = '"'
                · exact ⟨_, .escaped hd h⟩
                · rw [not_or] at hd; exact ⟨_, .backslash hd.1 hd.2 h⟩
              rcases hm with ⟨rfl, v, hv⟩ | ⟨rfl, r, v, rfl, hv⟩ | ⟨r, v, cs', rfl, hb, hw⟩
              · exact .inl ⟨rfl, key _ _ hv⟩
              · obtain ⟨v', h'⟩ := key _ _ hv
                exact .inr (.inl ⟨rfl, _, v', rfl, h'⟩)
              · obtain ⟨v', h'⟩ := key _ _ hb
                exact .inr (.inr ⟨_, v', cs', rfl, h', hw⟩)
          · simp [lexGo, h1, isEscape, h2] at h
            obtain ⟨m, rfl, hm⟩ := ihD _ _ _ _ h
            refine ⟨m, rfl, ?_⟩
            rcases hm with ⟨rfl, v, hv⟩ | ⟨rfl, r, v, rfl, hv⟩ | ⟨r, v, cs', rfl, hb, hw⟩
            · exact .inl ⟨rfl, _, .plain h1 h2 hv⟩
            · exact .inr (.inl ⟨rfl, c :: r, _, rfl, .plain h1 h2 hv⟩)
            · exact .inr (.inr ⟨c :: r, _, cs', rfl, .plain h1 h2 hb, hw⟩)
      · intro tok q e h
        simp [lexGo] at h
        obtain ⟨m, rfl, hm⟩ := ihW _ _ _ _ (by simp) h
        exact ⟨m, rfl, .inr ⟨c, cs, rfl, hm⟩⟩
      · intro tok q e h
        simp only [lexGo] at h
        split at h <;> obtain ⟨m, rfl, hm⟩ := ihD _ _ _ _ h <;> exact ⟨m, rfl, .inr ⟨c, cs, rfl, hm⟩⟩

theorem lexGo_double_body {r v : List Char} (h : DQBody r v) (cs tok q esc) :
    ∃ tok' q' esc', lexGo (r ++ cs) (.quote '"') tok q esc = lexGo cs (.quote '"') tok' q' esc' := by
  induction h generalizing tok q esc with
  | nil => exact ⟨tok, q, esc, rfl⟩
  | @plain c r v h1 h2 _ ih =>
      obtain ⟨a, b, d, he⟩ := ih (tok ++ [c]) true esc
      exact ⟨a, b, d, by simp [lexGo, h1, isEscape, h2]; simpa using he⟩
  | @escaped c r v h1 _ ih =>
      obtain ⟨a, b, d, he⟩ := ih (tok ++ [c]) true (.quote '"')
      refine ⟨a, b, d, ?_⟩
      rcases h1 with rfl | rfl <;> simp [lexGo, isEscape] <;> simpa using he
  | @backslash c r v h1 h2 _ ih =>
      obtain ⟨a, b, d, he⟩ := ih (tok ++ ['\\', c]) true (.quote '"')
      exact ⟨a, b, d, by simp [lexGo, isEscape, h1, h2]; simpa using he⟩

theorem lexGo_single_body (body : List Char) (h : '\'' ∉ body) (tok q esc) :
    lexGo body (.quote '\'') tok q esc = .error (errOf .quotation) := by
  induction body generalizing tok q with
  | nil => simp [lexGo, errOf]
  | cons c body ih =>
      simp only [List.mem_cons, not_or] at h
      have hc : c ≠ '\'' := fun e => h.1 e.symm
      simp [lexGo, hc, ih h.2]

theorem lexGo_dangling {m d} (h : Dangling m d) (tok q esc) :
    lexGo d .word tok q esc = .error (errOf m) ∧
    lexGo d .space tok q esc = .error (errOf m) := by
  cases h with
  | escape => simp [lexGo, isBlank, isQuote, isEscape, errOf]
  | single hb => simp [lexGo, isBlank, isQuote, isEscape, lexGo_single_body _ hb]
  | double hd =>
      obtain ⟨a, b, d, he⟩ := lexGo_double_body hd [] tok q esc
      rw [List.append_nil] at he
      simp [lexGo, isBlank, isQuote, isEscape, he, errOf]
  | @doubleEscape r v hd =>
      obtain ⟨a, b, d, he⟩ := lexGo_double_body hd ['\\'] tok q esc
      simp [lexGo, isBlank, isQuote, isEscape, he, errOf]

theorem lexGo_error_complete {m text} (h : Broken m text) (esc) :
    lexGo text .space [] false esc = .error (errOf m) := by
  induction h generalizing esc with
  | @here bs r v d hb hps hd =>
      rw [List.append_assoc, lexGo_space_blanks _ _ hb]
      cases hps with
      | nil => exact (lexGo_dangling hd _ _ _).2
      | @cons r v r' v' hp hps =>
          rw [List.append_assoc, lexGo_space_piece hp]
          obtain ⟨q1, esc1, h1, h2, _⟩ := lexGo_piece hp (r' ++ d) [] false esc
          obtain ⟨q2, esc2, h4, h5⟩ := lexGo_pieces hps d ([] ++ v) q1 esc1 (by simpa using h2)
          rw [h1, h4, (lexGo_dangling hd _ _ _).1]
  | @later bs raw val rest hb hw he _ ih =>
      obtain ⟨r, v, r', v', hp, hps, rfl, rfl⟩ := hw
      rw [List.append_assoc, lexGo_space_blanks _ _ hb, List.append_assoc, lexGo_space_piece hp]
      obtain ⟨q1, esc1, h1, h2, _⟩ := lexGo_piece hp (r' ++ rest) [] false esc
      obtain ⟨q2, esc2, h4, h5⟩ := lexGo_pieces hps rest ([] ++ v) q1 esc1 (by simpa using h2)
      rw [h1, h4, lexGo_atEnd he _ _ _ h5, ih]
      simp [Except.map]

theorem lexGo_error_iff (cs : List Char) (esc : LexState) (e : PyErr) :
    lexGo cs .space [] false esc = .error e ↔ ∃ m, e = errOf m ∧ Broken m cs :=
  ⟨(lexGo_error_sound cs).1 esc e, fun ⟨_, he, h⟩ => he ▸ lexGo_error_complete h esc⟩

/-! Quoting. -/

theorem isSafe_plain {c : Char} (h : isSafe c = true) : Piece [c] [c] := by
  refine .plain ?_ ?_ ?_ ?_
  · intro hb
    rcases hb with rfl | rfl | rfl | rfl <;> revert h <;> decide
  all_goals (rintro rfl; revert h; decide)

theorem safe_pieces (w : List Char) (h : w.all isSafe = true) : Pieces w w := by
  induction w with
  | nil => exact .nil
  | cons c w ih =>
      simp only [List.all_cons, Bool.and_eq_true] at h
      exact .cons (isSafe_plain h.1) (ih h.2)

theorem quoted_pieces (w : List Char) (body : List Char) (hb : '\'' ∉ body) :
    ∃ r v r' v', Piece r v ∧ Pieces r' v' ∧
      '\'' :: (body ++ replaceQuotes w ++ ['\'']) = r ++ r' ∧ body ++ w = v ++ v' := by
  induction w generalizing body with
  | nil => exact ⟨_, _, [], [], .single hb, .nil, by simp [replaceQuotes], by simp⟩
  | cons c w ih =>
      by_cases hc : c = '\''
      · subst hc
        obtain ⟨r, v, r', v', hp, hps, h1, h2⟩ := ih [] (by simp)
        have hq : Piece ('"' :: (['\''] ++ ['"'])) ['\''] := .double (.plain (by decide) (by decide) .nil)
        refine ⟨_, _, ('"' :: (['\''] ++ ['"'])) ++ (r ++ r'), ['\''] ++ (v ++ v'), .single hb,
          .cons hq (.cons hp hps), ?_, ?_⟩
        · rw [← h1]; simp [replaceQuotes]
        · rw [← h2]; simp
      · have := ih (body ++ [c]) (by simpa [hb] using fun e => hc e.symm)
        simpa [replaceQuotes, hc] using this

theorem quote_word (w : List Char) : Word (quoteChars w) w := by
  unfold quoteChars
  split
  · next h =>
    have : w = [] := by simpa using h
    subst this
    exact ⟨_, _, [], [], .single (body := []) (by simp), .nil, by simp, by simp⟩
  · split
    · next h1 h2 =>
      cases w with
      | nil => simp at h1
      | cons c w =>
          simp only [List.all_cons, Bool.and_eq_true] at h2
          exact ⟨[c], [c], w, w, isSafe_plain h2.1, safe_pieces w h2.2, rfl, rfl⟩
    · obtain ⟨r, v, r', v', hp, hps, h1, h2⟩ := quoted_pieces w [] (by simp)
      exact ⟨r, v, r', v', hp, hps, by simpa using h1, by simpa using h2⟩

theorem join_lexes (ws : List (List Char)) : Lexes (joinChars ws) ws := by
  induction ws with
  | nil => exact .done (by simp [joinChars])
  | cons w ws ih =>
      cases ws with
      | nil =>
          have := Lexes.word (bs := []) (rest := []) (ws := []) (by simp) (quote_word w) (.inl rfl) (.done (by simp))
          simpa [joinChars] using this
      | cons w' ws =>
          have hb : Blank ' ' := .inl rfl
          have := Lexes.word (bs := []) (by simp) (quote_word w) (.inr ⟨' ', _, rfl, hb⟩)
            (Lexes.blank_cons hb ih)
          simpa [joinChars] using this

theorem split_iff (s : String) (ws : List String) :
    split s = .ok ws ↔ Lexes s.toList (ws.map String.toList) := by
  rw [← lexGo_iff s.toList .space, split]
  cases h : lexGo s.toList .space [] false .space with
  | error e => simp [Except.map]
  | ok l =>
      simp only [Except.map, Except.ok.injEq]
      constructor
      · rintro rfl; simp [List.map_map, Function.comp_def]
      · rintro rfl; simp [List.map_map, Function.comp_def]

theorem split_join (ws : List String) : split (join ws) = .ok ws := by
  rw [split_iff]
  simpa [join] using join_lexes (ws.map String.toList)

theorem split_error_iff (s : String) (e : PyErr) :
    split s = .error e ↔ ∃ m, e = errOf m ∧ Broken m s.toList := by
  rw [← lexGo_error_iff s.toList .space, split]
  cases h : lexGo s.toList .space [] false .space with
  | error e => simp [Except.map]
  | ok l => simp [Except.map]

end PashAnn.Shlex
