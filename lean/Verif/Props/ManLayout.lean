import Verif.Props.ManPage

/-! C72, continued: the layout of a line of a manual page does not matter. -/

namespace PashAnn
open Spec ManPage

theorem white_iff (c : Char) : isSpace c = true ↔ White c := by
  simp only [isSpace, White, List.contains_eq_mem, decide_eq_true_eq, List.mem_cons, List.not_mem_nil, or_false]
  omega

theorem white_false (c : Char) : isSpace c = false ↔ ¬ White c := by
  rw [← white_iff, Bool.not_eq_true]

theorem strip_around {a p b : List Char} (ha : ∀ c ∈ a, White c) (hb : ∀ c ∈ b, White c)
    (h1 : ∀ c ∈ p.head?, isSpace c = false) (h2 : ∀ c ∈ p.getLast?, isSpace c = false) (hne : p ≠ []) :
    strip (a ++ p ++ b) = p := by
  have key : ∀ (a q : List Char), (∀ c ∈ a, White c) → (∀ c ∈ q.head?, isSpace c = false) → (a ++ q).dropWhile isSpace = q := by
    intro a q ha hq
    rw [List.dropWhile_append_of_pos (fun c hc => (white_iff c).2 (ha c hc))]
    cases q with
    | nil => rfl
    | cons x q => exact List.dropWhile_cons_of_neg (by simp [hq x (by simp)])
  unfold strip
  rw [List.append_assoc, key a (p ++ b) ha (by rw [headOpt_append hne]; exact h1), List.reverse_append,
    key b.reverse p.reverse (fun c hc => hb c (List.mem_reverse.1 hc)) (by rw [List.head?_reverse]; exact h2), List.reverse_reverse]

theorem splitSpaces_run {p s q : List Char} (h : ∀ c ∈ p, isSpace c = false) (hs : ∀ c ∈ s, isSpace c = true) (hne : s ≠ [])
    (hq : ∀ c ∈ q.head?, isSpace c = false) (hqne : q ≠ []) : splitSpaces (p ++ s ++ q) = p :: splitSpaces q := by
  obtain ⟨y, q, rfl⟩ := List.exists_cons_of_ne_nil hqne
  have hy := hq y (by simp)
  induction p with
  | nil =>
      induction s with
      | nil => exact absurd rfl hne
      | cons b s ih =>
          cases s with
          | nil =>
              rw [List.nil_append, List.cons_append, List.nil_append, splitSpaces, if_pos (hs b (by simp)), if_neg (by simp [hy])]
          | cons d s =>
              have := ih (fun c hc => hs c (List.mem_cons_of_mem _ hc)) (by simp)
              rw [List.nil_append, List.cons_append] at this ⊢
              rw [List.cons_append, splitSpaces, if_pos (hs b (by simp)), if_pos (hs d (by simp))]
              exact this
  | cons x p ih =>
      have ih := ih (fun c hc => h c (List.mem_cons_of_mem _ hc))
      obtain ⟨b, r, e⟩ : ∃ b r, p ++ s ++ y :: q = b :: r := by
        cases p <;> cases s <;> exact ⟨_, _, rfl⟩
      rw [List.cons_append, List.cons_append, e, splitSpaces, if_neg (by simp [h x (by simp)]), ← e, ih]
      rfl

theorem splitSpaces_word {w r : List Char} (h : ∀ c ∈ w, isSpace c = false) (hr : ∀ c, r.head? = some c → isSpace c = true) :
    ∃ more, splitSpaces (w ++ r) = w :: more := by
  induction w with
  | nil =>
      cases r with
      | nil => exact ⟨[], rfl⟩
      | cons c r =>
          have hc := hr c rfl
          have := splitSpaces_head hc r
          cases hs : splitSpaces (c :: r) with
          | nil => rw [hs] at this; cases this
          | cons x m => rw [hs] at this; cases this; exact ⟨m, hs⟩
  | cons a w ih =>
      obtain ⟨m, hm⟩ := ih (fun c hc => h c (List.mem_cons_of_mem _ hc))
      have ha := h a (by simp)
      cases hw : w ++ r with
      | nil =>
          have : w = [] ∧ r = [] := List.append_eq_nil_iff.1 hw
          obtain ⟨rfl, rfl⟩ := this
          exact ⟨[], by simp [splitSpaces, ha]⟩
      | cons b q =>
          rw [hw] at hm
          refine ⟨m, ?_⟩
          rw [List.cons_append, hw, splitSpaces, if_neg (by simp [ha]), hm]; rfl

/-- What the script finds for an item. -/
def found (i : Item) (past : List (List Char)) : Option PageArg := if (itemArg i).key ∈ past then none else some (itemArg i)

theorem findPhrase_parts {i : Item} (h : i.Proper) {p : List Char} {more : List (List Char)} (past : List (List Char))
    (hp : phraseParts p = i.name.toList :: more)
    (hm : (i.IsFlag ∧ ∀ a r, more = a :: r → matchLine argName a = false) ∨
      ∃ n a r, (i = .equals n a ∨ i = .space n a) ∧ more = a.toList :: r) :
    findPhrase p past = found i past := by
  have hn := Item.chars h
  have hml : (matchLine longName i.name.toList || matchLine capitalName i.name.toList) = true := by
    rw [Bool.or_eq_true, matchLine_iff, matchLine_iff]
    rcases (proper_iff _).1 hn.2 with h | h
    · exact .inl (.inl h)
    · exact .inr (.inl h)
  unfold findPhrase found
  simp only [hp, hml, if_true, itemArg_key]
  by_cases hk : removeDashes i.name.toList ∈ past
  · rw [if_pos hk, if_pos hk]
  · rw [if_neg hk, if_neg hk]
    rcases hm with ⟨hf, hm⟩ | ⟨n, a, r, hi, rfl⟩
    · cases i with
      | flag n =>
          cases more with
          | nil => rfl
          | cons a r => simp only [hm a r rfl]; rfl
      | equals => cases hf
      | space => cases hf
    · rcases hi with rfl | rfl
      · have : matchLine argName a.toList = true := (matchLine_iff _ _).2 (.inl ((arg_iff a).1 h.2))
        simp only [this]; rfl
      · have : matchLine argName a.toList = true := (matchLine_iff _ _).2 (.inl ((arg_iff a).1 h.2))
        simp only [this]; rfl

theorem proper_white {n : String} (h : ∀ c ∈ n.toList, NameChar c) :
    (∀ c ∈ n.toList, isSpace c = false) ∧ '=' ∉ n.toList ∧ ',' ∉ n.toList :=
  ⟨fun c hc => (nameChar_ok (h c hc)).2.2.2.2.1, fun hc => (nameChar_ok (h _ hc)).2.2.2.1 rfl, fun hc => (nameChar_ok (h _ hc)).1 rfl⟩

theorem white_comma {c : Char} (h : White c) : c ≠ ',' ∧ c ≠ '=' := by
  have key : ∀ d : Char, isSpace d = false → c ≠ d := by
    rintro d hd rfl
    rw [(white_iff c).2 h] at hd; cases hd
  exact ⟨key _ (by decide), key _ (by decide)⟩

theorem more_last {w r : List Char} (hw : ∀ c ∈ w, isSpace c = false) (hr : MoreWords r) :
    ∀ c ∈ (w ++ r).getLast?, isSpace c = false := by
  intro c hc
  by_cases h : r = []
  · subst h
    rw [List.append_nil] at hc
    exact hw c (List.mem_of_getLast? hc)
  · rw [lastOpt_append h] at hc
    exact (white_false c).2 (hr.2.2 c hc)

/-- The script finds the same, however the item is laid out. -/
theorem findPhrase_laid {i : Item} (h : i.Proper) {p : List Char} (hp : LaidItem i p) (past : List (List Char)) :
    findPhrase (strip p) past = found i past ∧ ',' ∉ p := by
  have hn := Item.chars h
  have hsp : ∀ {s : List Char}, (∀ c ∈ s, White c) → (∀ c ∈ s, isSpace c = true) ∧ '=' ∉ s ∧ ',' ∉ s := fun hs =>
    ⟨fun c hc => (white_iff c).2 (hs c hc), fun hc => (white_comma (hs _ hc)).2 rfl, fun hc => (white_comma (hs _ hc)).1 rfl⟩
  cases hp with
  | flag n a b hw =>
      have ha : ∀ c ∈ a, White c := fun c hc => hw c (by simp [hc])
      have hb : ∀ c ∈ b, White c := fun c hc => hw c (by simp [hc])
      obtain ⟨h1, h2, h3⟩ := proper_white hn.1
      simp only [Item.name] at h1 h2 h3
      refine ⟨?_, by simpa using ⟨(hsp ha).2.2, h3, (hsp hb).2.2⟩⟩
      rw [strip_around ha hb (fun c hc => h1 c (List.mem_of_mem_head? hc)) (fun c hc => h1 c (List.mem_of_getLast? hc)) (proper_ne hn.2)]
      refine findPhrase_parts h past (more := []) ?_ (.inl ⟨trivial, nofun⟩)
      unfold phraseParts
      rw [if_neg (by simpa using h2), splitSpaces_none h1]; rfl
  | flagWords n a b s w r hw hs hwne hww hna hr =>
      have ha : ∀ c ∈ a, White c := fun c hc => hw c (by simp [hc])
      have hb : ∀ c ∈ b, White c := fun c hc => hw c (by simp [hc])
      have hsw : ∀ c ∈ s, White c := fun c hc => hw c (by simp [hc])
      obtain ⟨h1, h2, h3⟩ := proper_white hn.1
      simp only [Item.name] at h1 h2 h3
      have hwf : ∀ c ∈ w, isSpace c = false := fun c hc => (white_false c).2 (hww c hc).1
      have hwe : '=' ∉ w := fun hc => (hww _ hc).2.2 rfl
      have hre : '=' ∉ r := fun hc => (hr.1 _ hc).2 rfl
      have hwc : ',' ∉ w := fun hc => (hww _ hc).2.1 rfl
      have hrc : ',' ∉ r := fun hc => (hr.1 _ hc).1 rfl
      refine ⟨?_, by simpa using ⟨(hsp ha).2.2, h3, (hsp hsw).2.2, hwc, hrc, (hsp hb).2.2⟩⟩
      have e : a ++ n.toList ++ s ++ w ++ r ++ b = a ++ (n.toList ++ s ++ (w ++ r)) ++ b := by simp
      have hhead : ∀ c ∈ (w ++ r).head?, isSpace c = false := by
        rw [headOpt_append hwne]; exact fun c hc => hwf c (List.mem_of_mem_head? hc)
      have hlast : ∀ c ∈ (w ++ r).getLast?, isSpace c = false := more_last hwf hr
      rw [e, strip_around ha hb (by rw [List.append_assoc, headOpt_append (p := n.toList) (proper_ne hn.2)]; exact fun c hc => h1 c (List.mem_of_mem_head? hc))
        (by rw [lastOpt_append (by simp [hwne])]; exact hlast) (by simp [hwne])]
      obtain ⟨m, hm⟩ := splitSpaces_word hwf (fun c hc => (white_iff c).2 (hr.2.1 c hc))
      refine findPhrase_parts h past (more := w :: m) ?_ (.inl ⟨trivial, ?_⟩)
      · unfold phraseParts
        rw [if_neg (by simpa using ⟨h2, (hsp hsw).2.1, hwe, hre⟩), splitSpaces_run h1 (hsp hsw).1 hs hhead (by simp [hwne]), hm]; rfl
      · rintro x y hxy
        cases hxy
        rw [Bool.eq_false_iff]
        intro hx
        rcases (matchLine_iff _ _).1 hx with hx | ⟨u, hu, _⟩
        · exact hna ((arg_iff _).2 (by simpa using hx))
        · have := hwf '\n' (by rw [hu]; simp)
          exact absurd this (by decide)
  | equals n x a b hw =>
      have ha : ∀ c ∈ a, White c := fun c hc => hw c (by simp [hc])
      have hb : ∀ c ∈ b, White c := fun c hc => hw c (by simp [hc])
      obtain ⟨h1, h2, h3⟩ := proper_white hn.1
      simp only [Item.name] at h1 h2 h3
      obtain ⟨x1, x2, x3⟩ := proper_white (arg_chars h.2)
      have hxne : x.toList ≠ [] := fun e => h.2.1 (toList_eq_nil.1 e)
      refine ⟨?_, by simpa using ⟨(hsp ha).2.2, h3, x3, (hsp hb).2.2⟩⟩
      have e : a ++ n.toList ++ ['='] ++ x.toList ++ b = a ++ (n.toList ++ '=' :: x.toList) ++ b := by simp
      rw [e, strip_around ha hb (by rw [headOpt_append (p := n.toList) (proper_ne hn.2)]; exact fun c hc => h1 c (List.mem_of_mem_head? hc))
        (by
          have : n.toList ++ '=' :: x.toList = (n.toList ++ ['=']) ++ x.toList := by simp
          rw [this, lastOpt_append hxne]; exact fun c hc => x1 c (List.mem_of_getLast? hc)) (by simp)]
      refine findPhrase_parts h past (more := [x.toList]) ?_ (.inr ⟨n, x, [], .inl rfl, rfl⟩)
      unfold phraseParts
      rw [if_pos (by simp), splitEq_append h2, splitEq_none x2]; rfl
  | space n x a b s r hw hs hr =>
      have ha : ∀ c ∈ a, White c := fun c hc => hw c (by simp [hc])
      have hb : ∀ c ∈ b, White c := fun c hc => hw c (by simp [hc])
      have hsw : ∀ c ∈ s, White c := fun c hc => hw c (by simp [hc])
      obtain ⟨h1, h2, h3⟩ := proper_white hn.1
      simp only [Item.name] at h1 h2 h3
      obtain ⟨x1, x2, x3⟩ := proper_white (arg_chars h.2)
      have hxne : x.toList ≠ [] := fun e => h.2.1 (toList_eq_nil.1 e)
      have hre : '=' ∉ r := fun hc => (hr.1 _ hc).2 rfl
      have hrc : ',' ∉ r := fun hc => (hr.1 _ hc).1 rfl
      refine ⟨?_, by simpa using ⟨(hsp ha).2.2, h3, (hsp hsw).2.2, x3, hrc, (hsp hb).2.2⟩⟩
      have e : a ++ n.toList ++ s ++ x.toList ++ r ++ b = a ++ (n.toList ++ s ++ (x.toList ++ r)) ++ b := by simp
      have hhead : ∀ c ∈ (x.toList ++ r).head?, isSpace c = false := by
        rw [headOpt_append hxne]; exact fun c hc => x1 c (List.mem_of_mem_head? hc)
      rw [e, strip_around ha hb (by rw [List.append_assoc, headOpt_append (p := n.toList) (proper_ne hn.2)]; exact fun c hc => h1 c (List.mem_of_mem_head? hc))
        (by rw [lastOpt_append (by simp [hxne])]; exact more_last x1 hr) (by simp [hxne])]
      obtain ⟨m, hm⟩ := splitSpaces_word x1 (fun c hc => (white_iff c).2 (hr.2.1 c hc))
      refine findPhrase_parts h past (more := x.toList :: m) ?_ (.inr ⟨n, x, m, .inr rfl, rfl⟩)
      unfold phraseParts
      rw [if_neg (by simpa using ⟨h2, (hsp hsw).2.1, x2, hre⟩), splitSpaces_run h1 (hsp hsw).1 hs hhead (by simp [hxne]), hm]; rfl

theorem findPhrases_laid {items : List Item} (h : ∀ i ∈ items, i.Proper) {l : List Char} (hl : LaidItems items l)
    (past : List (List Char)) :
    findPhrases (splitComma l) past = findPhrases (items.map fun i => i.text.toList) past := by
  have self : ∀ i : Item, i.Proper → ∀ past, findPhrase (strip i.text.toList) past = found i past := by
    intro i hi past
    refine (findPhrase_laid hi ?_ past).1
    cases i with
    | flag n => simpa [Item.text] using LaidItem.flag n [] [] (by simp)
    | equals n a => simpa [Item.text] using LaidItem.equals n a [] [] (by simp)
    | space n a =>
        have : White ' ' := (white_iff ' ').1 (by decide)
        simpa [Item.text] using LaidItem.space n a [] [] [' '] [] (by simpa using this) (by simp) ⟨by simp, by simp, by simp⟩
  induction hl generalizing past with
  | one i p hp =>
      have hi := h i (by simp)
      rw [splitComma_none (findPhrase_laid hi hp past).2]
      simp only [List.map_cons, List.map_nil, findPhrases, (findPhrase_laid hi hp past).1, self i hi past]
  | more i p is l hp _ ih =>
      have hi := h i (by simp)
      have ih := ih (fun j hj => h j (by simp [hj]))
      rw [show p ++ [',', ' '] ++ l = p ++ ',' :: ' ' :: l by simp, splitComma_append (findPhrase_laid hi hp past).2]
      simp only [List.map_cons, findPhrases, (findPhrase_laid hi hp past).1, self i hi past, ih]

theorem laid_ne {items : List Item} {l : List Char} (h : LaidItems items l) : items ≠ [] := by cases h <;> simp

theorem findMatches_laid {items : List Item} (h : ∀ i ∈ items, i.Proper) {line : String} (hl : LaidLine items line)
    (past : List (List Char)) : findMatches line.toList past = findMatches (lineOf items).toList past := by
  unfold findMatches
  rw [dropBrackets_line items h, splitComma_line items (laid_ne hl) h, ← findPhrases_laid h hl past]
  congr 2
  unfold dropBrackets
  congr 1
  funext c
  by_cases h1 : c = '[' <;> by_cases h2 : c = ']' <;> simp [h1, h2]

/-- C72: the layout of a line does not matter, so all that is said about lines holds in any layout: white space around the
items and between a name and its argument, brackets anywhere, and words after an item. -/
theorem C72_layout {items : List Item} (h : ∀ i ∈ items, i.Proper) {line : String} (hl : LaidLine items line)
    (before after : List String) :
    skeletonOf (before ++ line :: after) = skeletonOf (before ++ lineOf items :: after) := by
  unfold skeletonOf skeleton
  simp only [List.map_append, List.map_cons]
  rw [findLines_append, findLines_append]
  simp only [findLines, findMatches_laid h hl]

/-- A line as it stands on the page of `grep`, and one with a tab and an optional argument. -/
example : LaidLine [.flag "-i", .flag "--ignore-case"] "  -i, --ignore-case   Ignore case distinctions" ∧
    LaidLine [.equals "--group" "METHOD"] "\t--group[=METHOD] " := by
  have hb : ∀ c : Char, isSpace c = true → White c := fun c => (white_iff c).1
  constructor
  · refine .more _ "  -i".toList _ _ (.flag "-i" "  ".toList [] ?_)
      (.one _ _ (.flagWords "--ignore-case" [] [] "   ".toList "Ignore".toList " case distinctions".toList ?_ (by decide) (by decide) ?_ ?_ ?_))
    · exact fun c hc => hb c ((by decide : ∀ c ∈ "  ".toList ++ [], isSpace c = true) c hc)
    · exact fun c hc => hb c ((by decide : ∀ c ∈ [] ++ "   ".toList ++ [], isSpace c = true) c hc)
    · exact fun c hc => ⟨(white_false c).1 ((by decide : ∀ c ∈ "Ignore".toList, isSpace c = false) c hc),
        (by decide : ∀ c ∈ "Ignore".toList, c ≠ ',' ∧ c ≠ '=') c hc⟩
    · rw [arg_iff]; decide
    · refine ⟨by decide, fun c hc => ?_, fun c hc => ?_⟩
      · cases hc; exact hb _ (by decide)
      · cases hc; exact (white_false _).1 (by decide)
  · refine .one _ _ (.equals "--group" "METHOD" "\t".toList " ".toList ?_)
    exact fun c hc => hb c ((by decide : ∀ c ∈ "\t".toList ++ " ".toList, isSpace c = true) c hc)

end PashAnn
