import Verif.Model.ManPage
import Verif.Spec.ManPage
import Verif.Lemmas.Parser

/-! Properties C71 and C72: the script that makes data files from manual pages. Specification: `Spec/ManPage.lean`. -/

namespace PashAnn
open Spec ManPage

/-- The data file made from the lines of a page. -/
abbrev skeletonOf (lines : List String) : JsonData := skeleton (lines.map String.toList)

/-! What is found. -/

theorem findPhrase_key {p : List Char} {past : List (List Char)} {a : PageArg} (h : findPhrase p past = some a) :
    a.key ∉ past := by
  unfold findPhrase at h
  split at h
  · cases h
  · split at h
    · split at h
      · cases h
      · rename_i hm
        split at h
        · split at h <;> cases h <;> exact hm
        · cases h; exact hm
    · cases h

theorem findPhrases_past (ps past : List (List Char)) :
    (findPhrases ps past).2 = ((findPhrases ps past).1.map PageArg.key).reverse ++ past := by
  induction ps generalizing past with
  | nil => rfl
  | cons p ps ih =>
      unfold findPhrases
      split
      · exact ih past
      · simp only [List.map_cons, List.reverse_cons, List.append_assoc, List.singleton_append]
        exact ih _

theorem findPhrases_nodup (ps past : List (List Char)) : ((findPhrases ps past).1.map PageArg.key).Nodup ∧
    ∀ k ∈ (findPhrases ps past).1.map PageArg.key, k ∉ past := by
  induction ps generalizing past with
  | nil => exact ⟨by simp [findPhrases], by simp [findPhrases]⟩
  | cons p ps ih =>
      unfold findPhrases
      split
      · exact ih past
      · rename_i a ha
        obtain ⟨h1, h2⟩ := ih (a.key :: past)
        simp only [List.map_cons, List.nodup_cons, List.mem_cons]
        refine ⟨⟨fun hm => h2 _ hm (by simp), h1⟩, ?_⟩
        rintro k (rfl | hk)
        · exact findPhrase_key ha
        · exact fun hp => h2 k hk (by simp [hp])

theorem findLines_nodup (ls past : List (List Char)) : ((findLines ls past).flatten.map PageArg.key).Nodup ∧
    ∀ k ∈ (findLines ls past).flatten.map PageArg.key, k ∉ past := by
  induction ls generalizing past with
  | nil => exact ⟨by simp [findLines], by simp [findLines]⟩
  | cons l ls ih =>
      obtain ⟨h1, h2⟩ := findPhrases_nodup (splitComma (dropBrackets l)) past
      have hp := findPhrases_past (splitComma (dropBrackets l)) past
      unfold findLines
      obtain ⟨h3, h4⟩ := ih (findMatches l past).2
      by_cases he : (findMatches l past).1 = []
      · simp only [he, if_true]
        refine ⟨h3, fun k hk hp' => h4 k hk ?_⟩
        unfold findMatches; rw [hp]; exact List.mem_append_right _ hp'
      · simp only [he, if_false, List.flatten_cons, List.map_append]
        refine ⟨List.nodup_append.2 ⟨h1, h3, ?_⟩, ?_⟩
        · rintro a ha b hb rfl
          refine h4 a hb ?_
          unfold findMatches; rw [hp]
          exact List.mem_append_left _ (List.mem_reverse.2 ha)
        · intro k hk hp'
          rcases List.mem_append.1 hk with hk | hk
          · exact h2 k hk hp'
          · refine h4 k hk ?_
            unfold findMatches; rw [hp]; exact List.mem_append_right _ hp'

/-- The names seen after some lines. -/
def pastAfter : List (List Char) → List (List Char) → List (List Char)
  | [], past => past
  | l :: ls, past => pastAfter ls (findMatches l past).2

theorem findLines_append (a b past : List (List Char)) :
    findLines (a ++ b) past = findLines a past ++ findLines b (pastAfter a past) := by
  induction a generalizing past with
  | nil => rfl
  | cons l a ih =>
      simp only [List.cons_append, findLines, pastAfter, ih]
      split <;> rfl

theorem mem_pastAfter (a past : List (List Char)) (k : List Char) :
    k ∈ pastAfter a past ↔ k ∈ (findLines a past).flatten.map PageArg.key ∨ k ∈ past := by
  induction a generalizing past with
  | nil => simp [pastAfter, findLines]
  | cons l a ih =>
      have hp := findPhrases_past (splitComma (dropBrackets l)) past
      rw [pastAfter, ih, findLines]
      have : (findMatches l past).2 = ((findMatches l past).1.map PageArg.key).reverse ++ past := hp
      rw [this, List.mem_append, List.mem_reverse]
      by_cases he : (findMatches l past).1 = []
      · simp [he]
      · simp only [he, if_false, List.flatten_cons, List.map_append, List.mem_append]
        constructor
        · rintro (h | h | h)
          · exact .inl (.inr h)
          · exact .inl (.inl h)
          · exact .inr h
        · rintro ((h | h) | h)
          · exact .inr (.inl h)
          · exact .inl h
          · exact .inr (.inr h)

/-! What is written. -/

/-- The name of what is found. -/
def pageSpelling : PageArg → String
  | .name n => String.ofList n
  | .withArg n _ => String.ofList n

theorem dashless_spelling (a : PageArg) : dashless (pageSpelling a) = String.ofList a.key := by
  cases a <;> simp [dashless, pageSpelling, PageArg.key, removeDashes] <;> congr 1 <;> funext c <;> simp

theorem allNames_addMixed (d : JsonData) (a : PageArg) :
    (allNames (addMixed d a)).Perm (allNames d ++ [pageSpelling a]) := by
  cases a with
  | name n =>
      simp only [addMixed, allNames, List.flatMap_append, List.flatMap_cons, List.flatMap_nil, entryNames, List.append_nil,
        pageSpelling, List.append_assoc]
      exact List.Perm.append_left _ (List.perm_append_comm)
  | withArg n a =>
      simp [addMixed, allNames, pageSpelling]

theorem allNames_foldl_addMixed (d : JsonData) (l : List PageArg) :
    (allNames (l.foldl addMixed d)).Perm (allNames d ++ l.map pageSpelling) := by
  induction l generalizing d with
  | nil => simp
  | cons a l ih =>
      refine (ih (addMixed d a)).trans ?_
      refine ((allNames_addMixed d a).append_right _).trans ?_
      simp

theorem allNames_addLine (d : JsonData) (l : List PageArg) :
    (allNames (addLine d l)).Perm (allNames d ++ l.map pageSpelling) := by
  unfold addLine
  split
  · rename_i h
    have : (l.filterMap PageArg.str?).map String.ofList = l.map pageSpelling := by
      clear d
      induction l with
      | nil => rfl
      | cons a l ih =>
          simp only [List.all_cons, Bool.and_eq_true] at h
          cases a with
          | name n => simp [PageArg.str?, pageSpelling, ← ih h.2]
          | withArg n a => simp [PageArg.str?] at h
    simp only [allNames, List.flatMap_append, List.flatMap_cons, List.flatMap_nil, entryNames, List.append_nil, this,
      List.append_assoc]
    exact List.Perm.append_left _ List.perm_append_comm
  · exact allNames_foldl_addMixed d l

theorem allNames_parseArgs (args : List (List PageArg)) :
    (allNames (parseArgs args)).Perm (args.flatten.map pageSpelling) := by
  suffices h : ∀ d, (allNames (args.foldl addLine d)).Perm (allNames d ++ args.flatten.map pageSpelling) from
    h ⟨[], []⟩
  induction args with
  | nil => intro d; simp
  | cons l args ih =>
      intro d
      refine (ih (addLine d l)).trans ?_
      refine ((allNames_addLine d l).append_right _).trans ?_
      simp

/-- C71. Whatever the page, no name is written twice: names that differ in their dashes only count as the same. -/
theorem C71_once (lines : List String) : ((allNames (skeletonOf lines)).map dashless).Nodup := by
  refine ((allNames_parseArgs _).map dashless).nodup_iff.2 ?_
  rw [List.map_map]
  have h := (findLines_nodup (lines.map String.toList) []).1
  have : (dashless ∘ pageSpelling) = String.ofList ∘ PageArg.key := funext dashless_spelling
  rw [this, ← List.map_map]
  refine List.Pairwise.map _ ?_ h
  intro a b hab h
  exact hab (by have := congrArg String.toList h; simpa using this)

/-! Pieces of a line. -/

theorem consFirst_mem {c : Char} {ps : List (List Char)} {q : List Char} (h : q ∈ consFirst c ps) :
    (∃ r, q = c :: r ∧ ps.head? = some r) ∨ q ∈ ps.tail ∨ (q = [c] ∧ ps = []) := by
  cases ps with
  | nil => simp [consFirst] at h; exact .inr (.inr ⟨h, rfl⟩)
  | cons p ps =>
      simp only [consFirst, List.mem_cons] at h
      rcases h with rfl | h
      · exact .inl ⟨p, rfl, rfl⟩
      · exact .inr (.inl h)

/-- A split into pieces: the first piece is a prefix, every piece is part of the text. -/
def Pieces (w : List Char) (ps : List (List Char)) : Prop := (∃ p r, ps = p :: r ∧ p <+: w) ∧ ∀ p ∈ ps, p <:+: w

theorem pieces_consFirst {c : Char} {w : List Char} {ps : List (List Char)} (h : Pieces w ps) :
    Pieces (c :: w) (consFirst c ps) := by
  obtain ⟨⟨p, r, rfl, hp⟩, hall⟩ := h
  refine ⟨⟨c :: p, r, rfl, (List.cons_prefix_cons).2 ⟨rfl, hp⟩⟩, ?_⟩
  intro q hq
  simp only [consFirst, List.mem_cons] at hq
  rcases hq with rfl | hq
  · exact ((List.cons_prefix_cons).2 ⟨rfl, hp⟩).isInfix
  · exact (hall q (by simp [hq])).trans (List.suffix_cons c w).isInfix

theorem pieces_nil {c : List Char} {w : List Char} {ps : List (List Char)} (h : Pieces w ps) :
    Pieces (c ++ w) ([] :: ps) := by
  refine ⟨⟨[], ps, rfl, List.nil_prefix⟩, ?_⟩
  intro q hq
  rcases List.mem_cons.1 hq with rfl | hq
  · exact List.nil_infix
  · exact (h.2 q hq).trans (List.suffix_append c w).isInfix

theorem pieces_self (w : List Char) : Pieces w [w] := ⟨⟨w, [], rfl, List.prefix_rfl⟩, by simp⟩

theorem pieces_comma (w : List Char) : Pieces w (splitComma w) := by
  fun_induction splitComma w with
  | case1 => exact pieces_self _
  | case2 c => exact pieces_self _
  | case3 c d rest h ih => exact pieces_nil (c := [c, d]) ih
  | case4 c d rest h ih => exact pieces_consFirst ih

theorem pieces_eq (w : List Char) : Pieces w (splitEq w) := by
  fun_induction splitEq w with
  | case1 => exact pieces_self _
  | case2 rest ih => exact pieces_nil (c := ['=']) ih
  | case3 c rest h ih => exact pieces_consFirst ih

theorem pieces_longer {c : Char} {w : List Char} {ps : List (List Char)} (h : Pieces w ps) (h0 : ps.head? = some []) :
    Pieces (c :: w) ps := by
  obtain ⟨⟨p, r, rfl, hp⟩, hall⟩ := h
  simp only [List.head?_cons, Option.some.injEq] at h0
  subst h0
  exact ⟨⟨[], r, rfl, List.nil_prefix⟩, fun q hq => (hall q hq).trans (List.suffix_cons c w).isInfix⟩

theorem splitSpaces_head {d : Char} (hd : isSpace d = true) (w : List Char) : (splitSpaces (d :: w)).head? = some [] := by
  induction w generalizing d with
  | nil => simp [splitSpaces, hd]
  | cons e w ih =>
      by_cases he : isSpace e = true
      · simp only [splitSpaces, hd, he, if_true]; exact ih he
      · simp [splitSpaces, hd, he]

theorem pieces_spaces (w : List Char) : Pieces w (splitSpaces w) := by
  fun_induction splitSpaces w with
  | case1 => exact pieces_self _
  | case2 c h => exact pieces_nil (c := [c]) (pieces_self [])
  | case3 c h => exact pieces_self _
  | case4 c d rest h h' ih => exact pieces_longer ih (splitSpaces_head h' rest)
  | case5 c d rest h h' ih => exact pieces_nil (c := [c]) ih
  | case6 c d rest h ih => exact pieces_consFirst ih

theorem strip_infix (p : List Char) : strip p <:+: p := by
  unfold strip
  have h1 : p.dropWhile isSpace <:+ p := List.dropWhile_suffix _
  have h2 := List.dropWhile_suffix isSpace (l := (p.dropWhile isSpace).reverse)
  have h3 := List.reverse_prefix.2 h2
  rw [List.reverse_reverse] at h3
  exact h3.isInfix.trans h1.isInfix

/-- The name and the argument of what is found. -/
def PageWord (a : PageArg) : List Char × Option (List Char) :=
  match a with
  | .name n => (n, none)
  | .withArg n a => (n, some a)

theorem findPhrase_word {p : List Char} {past : List (List Char)} {a : PageArg} (h : findPhrase p past = some a) :
    (matchLine longName (PageWord a).1 || matchLine capitalName (PageWord a).1) = true ∧ (PageWord a).1 <:+: p ∧
      ∀ x, (PageWord a).2 = some x → matchLine argName x = true ∧ x <:+: p := by
  have hp : Pieces p (phraseParts p) := by
    unfold phraseParts; split
    · exact pieces_eq p
    · exact pieces_spaces p
  unfold findPhrase at h
  split at h
  · cases h
  · rename_i n more hparts
    rw [hparts] at hp
    split at h
    · rename_i hm
      split at h
      · cases h
      · split at h
        · rename_i a' _
          split at h
          · cases h
            rename_i ha
            refine ⟨hm, hp.2 _ (by simp [PageWord]), ?_⟩
            rintro x ⟨⟩
            exact ⟨ha, hp.2 _ (by simp)⟩
          · cases h; exact ⟨hm, hp.2 _ (by simp [PageWord]), by rintro x ⟨⟩⟩
        · cases h; exact ⟨hm, hp.2 _ (by simp [PageWord]), by rintro x ⟨⟩⟩
    · cases h

theorem findPhrases_word {ps past : List (List Char)} {a : PageArg} (h : a ∈ (findPhrases ps past).1) :
    ∃ p ∈ ps, ∃ past', findPhrase (strip p) past' = some a := by
  induction ps generalizing past with
  | nil => simp [findPhrases] at h
  | cons p ps ih =>
      unfold findPhrases at h
      split at h
      · obtain ⟨q, hq, r⟩ := ih h
        exact ⟨q, by simp [hq], r⟩
      · rename_i b hb
        rcases List.mem_cons.1 h with rfl | h
        · exact ⟨p, by simp, past, hb⟩
        · obtain ⟨q, hq, r⟩ := ih h
          exact ⟨q, by simp [hq], r⟩

theorem findLines_word {ls past : List (List Char)} {a : PageArg} (h : a ∈ (findLines ls past).flatten) :
    ∃ l ∈ ls, (matchLine longName (PageWord a).1 || matchLine capitalName (PageWord a).1) = true ∧
      (PageWord a).1 <:+: dropBrackets l ∧
      ∀ x, (PageWord a).2 = some x → matchLine argName x = true ∧ x <:+: dropBrackets l := by
  induction ls generalizing past with
  | nil => simp [findLines] at h
  | cons l ls ih =>
      have key : a ∈ (findMatches l past).1 ∨ a ∈ (findLines ls (findMatches l past).2).flatten := by
        unfold findLines at h
        by_cases he : (findMatches l past).1 = []
        · simp only [he, if_true] at h; exact .inr h
        · simp only [he, if_false, List.flatten_cons, List.mem_append] at h; exact h
      rcases key with h | h
      · obtain ⟨p, hp, past', hf⟩ := findPhrases_word h
        obtain ⟨h1, h2, h3⟩ := findPhrase_word hf
        have hl : strip p <:+: dropBrackets l := (strip_infix p).trans ((pieces_comma _).2 p hp)
        exact ⟨l, by simp, h1, h2.trans hl, fun x hx => ⟨(h3 x hx).1, (h3 x hx).2.trans hl⟩⟩
      · obtain ⟨l', hl', r⟩ := ih h
        exact ⟨l', by simp [hl'], r⟩

/-! Names. -/

theorem isLower_iff (c : Char) : isLower c = true ↔ 'a' ≤ c ∧ c ≤ 'z' := by simp [isLower]
theorem isUpper_iff (c : Char) : isUpper c = true ↔ 'A' ≤ c ∧ c ≤ 'Z' := by simp [isUpper]

theorem dashes_split (w : List Char) :
    ∃ k, w = List.replicate k '-' ++ w.dropWhile (· == '-') ∧ (w.dropWhile (· == '-')).head? ≠ some '-' := by
  induction w with
  | nil => exact ⟨0, by simp, by simp⟩
  | cons a w ih =>
      by_cases h : a = '-'
      · subst h
        obtain ⟨k, e, hh⟩ := ih
        refine ⟨k + 1, ?_, ?_⟩
        · rw [List.dropWhile_cons_of_pos (by simp), List.replicate_succ, List.cons_append, ← e]
        · rw [List.dropWhile_cons_of_pos (by simp)]; exact hh
      · exact ⟨0, by rw [List.dropWhile_cons_of_neg (by simpa using h)]; rfl,
          by rw [List.dropWhile_cons_of_neg (by simpa using h)]; simpa using h⟩

theorem dashes_dropWhile (k : Nat) (c : Char) (w : List Char) (h : c ≠ '-') :
    (List.replicate k '-' ++ c :: w).dropWhile (· == '-') = c :: w := by
  induction k with
  | zero => simp [List.dropWhile_cons_of_neg, h]
  | succ k ih => rw [List.replicate_succ, List.cons_append, List.dropWhile_cons_of_pos (by simp), ih]

theorem lower_ne_dash {c : Char} (h : 'a' ≤ c ∧ c ≤ 'z') : c ≠ '-' := by
  rintro rfl; exact absurd h.1 (by decide)
theorem upper_ne_dash {c : Char} (h : 'A' ≤ c ∧ c ≤ 'Z') : c ≠ '-' := by
  rintro rfl; exact absurd h.1 (by decide)

theorem proper_iff (n : String) : ProperName n ↔ longName n.toList = true ∨ capitalName n.toList = true := by
  constructor
  · rintro ⟨k, c, tail, e, h⟩
    rw [e, List.replicate_succ]
    rcases h with ⟨hc, ht⟩ | ⟨hc, rfl⟩
    · left
      simp only [longName, List.cons_append]
      rw [dashes_dropWhile _ _ _ (lower_ne_dash hc)]
      simp only [Bool.and_eq_true, isLower_iff, hc, List.all_eq_true, Bool.or_eq_true, beq_iff_eq, true_and, and_self]
      exact ht
    · right
      simp only [capitalName, List.cons_append]
      rw [dashes_dropWhile _ _ _ (upper_ne_dash hc)]
      simp [isUpper_iff, hc]
  · intro h
    match hn : n.toList, h with
    | [], h => simp [longName, capitalName] at h
    | a :: r, h =>
        by_cases ha : a = '-'
        · subst ha
          obtain ⟨k, e, hh⟩ := dashes_split r
          rcases h with h | h
          · simp only [longName] at h
            split at h
            · rename_i c t ht
              rw [ht] at e
              simp only [Bool.and_eq_true, isLower_iff, List.all_eq_true, Bool.or_eq_true, beq_iff_eq] at h
              exact ⟨k, c, t, by rw [hn, e]; rfl, .inl h⟩
            · cases h
          · simp only [capitalName] at h
            split at h
            · rename_i c ht
              rw [ht] at e
              exact ⟨k, c, [], by rw [hn, e]; rfl, .inr ⟨(isUpper_iff c).1 h, rfl⟩⟩
            · cases h
        · unfold longName capitalName at h
          rcases h with h | h
          · split at h
            · rename_i e; cases e; exact absurd rfl ha
            · cases h
          · split at h
            · rename_i e; cases e; exact absurd rfl ha
            · cases h

theorem matchLine_iff (p : List Char → Bool) (w : List Char) :
    matchLine p w = true ↔ p w = true ∨ ∃ v, w = v ++ ['\n'] ∧ p v = true := by
  unfold matchLine
  rw [Bool.or_eq_true, Bool.and_eq_true, beq_iff_eq]
  constructor
  · rintro (h | ⟨h1, h2⟩)
    · exact .inl h
    · obtain ⟨v, rfl⟩ := List.getLast?_eq_some_iff.1 h1
      exact .inr ⟨v, rfl, by simpa using h2⟩
  · rintro (h | ⟨v, rfl, h⟩)
    · exact .inl h
    · exact .inr ⟨by simp, by simpa using h⟩

theorem arg_iff (a : String) : ProperArg a ↔ argName a.toList = true := by
  unfold ProperArg argName
  simp only [Bool.and_eq_true, Bool.not_eq_true', List.isEmpty_eq_false_iff, List.all_eq_true, isUpper_iff, ne_eq,
    String.toList_eq_nil_iff]

/-- C71. Nothing is invented: every name in the data file is a proper name (possibly with the newline at its end) that
stands on some line of the page, up to brackets. -/
theorem C71_from_page (lines : List String) (n : String) (h : n ∈ allNames (skeletonOf lines)) :
    ∃ l ∈ lines, n.toList <:+: l.toList.filter (fun c => c ≠ '[' ∧ c ≠ ']') ∧
      (ProperName n ∨ ∃ n', ProperName n' ∧ n = n' ++ "\n") := by
  have h := List.mem_map.1 ((allNames_parseArgs _).mem_iff.1 h)
  obtain ⟨a, ha, rfl⟩ := h
  obtain ⟨l, hl, h1, h2, _⟩ := findLines_word ha
  obtain ⟨s, hs, rfl⟩ := List.mem_map.1 hl
  have e : pageSpelling a = String.ofList (PageWord a).1 := by cases a <;> rfl
  refine ⟨s, hs, ?_, ?_⟩
  · rw [e, String.toList_ofList]
    have : dropBrackets s.toList = s.toList.filter (fun c => c ≠ '[' ∧ c ≠ ']') := by
      unfold dropBrackets; congr 1; funext c
      by_cases h1 : c = '[' <;> by_cases h2 : c = ']' <;> simp [h1, h2]
    rw [← this]; exact h2
  · rw [e]
    rw [Bool.or_eq_true, matchLine_iff, matchLine_iff] at h1
    rcases h1 with (h | ⟨v, hv, h⟩) | (h | ⟨v, hv, h⟩)
    · exact .inl ((proper_iff _).2 (.inl (by rw [String.toList_ofList]; exact h)))
    · exact .inr ⟨String.ofList v, (proper_iff _).2 (.inl (by rw [String.toList_ofList]; exact h)),
        by rw [hv]; exact String.ofList_append⟩
    · exact .inl ((proper_iff _).2 (.inr (by rw [String.toList_ofList]; exact h)))
    · exact .inr ⟨String.ofList v, (proper_iff _).2 (.inr (by rw [String.toList_ofList]; exact h)),
        by rw [hv]; exact String.ofList_append⟩

example : "-f" ∈ allNames (skeletonOf ["-f, --skip-fields=N"]) ∧ ("--skip-fields" : String) ∈
    allNames (skeletonOf ["-f, --skip-fields=N", "--group[=METHOD]"]) := by decide +kernel

/-! Whole pages. -/

/-- The data file made from a whole page. -/
abbrev pageData (page : List String) : JsonData := ofPage (page.map String.toList)

theorem pageLines_append (a b : List (List Char)) : pageLines (a ++ b) = pageLines a ++ pageLines b := by
  simp [pageLines]

theorem listing_iff (l : String) : "       -".toList.isPrefixOf l.toList = true ↔ ∃ r, l = "       -" ++ r := by
  rw [List.isPrefixOf_iff_prefix]
  constructor
  · rintro ⟨r, h⟩
    exact ⟨String.ofList r, by rw [← String.toList_inj, ← h]; simp⟩
  · rintro ⟨r, rfl⟩
    exact ⟨r.toList, by simp⟩

theorem pageData_eq (page : List String) : pageData page =
    skeletonOf ((pageLines (page.map String.toList)).map String.ofList) := by
  show skeleton _ = skeleton _
  rw [List.map_map]
  congr 1
  conv => lhs; rw [← List.map_id (pageLines _)]
  exact List.map_congr_left (fun l _ => by simp)

/-- C71 for a whole page: no name is written twice. -/
theorem C71_page_once (page : List String) : ((allNames (pageData page)).map dashless).Nodup := by
  rw [pageData_eq]; exact C71_once _

/-- C71 for a whole page: every name stands on a line of the page that starts with seven blanks and a dash. -/
theorem C71_page_source (page : List String) (n : String) (h : n ∈ allNames (pageData page)) :
    ∃ r, "       -" ++ r ∈ page ∧ n.toList <:+: ("       -" ++ r).toList.filter (fun c => c ≠ '[' ∧ c ≠ ']') ∧
      (ProperName n ∨ ∃ n', ProperName n' ∧ n = n' ++ "\n") := by
  rw [pageData_eq] at h
  obtain ⟨l, hl, h1, h2⟩ := C71_from_page _ n h
  obtain ⟨w, hw, rfl⟩ := List.mem_map.1 hl
  unfold pageLines at hw
  obtain ⟨v, hv, rfl⟩ := List.mem_map.1 hw
  obtain ⟨hv, hp⟩ := List.mem_filter.1 hv
  obtain ⟨x, hx, rfl⟩ := List.mem_map.1 hv
  obtain ⟨r, rfl⟩ := (listing_iff x).1 hp
  refine ⟨r, hx, h1.trans ?_, h2⟩
  rw [String.toList_ofList]
  obtain ⟨p, hp⟩ := List.dropWhile_suffix isSpace (l := ("       -" ++ r).toList)
  refine ⟨p.filter (fun c => c ≠ '[' ∧ c ≠ ']'), [], ?_⟩
  rw [List.append_nil, ← List.filter_append, hp]

/-- C71 for a whole page: a line that does not start with seven blanks and a dash has no effect. -/
theorem C71_page_others (before after : List String) (l : String) (h : ¬ ∃ r, l = "       -" ++ r) :
    pageData (before ++ l :: after) = pageData (before ++ after) := by
  have hl : pageLines [l.toList] = [] := by
    unfold pageLines
    rw [List.filter_cons_of_neg (by rw [listing_iff]; exact h)]; rfl
  show skeleton _ = skeleton _
  rw [List.map_append, List.map_append, List.map_cons, ← List.singleton_append (x := l.toList), pageLines_append,
    pageLines_append, pageLines_append, hl, List.nil_append]

/-- C71 for a whole page: lines that start with seven blanks and a dash count without the blanks, so that everything said
of lines above (C71, C72) holds of them. -/
theorem C71_page_lines (rests : List String) :
    pageData (rests.map ("       -" ++ ·)) = skeletonOf (rests.map ("-" ++ ·)) := by
  show skeleton _ = skeleton _
  congr 1
  unfold pageLines
  rw [List.filter_eq_self.2 (by
    intro l hl
    obtain ⟨x, hx, rfl⟩ := List.mem_map.1 hl
    obtain ⟨r, _, rfl⟩ := List.mem_map.1 hx
    exact (listing_iff _).2 ⟨r, rfl⟩)]
  rw [List.map_map, List.map_map, List.map_map]
  refine List.map_congr_left (fun r _ => ?_)
  simp only [Function.comp, String.toList_append]
  rfl

set_option maxRecDepth 4000 in
example : allNames (pageData ["NAME", "       wc - print counts", "       -c, --bytes", "              -not here", "",
    "       --files-from=F"]) = ["-c", "--bytes", "--files-from"] ∧
    ¬ ∃ r, ("              -not here" : String) = "       -" ++ r := by
  refine ⟨by decide +kernel, fun h => ?_⟩
  exact absurd ((listing_iff _).2 h) (by decide +kernel)

/-! Lines made of proper items. -/

/-- What is found for an item. -/
def itemArg : Item → PageArg
  | .flag n => .name n.toList
  | .equals n a => .withArg n.toList a.toList
  | .space n a => .withArg n.toList a.toList

/-- The characters of names and arguments. -/
def NameChar (c : Char) : Prop := c = '-' ∨ ('a' ≤ c ∧ c ≤ 'z') ∨ ('A' ≤ c ∧ c ≤ 'Z')

theorem nameChar_ok {c : Char} (h : NameChar c) : c ≠ ',' ∧ c ≠ '[' ∧ c ≠ ']' ∧ c ≠ '=' ∧ isSpace c = false ∧ c ≠ '\n' := by
  have key : c.toNat = 45 ∨ (97 ≤ c.toNat ∧ c.toNat ≤ 122) ∨ (65 ≤ c.toNat ∧ c.toNat ≤ 90) := by
    rcases h with rfl | h | h
    · exact .inl rfl
    · exact .inr (.inl ⟨Char.le_def.1 h.1, Char.le_def.1 h.2⟩)
    · exact .inr (.inr ⟨Char.le_def.1 h.1, Char.le_def.1 h.2⟩)
  have ne : ∀ d : Char, d.toNat ∈ [44, 91, 93, 61, 10] → c ≠ d := by
    rintro d hd rfl
    simp only [List.mem_cons, List.not_mem_nil, or_false] at hd
    omega
  refine ⟨ne _ (by decide), ne _ (by decide), ne _ (by decide), ne _ (by decide), ?_, ne _ (by decide)⟩
  unfold isSpace
  rw [Bool.eq_false_iff]
  intro hc
  simp only [List.contains_eq_mem, decide_eq_true_eq, List.mem_cons, List.not_mem_nil, or_false] at hc
  omega

theorem proper_chars {n : String} (h : ProperName n) : ∀ c ∈ n.toList, NameChar c := by
  obtain ⟨k, c, tail, e, h⟩ := h
  intro x hx
  rw [e, List.mem_append, List.mem_cons] at hx
  rcases hx with hx | rfl | hx
  · exact .inl (List.eq_of_mem_replicate hx)
  · rcases h with h | h
    · exact .inr (.inl h.1)
    · exact .inr (.inr h.1)
  · rcases h with h | h
    · rcases h.2 x hx with h | h
      · exact .inr (.inl h)
      · exact .inl h
    · rw [h.2] at hx; cases hx

theorem arg_chars {a : String} (h : ProperArg a) : ∀ c ∈ a.toList, NameChar c := fun c hc => .inr (.inr (h.2 c hc))

theorem splitComma_none {p : List Char} (h : ',' ∉ p) : splitComma p = [p] := by
  induction p with
  | nil => rfl
  | cons a p ih =>
      cases p with
      | nil => rfl
      | cons b p =>
          have ha : a ≠ ',' := fun e => h (by simp [e])
          rw [splitComma, if_neg (fun hh => ha hh.1), ih (fun hm => h (List.mem_cons_of_mem _ hm))]
          rfl

theorem splitComma_append {p : List Char} (h : ',' ∉ p) (rest : List Char) :
    splitComma (p ++ ',' :: ' ' :: rest) = p :: splitComma rest := by
  induction p with
  | nil => simp [splitComma]
  | cons a p ih =>
      have ha : a ≠ ',' := fun e => h (by simp [e])
      obtain ⟨b, q, e⟩ : ∃ b q, p ++ ',' :: ' ' :: rest = b :: q := by cases p <;> exact ⟨_, _, rfl⟩
      have ih := ih (fun hm => h (List.mem_cons_of_mem _ hm))
      rw [List.cons_append, e, splitComma, if_neg (fun hh => ha hh.1), ← e, ih]
      rfl

theorem splitEq_none {p : List Char} (h : '=' ∉ p) : splitEq p = [p] := by
  induction p with
  | nil => rfl
  | cons a p ih =>
      rw [splitEq, if_neg (fun e => h (by simp [e])), ih (fun hm => h (List.mem_cons_of_mem _ hm))]
      rfl

theorem splitEq_append {p : List Char} (h : '=' ∉ p) (rest : List Char) : splitEq (p ++ '=' :: rest) = p :: splitEq rest := by
  induction p with
  | nil => simp [splitEq]
  | cons a p ih =>
      rw [List.cons_append, splitEq, if_neg (fun e => h (by simp [e])), ih (fun hm => h (List.mem_cons_of_mem _ hm))]
      rfl

theorem splitSpaces_none {p : List Char} (h : ∀ c ∈ p, isSpace c = false) : splitSpaces p = [p] := by
  induction p with
  | nil => rfl
  | cons a p ih =>
      have ha := h a (by simp)
      cases p with
      | nil => simp [splitSpaces, ha]
      | cons b p => 
          rw [splitSpaces, if_neg (by simp [ha]), ih (fun c hc => h c (List.mem_cons_of_mem _ hc))]
          rfl

theorem splitSpaces_append {p q : List Char} (h : ∀ c ∈ p, isSpace c = false) (hq : ∀ c ∈ q, isSpace c = false)
    (hne : q ≠ []) : splitSpaces (p ++ ' ' :: q) = [p, q] := by
  induction p with
  | nil =>
      obtain ⟨b, q, rfl⟩ := List.exists_cons_of_ne_nil hne
      rw [List.nil_append, splitSpaces, if_pos (by decide), if_neg (by simp [hq b (by simp)]), splitSpaces_none hq]
  | cons a p ih =>
      obtain ⟨b, r, e⟩ : ∃ b r, p ++ ' ' :: q = b :: r := by cases p <;> exact ⟨_, _, rfl⟩
      have ih := ih (fun c hc => h c (List.mem_cons_of_mem _ hc))
      rw [List.cons_append, e, splitSpaces, if_neg (by simp [h a (by simp)]), ← e, ih]
      rfl

theorem strip_eq {p : List Char} (h1 : ∀ c ∈ p.head?, isSpace c = false) (h2 : ∀ c ∈ p.getLast?, isSpace c = false) :
    strip p = p := by
  have key : ∀ q : List Char, (∀ c ∈ q.head?, isSpace c = false) → q.dropWhile isSpace = q := by
    intro q hq
    cases q with
    | nil => rfl
    | cons a q => exact List.dropWhile_cons_of_neg (by simp [hq a (by simp)])
  unfold strip
  rw [key p h1, key p.reverse (by rw [List.head?_reverse]; exact h2), List.reverse_reverse]

theorem Item.chars {i : Item} (h : i.Proper) : (∀ c ∈ i.name.toList, NameChar c) ∧ ProperName i.name := by
  cases i with
  | flag n => exact ⟨proper_chars h, h⟩
  | equals n a => exact ⟨proper_chars h.1, h.1⟩
  | space n a => exact ⟨proper_chars h.1, h.1⟩

theorem Item.text_chars {i : Item} (h : i.Proper) : ∀ c ∈ i.text.toList, c ≠ ',' ∧ c ≠ '[' ∧ c ≠ ']' := by
  intro c hc
  have key : NameChar c ∨ c = '=' ∨ c = ' ' := by
    cases i with
    | flag n => exact .inl (proper_chars h c hc)
    | equals n a =>
        simp only [Item.text, String.toList_append, List.mem_append] at hc
        rcases hc with (hc | hc) | hc
        · exact .inl (proper_chars h.1 c hc)
        · exact .inr (.inl (by simpa using hc))
        · exact .inl (arg_chars h.2 c hc)
    | space n a =>
        simp only [Item.text, String.toList_append, List.mem_append] at hc
        rcases hc with (hc | hc) | hc
        · exact .inl (proper_chars h.1 c hc)
        · exact .inr (.inr (by simpa using hc))
        · exact .inl (arg_chars h.2 c hc)
  rcases key with h | rfl | rfl
  · exact ⟨(nameChar_ok h).1, (nameChar_ok h).2.1, (nameChar_ok h).2.2.1⟩
  · decide
  · decide

theorem proper_ne {n : String} (h : ProperName n) : n.toList ≠ [] := by
  obtain ⟨k, c, tail, e, _⟩ := h
  rw [e]; simp

theorem headOpt_append {p q : List Char} (h : p ≠ []) : (p ++ q).head? = p.head? := by
  cases p with
  | nil => exact absurd rfl h
  | cons a p => rfl

theorem lastOpt_append {p q : List Char} (h : q ≠ []) : (p ++ q).getLast? = q.getLast? := by
  rw [List.getLast?_append, List.getLast?_eq_some_getLast h]; rfl

theorem Item.ends {i : Item} (h : i.Proper) :
    (∀ c ∈ i.text.toList.head?, isSpace c = false) ∧ ∀ c ∈ i.text.toList.getLast?, isSpace c = false := by
  have hn := Item.chars h
  have hsp : ∀ n : String, (∀ c ∈ n.toList, NameChar c) → ∀ c ∈ n.toList, isSpace c = false :=
    fun n hn c hc => (nameChar_ok (hn c hc)).2.2.2.2.1
  cases i with
  | flag n =>
      exact ⟨fun c hc => hsp n hn.1 c (List.mem_of_mem_head? hc), fun c hc => hsp n hn.1 c (List.mem_of_getLast? hc)⟩
  | equals n a =>
      have hne := proper_ne h.1
      have hna : a.toList ≠ [] := fun e => h.2.1 (toList_eq_nil.1 e)
      simp only [Item.text, String.toList_append, List.append_assoc]
      refine ⟨fun c hc => ?_, fun c hc => ?_⟩
      · rw [headOpt_append hne] at hc
        exact hsp n hn.1 c (List.mem_of_mem_head? hc)
      · rw [lastOpt_append (by simp), lastOpt_append hna] at hc
        exact hsp a (arg_chars h.2) c (List.mem_of_getLast? hc)
  | space n a =>
      have hne := proper_ne h.1
      have hna : a.toList ≠ [] := fun e => h.2.1 (toList_eq_nil.1 e)
      simp only [Item.text, String.toList_append, List.append_assoc]
      refine ⟨fun c hc => ?_, fun c hc => ?_⟩
      · rw [headOpt_append hne] at hc
        exact hsp n hn.1 c (List.mem_of_mem_head? hc)
      · rw [lastOpt_append (by simp), lastOpt_append hna] at hc
        exact hsp a (arg_chars h.2) c (List.mem_of_getLast? hc)

theorem itemArg_key (i : Item) : (itemArg i).key = removeDashes i.name.toList := by cases i <;> rfl

theorem findPhrase_item {i : Item} (h : i.Proper) {past : List (List Char)} (hk : (itemArg i).key ∉ past) :
    findPhrase i.text.toList past = some (itemArg i) := by
  have hn := Item.chars h
  have hm : (matchLine longName i.name.toList || matchLine capitalName i.name.toList) = true := by
    rw [Bool.or_eq_true, matchLine_iff, matchLine_iff]
    rcases (proper_iff _).1 hn.2 with h | h
    · exact .inl (.inl h)
    · exact .inr (.inl h)
  have hsp : ∀ n : String, (∀ c ∈ n.toList, NameChar c) → (∀ c ∈ n.toList, isSpace c = false) ∧ '=' ∉ n.toList :=
    fun n hn => ⟨fun c hc => (nameChar_ok (hn c hc)).2.2.2.2.1, fun hc => (nameChar_ok (hn _ hc)).2.2.2.1 rfl⟩
  have harg : ∀ a, ProperArg a → matchLine argName a.toList = true := fun a ha =>
    (matchLine_iff _ _).2 (.inl ((arg_iff a).1 ha))
  rw [itemArg_key] at hk
  cases i with
  | flag n =>
      have : phraseParts n.toList = [n.toList] := by
        unfold phraseParts
        rw [if_neg (by simpa using (hsp n hn.1).2), splitSpaces_none (hsp n hn.1).1]
      simp only [findPhrase, Item.text, this]
      simp only [Item.name] at hm hk
      rw [if_pos hm, if_neg hk]; rfl
  | equals n a =>
      have : phraseParts (n ++ "=" ++ a).toList = [n.toList, a.toList] := by
        have e : (n ++ "=" ++ a).toList = n.toList ++ '=' :: a.toList := by simp
        unfold phraseParts
        rw [e, if_pos (by simp), splitEq_append (hsp n hn.1).2, splitEq_none (hsp a (arg_chars h.2)).2]
      simp only [findPhrase, Item.text, this]
      simp only [Item.name] at hm hk
      rw [if_pos hm, if_neg hk, if_pos (harg a h.2)]; rfl
  | space n a =>
      have : phraseParts (n ++ " " ++ a).toList = [n.toList, a.toList] := by
        have e : (n ++ " " ++ a).toList = n.toList ++ ' ' :: a.toList := by simp
        unfold phraseParts
        rw [e, if_neg (by simpa using ⟨(hsp n hn.1).2, (hsp a (arg_chars h.2)).2⟩),
          splitSpaces_append (hsp n hn.1).1 (hsp a (arg_chars h.2)).1 (fun e => h.2.1 (toList_eq_nil.1 e))]
      simp only [findPhrase, Item.text, this]
      simp only [Item.name] at hm hk
      rw [if_pos hm, if_neg hk, if_pos (harg a h.2)]; rfl

theorem splitComma_line (items : List Item) (hne : items ≠ []) (h : ∀ i ∈ items, i.Proper) :
    splitComma (lineOf items).toList = items.map (fun i => i.text.toList) := by
  induction items with
  | nil => exact absurd rfl hne
  | cons i is ih =>
      have hi : ',' ∉ i.text.toList := fun hc => (Item.text_chars (h i (by simp)) _ hc).1 rfl
      cases is with
      | nil => exact splitComma_none hi
      | cons j is =>
          have e : (lineOf (i :: j :: is)).toList = i.text.toList ++ ',' :: ' ' :: (lineOf (j :: is)).toList := by
            simp [lineOf]
          rw [e, splitComma_append hi, ih (by simp) (fun i hi => h i (by simp [hi]))]; rfl

theorem dropBrackets_line (items : List Item) (h : ∀ i ∈ items, i.Proper) :
    dropBrackets (lineOf items).toList = (lineOf items).toList := by
  unfold dropBrackets
  rw [List.filter_eq_self]
  induction items with
  | nil => intro c hc; simp [lineOf] at hc
  | cons i is ih =>
      intro c hc
      have hi := Item.text_chars (h i (by simp))
      cases is with
      | nil => simpa using (hi c hc).2
      | cons j is =>
          have e : (lineOf (i :: j :: is)).toList = i.text.toList ++ ',' :: ' ' :: (lineOf (j :: is)).toList := by
            simp [lineOf]
          rw [e, List.mem_append, List.mem_cons, List.mem_cons] at hc
          rcases hc with hc | rfl | rfl | hc
          · simpa using (hi c hc).2
          · rfl
          · rfl
          · exact ih (fun i hi => h i (by simp [hi])) c hc

theorem findPhrases_items (items : List Item) (h : ∀ i ∈ items, i.Proper) (past : List (List Char))
    (hk : (items.map fun i => (itemArg i).key).Nodup) (hp : ∀ i ∈ items, (itemArg i).key ∉ past) :
    (findPhrases (items.map fun i => i.text.toList) past).1 = items.map itemArg := by
  induction items generalizing past with
  | nil => rfl
  | cons i is ih =>
      have hi := h i (by simp)
      rw [List.map_cons, findPhrases, strip_eq (Item.ends hi).1 (Item.ends hi).2,
        findPhrase_item hi (hp i (by simp))]
      simp only [List.map_cons, List.nodup_cons, List.mem_map, not_exists, not_and] at hk
      simp only [List.map_cons, List.cons.injEq, true_and]
      refine ih (fun i hi => h i (by simp [hi])) _ hk.2 ?_
      intro j hj hm
      rcases List.mem_cons.1 hm with e | hm
      · exact hk.1 j hj e
      · exact hp j (by simp [hj]) hm

/-! The data file of a page with a given line. -/

/-- What a line contributes to the flags. -/
def lineFlags (l : List PageArg) : List FlagEntry :=
  if l.all (fun a => a.str?.isSome) then [.group ((l.filterMap PageArg.str?).map String.ofList)]
  else (l.filterMap PageArg.str?).map fun n => .bare (String.ofList n)

/-- What an element contributes to the options. -/
def argOption : PageArg → Option OptionEntry
  | .name _ => none
  | .withArg n a => some ⟨[String.ofList n], .word (String.ofList a)⟩

theorem foldl_addMixed (l : List PageArg) (d : JsonData) : l.foldl addMixed d =
    ⟨d.flag ++ (l.filterMap PageArg.str?).map (fun n => .bare (String.ofList n)), d.option ++ l.filterMap argOption⟩ := by
  induction l generalizing d with
  | nil => simp
  | cons a l ih => cases a <;> simp [ih, addMixed, PageArg.str?, argOption, List.filterMap_cons]

theorem addLine_eq (d : JsonData) (l : List PageArg) :
    addLine d l = ⟨d.flag ++ lineFlags l, d.option ++ l.filterMap argOption⟩ := by
  unfold addLine lineFlags
  split
  · rename_i h
    have : l.filterMap argOption = [] := by
      rw [List.filterMap_eq_nil_iff]
      intro a ha
      have := List.all_eq_true.1 h a ha
      cases a with
      | name n => rfl
      | withArg n a => simp [PageArg.str?] at this
    simp [this]
  · exact foldl_addMixed l d

theorem parseArgs_eq (args : List (List PageArg)) :
    parseArgs args = ⟨args.flatMap lineFlags, args.flatMap (·.filterMap argOption)⟩ := by
  suffices h : ∀ d, args.foldl addLine d = ⟨d.flag ++ args.flatMap lineFlags, d.option ++ args.flatMap (·.filterMap argOption)⟩ from
    h ⟨[], []⟩
  induction args with
  | nil => intro d; simp
  | cons l args ih => intro d; rw [List.foldl_cons, ih, addLine_eq]; simp

/-- A line of proper items whose names, up to dashes, are different and new on the page. -/
structure GoodLine (before : List String) (items : List Item) : Prop where
  nonempty : items ≠ []
  proper : ∀ i ∈ items, i.Proper
  distinct : (items.map fun i => dashless i.name).Nodup
  new : ∀ i ∈ items, dashless i.name ∉ (allNames (skeletonOf before)).map dashless

theorem dashless_eq (n : String) : dashless n = String.ofList (removeDashes n.toList) := by
  unfold dashless removeDashes
  congr 2
  funext c
  by_cases hc : c = '-' <;> simp [hc]

theorem skeleton_line {before : List String} {items : List Item} (hg : GoodLine before items) (after : List String) :
    ∃ b a : List (List PageArg), skeletonOf (before ++ lineOf items :: after) =
      ⟨b.flatMap lineFlags ++ lineFlags (items.map itemArg) ++ a.flatMap lineFlags,
        b.flatMap (·.filterMap argOption) ++ (items.map itemArg).filterMap argOption ++ a.flatMap (·.filterMap argOption)⟩ ∧
      ∀ x ∈ a.flatten ++ b.flatten, ProperName (pageSpelling x) ∨ ∃ n', ProperName n' ∧ pageSpelling x = n' ++ "\n" := by
  have hm : (findMatches (lineOf items).toList (pastAfter (before.map String.toList) [])).1 = items.map itemArg := by
    unfold findMatches
    rw [dropBrackets_line _ hg.proper, splitComma_line _ hg.nonempty hg.proper]
    refine findPhrases_items items hg.proper _ ?_ ?_
    · have := hg.distinct
      have e : (items.map fun i => dashless i.name) = (items.map fun i => (itemArg i).key).map String.ofList := by
        rw [List.map_map]
        exact List.map_congr_left (fun i _ => by rw [dashless_eq, Function.comp, itemArg_key])
      rw [e] at this
      exact List.Pairwise.of_map String.ofList (fun a b h e => h (by rw [e])) this
    · intro i hi hmem
      rw [mem_pastAfter] at hmem
      rcases hmem with hmem | hmem
      · refine hg.new i hi ?_
        obtain ⟨a, ha, hka⟩ := List.mem_map.1 hmem
        refine List.mem_map.2 ⟨pageSpelling a, (allNames_parseArgs _).mem_iff.2 (List.mem_map_of_mem ha), ?_⟩
        rw [dashless_spelling, hka, itemArg_key, dashless_eq]
      · cases hmem
  refine ⟨findLines (before.map String.toList) [],
    findLines (after.map String.toList) (findMatches (lineOf items).toList (pastAfter (before.map String.toList) [])).2, ?_, ?_⟩
  · show skeleton _ = _
    unfold skeleton
    rw [List.map_append, findLines_append, List.map_cons, findLines, parseArgs_eq]
    simp only [hm]
    rw [if_neg (by simpa using hg.nonempty)]
    simp
  · intro x hx
    have : ∃ ls past, x ∈ (findLines ls past).flatten := by
      rcases List.mem_append.1 hx with hx | hx <;> exact ⟨_, _, hx⟩
    obtain ⟨ls, past, hx⟩ := this
    obtain ⟨_, _, h1, _⟩ := findLines_word hx
    have e : pageSpelling x = String.ofList (PageWord x).1 := by cases x <;> rfl
    rw [e]
    rw [Bool.or_eq_true, matchLine_iff, matchLine_iff] at h1
    rcases h1 with (h | ⟨v, hv, h⟩) | (h | ⟨v, hv, h⟩)
    · exact .inl ((proper_iff _).2 (.inl (by rw [String.toList_ofList]; exact h)))
    · exact .inr ⟨String.ofList v, (proper_iff _).2 (.inl (by rw [String.toList_ofList]; exact h)),
        by rw [hv]; exact String.ofList_append⟩
    · exact .inl ((proper_iff _).2 (.inr (by rw [String.toList_ofList]; exact h)))
    · exact .inr ⟨String.ofList v, (proper_iff _).2 (.inr (by rw [String.toList_ofList]; exact h)),
        by rw [hv]; exact String.ofList_append⟩

theorem proper_length {n : String} (h : ProperName n) (c : Char) : n ≠ String.ofList [c] := by
  obtain ⟨k, x, tail, e, _⟩ := h
  rintro rfl
  rw [String.toList_ofList] at e
  have := congrArg List.length e
  simp at this
  omega

theorem declared_entry {n : String} (hn : ProperName n) {e : FlagEntry} (h : n ∈ flagSpellings e) :
    n ∈ entryNames e := by
  cases e with
  | group l => exact h
  | bare s =>
      rw [flagSpellings_eq] at h
      obtain ⟨c, _, hc⟩ := List.mem_map.1 h
      exact absurd hc.symm (proper_length hn c)

/-- A name in one place of the data file is in no other place. -/
theorem skeleton_once {lines : List String} {n : String} {B A : List FlagEntry} {e : FlagEntry}
    (hd : (skeletonOf lines).flag = B ++ e :: A) (hn : n ∈ entryNames e) :
    (∀ e' ∈ B ++ A, n ∉ entryNames e') ∧ n ∉ (skeletonOf lines).option.flatMap OptionEntry.names := by
  have hnd : (allNames (skeletonOf lines)).Nodup :=
    List.Pairwise.of_map dashless (fun a b h e => h (by rw [e])) (C71_once lines)
  unfold allNames at hnd
  rw [hd, List.nodup_append] at hnd
  refine ⟨?_, fun hm => hnd.2.2 n (List.mem_flatMap.2 ⟨e, by simp, hn⟩) n hm rfl⟩
  have h1 := hnd.1
  rw [List.flatMap_append, List.flatMap_cons, List.nodup_append] at h1
  intro e' he' hn'
  rcases List.mem_append.1 he' with he' | he'
  · exact h1.2.2 n (List.mem_flatMap.2 ⟨e', he', hn'⟩) n (by simp [hn]) rfl
  · have h2 := h1.2.1
    rw [List.nodup_append] at h2
    exact h2.2.2 n hn n (List.mem_flatMap.2 ⟨e', he', hn'⟩) rfl

theorem lineFlags_flags {items : List Item} (h : ∀ i ∈ items, i.IsFlag) :
    lineFlags (items.map itemArg) = [.group (items.map Item.name)] := by
  have h1 : ∀ i ∈ items, (itemArg i).str? = some i.name.toList := by
    intro i hi
    have := h i hi
    cases i with
    | flag n => rfl
    | equals n a => exact this.elim
    | space n a => exact this.elim
  unfold lineFlags
  rw [if_pos (by
    rw [List.all_eq_true]; intro a ha
    obtain ⟨i, hi, rfl⟩ := List.mem_map.1 ha
    rw [h1 i hi]; rfl)]
  have : (items.map itemArg).filterMap PageArg.str? = items.map fun i => i.name.toList := by
    rw [List.filterMap_map]
    clear h
    induction items with
    | nil => rfl
    | cons i is ih =>
        rw [List.filterMap_cons, Function.comp, h1 i (by simp), ih (fun i hi => h1 i (by simp [hi]))]; rfl
  rw [this, List.map_map]
  congr 2
  exact List.map_congr_left (fun i _ => by simp)

theorem lineFlags_mixed {items : List Item} (h : ∃ i ∈ items, ¬ i.IsFlag) {n : String} (hn : Item.flag n ∈ items) :
    FlagEntry.bare n ∈ lineFlags (items.map itemArg) := by
  unfold lineFlags
  rw [if_neg (by
    rw [List.all_eq_true]; intro ha
    obtain ⟨i, hi, hf⟩ := h
    have := ha _ (List.mem_map_of_mem hi)
    cases i with
    | flag n => exact hf trivial
    | equals n a => simp [itemArg, PageArg.str?] at this
    | space n a => simp [itemArg, PageArg.str?] at this)]
  refine List.mem_map.2 ⟨n.toList, List.mem_filterMap.2 ⟨.name n.toList, List.mem_map.2 ⟨_, hn, rfl⟩, rfl⟩, by simp⟩

/-- C72, the part that holds. When all items of a line are flags, every name on it is read as one and the same flag,
the first of the line, wherever the line stands on the page.

Missing from the full claim: lines with options, see `C72_options` and `C72_mixed`. -/
theorem C72_flags_partial {before : List String} {items : List Item} (hg : GoodLine before items) (after : List String)
    (hf : ∀ i ∈ items, i.IsFlag) {first : Item} (hfirst : items.head? = some first) {i : Item} (hi : i ∈ items)
    (rest : List String) {fs : List FlagOption} {ops : List String}
    (hd : Derives (skeletonOf (before ++ lineOf items :: after)) rest fs ops) :
    Derives (skeletonOf (before ++ lineOf items :: after)) (i.name :: rest) (.flag first.name :: fs) ops := by
  obtain ⟨b, a, e, _⟩ := skeleton_line hg after
  rw [lineFlags_flags hf] at e
  have hfl : (skeletonOf (before ++ lineOf items :: after)).flag =
      b.flatMap lineFlags ++ .group (items.map Item.name) :: a.flatMap lineFlags := by rw [e]; simp
  have hn := (Item.chars (hg.proper i hi)).2
  have hmem : i.name ∈ entryNames (.group (items.map Item.name)) := List.mem_map_of_mem hi
  have honce := skeleton_once hfl hmem
  obtain ⟨is, rfl⟩ : ∃ is, items = first :: is := by
    cases items with
    | nil => cases hfirst
    | cons j is => cases hfirst; exact ⟨_, rfl⟩
  have hother : ∀ e' ∈ b.flatMap lineFlags ++ a.flatMap lineFlags, i.name ∉ flagSpellings e' :=
    fun e' he' hm => honce.1 e' he' (declared_entry hn hm)
  have hgroups : flagGroups (skeletonOf (before ++ lineOf (first :: is) :: after)) =
      (b.flatMap lineFlags).map flagSpellings ++ (first.name :: is.map Item.name) :: (a.flatMap lineFlags).map flagSpellings := by
    rw [flagGroups, hfl]; simp [flagSpellings]
  refine .flag (fun h0 => proper_ne hn (toList_eq_nil.2 h0)) ⟨first.name :: is.map Item.name, ?_, hmem⟩ ?_ hd
  · rw [hgroups]; simp
  · rw [hgroups]
    rcases List.mem_cons.1 hi with rfl | hi'
    · refine .inr ⟨?_, rfl⟩
      intro g hg' hm
      rcases List.mem_append.1 hg' with hg' | hg'
      · obtain ⟨e', he', rfl⟩ := List.mem_map.1 hg'
        exact hother e' (by simp [he']) (List.mem_of_mem_tail hm)
      · rcases List.mem_cons.1 hg' with rfl | hg'
        · obtain ⟨j, hj, hjn⟩ := List.mem_map.1 hm
          have := hg.distinct
          rw [List.map_cons, List.nodup_cons] at this
          exact this.1 (List.mem_map.2 ⟨j, hj, by rw [hjn]⟩)
        · obtain ⟨e', he', rfl⟩ := List.mem_map.1 hg'
          exact hother e' (by simp [he']) (List.mem_of_mem_tail hm)
    · refine .inl ⟨_, first.name, _, _, rfl, List.mem_map_of_mem hi', rfl, ?_⟩
      intro g hg' hm
      obtain ⟨e', he', rfl⟩ := List.mem_map.1 hg'
      exact hother e' (by simp [he']) (List.mem_of_mem_tail hm)

example : GoodLine ["-v, --verbose", "-o FILE"] [.flag "-c", .flag "--count"] where
  nonempty := by simp
  proper := by
    intro i hi
    rcases List.mem_cons.1 hi with rfl | hi
    · exact ⟨0, 'c', [], by decide, .inl (by decide)⟩
    · rcases List.mem_cons.1 hi with rfl | hi
      · exact ⟨1, 'c', "ount".toList, by decide, .inl (by decide)⟩
      · cases hi
  distinct := by decide +kernel
  new := by decide +kernel

/-- The options in the data file have one name each. -/
theorem option_single {lines : List (List PageArg)} {e : OptionEntry}
    (h : e ∈ lines.flatMap (·.filterMap argOption)) : ∃ n, e.names = [n] := by
  obtain ⟨l, _, h⟩ := List.mem_flatMap.1 h
  obtain ⟨a, _, h⟩ := List.mem_filterMap.1 h
  cases a with
  | name n => cases h
  | withArg n a => cases h; exact ⟨_, rfl⟩

/-- C72 fails for options: each option on a line is read under its own name, whatever else stands on the line. Two
spellings of one option are therefore two options. -/
theorem C72_options {before : List String} {items : List Item} (hg : GoodLine before items) (after : List String)
    {i : Item} (hi : i ∈ items) (ho : ¬ i.IsFlag) (arg : String) (rest : List String)
    {fs : List FlagOption} {ops : List String}
    (hd : Derives (skeletonOf (before ++ lineOf items :: after)) rest fs ops) :
    Derives (skeletonOf (before ++ lineOf items :: after)) (i.name :: arg :: rest) (.option i.name arg :: fs) ops := by
  obtain ⟨b, a, e, _⟩ := skeleton_line hg after
  have hn := (Item.chars (hg.proper i hi)).2
  have hop : (skeletonOf (before ++ lineOf items :: after)).option =
      (b ++ items.map itemArg :: a).flatMap (·.filterMap argOption) := by rw [e]; simp
  have hdecl : Declared (optionGroups (skeletonOf (before ++ lineOf items :: after))) i.name := by
    have hm : ∃ x, x ∈ (items.map itemArg).filterMap argOption ∧ x.names = [i.name] := by
      cases i with
      | flag n => exact absurd trivial ho
      | equals n a => exact ⟨_, List.mem_filterMap.2 ⟨_, List.mem_map_of_mem hi, rfl⟩, by simp [Item.name]⟩
      | space n a => exact ⟨_, List.mem_filterMap.2 ⟨_, List.mem_map_of_mem hi, rfl⟩, by simp [Item.name]⟩
    obtain ⟨x, hx, hxn⟩ := hm
    refine ⟨[i.name], List.mem_map.2 ⟨x, ?_, hxn⟩, by simp⟩
    rw [hop]
    exact List.mem_flatMap.2 ⟨_, by simp, hx⟩
  refine .option (fun h0 => proper_ne hn (toList_eq_nil.2 h0)) ?_ hdecl ?_ hd
  · rintro ⟨g, hg', hm⟩
    obtain ⟨e', he', rfl⟩ := List.mem_map.1 hg'
    obtain ⟨B, A, hBA⟩ := List.append_of_mem he'
    have := (skeleton_once hBA (declared_entry hn hm)).2
    obtain ⟨g', hg2, hm2⟩ := hdecl
    obtain ⟨x, hx, rfl⟩ := List.mem_map.1 hg2
    exact this (List.mem_flatMap.2 ⟨x, hx, hm2⟩)
  · refine .inr ⟨?_, rfl⟩
    intro g hg' hm
    obtain ⟨x, hx, rfl⟩ := List.mem_map.1 hg'
    rw [hop] at hx
    obtain ⟨n, hn'⟩ := option_single hx
    rw [hn'] at hm
    cases hm

/-- C72 fails for a flag on a line with an option (as `-t` beside `--target=DIR`): the flag is not declared at all, neither
as a flag nor as an option. Its single characters are declared instead. -/
theorem C72_mixed {before : List String} {items : List Item} (hg : GoodLine before items) (after : List String)
    (ho : ∃ i ∈ items, ¬ i.IsFlag) {n : String} (hn : Item.flag n ∈ items) :
    (¬ Declared (flagGroups (skeletonOf (before ++ lineOf items :: after))) n ∧
      ¬ Declared (optionGroups (skeletonOf (before ++ lineOf items :: after))) n) ∧
      ∀ c ∈ n.toList, Declared (flagGroups (skeletonOf (before ++ lineOf items :: after))) (String.ofList [c]) := by
  obtain ⟨b, a, e, _⟩ := skeleton_line hg after
  have hp : ProperName n := hg.proper _ hn
  have hb := lineFlags_mixed ho hn
  have hmem : FlagEntry.bare n ∈ (skeletonOf (before ++ lineOf items :: after)).flag := by rw [e]; simp [hb]
  obtain ⟨B, A, hBA⟩ := List.append_of_mem hmem
  have honce := skeleton_once hBA (n := n) (by simp [entryNames])
  refine ⟨⟨?_, ?_⟩, ?_⟩
  · rintro ⟨g, hg', hm⟩
    rw [flagGroups, hBA, List.map_append, List.map_cons] at hg'
    have hx : ∀ e' ∈ B ++ A, n ∉ flagSpellings e' := fun e' he' hm => honce.1 e' he' (declared_entry hp hm)
    rcases List.mem_append.1 hg' with hg' | hg'
    · obtain ⟨e', he', rfl⟩ := List.mem_map.1 hg'
      exact hx e' (by simp [he']) hm
    · rcases List.mem_cons.1 hg' with rfl | hg'
      · rw [flagSpellings_eq] at hm
        obtain ⟨c, _, hc⟩ := List.mem_map.1 hm
        exact proper_length hp c hc.symm
      · obtain ⟨e', he', rfl⟩ := List.mem_map.1 hg'
        exact hx e' (by simp [he']) hm
  · rintro ⟨g, hg', hm⟩
    obtain ⟨x, hx, rfl⟩ := List.mem_map.1 hg'
    exact honce.2 (List.mem_flatMap.2 ⟨x, hx, hm⟩)
  · intro c hc
    refine ⟨_, List.mem_map_of_mem hmem, ?_⟩
    rw [flagSpellings_eq]
    exact List.mem_map.2 ⟨c, hc, rfl⟩

/-- C72 for `grep`'s pattern option: the two spellings on the line of the manual page are two options. -/
theorem C72_options_false : Derives (skeletonOf ["-e PATTERN, --regexp=PATTERN"])
    ["-e", "a", "--regexp", "b"] [.option "-e" "a", .option "--regexp" "b"] [] := by
  rw [derives_iff]; decide +kernel

/-- C72 for the shape of `uniq`'s field option: the short spelling starts the operands. -/
theorem C72_mixed_false : Derives (skeletonOf ["-f, --skip-fields=N"]) ["-f", "2", "input"] [] ["-f", "2", "input"] ∧
    Derives (skeletonOf ["-f, --skip-fields=N"]) ["f", "input"] [.flag "-"] ["input"] := by
  constructor <;> (rw [derives_iff]; decide +kernel)

/-- C72 for a name with a digit: the line adds nothing. -/
theorem C72_digit_false : skeletonOf ["--files0-from=F"] = ⟨[], []⟩ := by decide +kernel

/-- The lines of the manual page of `uniq` that the script looks at. -/
def uniqPage : List String := ["-c, --count", "-d, --repeated", "-D     print all duplicate lines",
  "--all-repeated[=METHOD]", "-f, --skip-fields=N", "--group[=METHOD]", "-i, --ignore-case", "-s, --skip-chars=N",
  "-u, --unique", "-z, --zero-terminated", "-w, --check-chars=N", "--help display this help and exit", "--version"]

/-- The shipped data file of `uniq` is the output of the script on that page, including its mistakes (C10). -/
theorem C72_uniq_shipped : skeletonOf uniqPage = Data.d_uniq := by decide +kernel

end PashAnn
