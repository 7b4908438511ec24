import Verif.Props.JsonText

/-! C101, continued: the layout of what the script for manual pages prints (`json.dumps` with `indent=4`). -/

namespace PashAnn
open Spec DataFiles
open Spec.JsonText (Plain Written Lines ElementLines MemberLine MemberLines laidOut)

theorem noNewline_hexDigit (n : Nat) (h : n < 16) : '\n' ≠ Json.hexDigit n := by
  intro he
  have := ascii_hexDigit n h
  rw [← he] at this
  exact absurd this.1 (by decide)

theorem noNewline_uText (n : Nat) : '\n' ∉ Json.uText n := by
  simp only [Json.uText, List.mem_cons, List.not_mem_nil, or_false, not_or]
  exact ⟨by decide, by decide, noNewline_hexDigit _ (by omega), noNewline_hexDigit _ (by omega), noNewline_hexDigit _ (by omega),
    noNewline_hexDigit _ (by omega)⟩

theorem noNewline_charText (c : Char) : '\n' ∉ Json.charText c := by
  unfold Json.charText
  repeat' split
  all_goals first
    | decide
    | exact noNewline_uText _
    | exact fun h => (List.mem_append.1 h).elim (noNewline_uText _) (noNewline_uText _)
    | skip
  rename_i h
  simp only [Bool.and_eq_true, decide_eq_true_eq] at h
  intro he
  rw [List.mem_singleton] at he
  rw [← he] at h
  exact absurd h.1 (by decide)

theorem noNewline_strText (s : String) : '\n' ∉ Json.strText s := by
  intro h
  simp only [Json.strText, List.cons_append, List.mem_cons, List.mem_append, List.mem_flatMap, List.not_mem_nil, or_false] at h
  rcases h with h | ⟨x, _, h⟩ | h
  · exact absurd h (by decide)
  · exact noNewline_charText x h
  · exact absurd h (by decide)

/-- The lines, each with a line end in front. -/
def ledOut (ls : List (Nat × List Char)) : List Char := ls.flatMap fun l => Json.newLine l.1 ++ l.2

theorem ledOut_append (a b : List (Nat × List Char)) : ledOut (a ++ b) = ledOut a ++ ledOut b := by simp [ledOut]
theorem ledOut_cons (x : Nat × List Char) (b : List (Nat × List Char)) : ledOut (x :: b) = Json.newLine x.1 ++ x.2 ++ ledOut b := by
  simp [ledOut]
theorem ledOut_nil : ledOut [] = [] := rfl

theorem ledOut_laidOut (x : Nat × List Char) (ls : List (Nat × List Char)) : ledOut (x :: ls) = '\n' :: laidOut (x :: ls) := by
  induction ls generalizing x with
  | nil => simp [ledOut, laidOut, Json.newLine, List.intercalate]
  | cons y ls ih =>
    rw [ledOut_cons, ih y]
    simp [laidOut, Json.newLine, List.intercalate]

theorem elementLines_text (d : Nat) (l : List Json) (v : Json)
    (hv : ∃ t ls, Lines d v ((d, t) :: ls) ∧ Json.newLine d ++ Json.text d v = ledOut ((d, t) :: ls))
    (h : ∀ w ∈ l, ∃ t ls, Lines d w ((d, t) :: ls) ∧ Json.newLine d ++ Json.text d w = ledOut ((d, t) :: ls)) :
    ∃ ls, ElementLines d (v :: l) ls ∧ Json.newLine d ++ Json.text d v ++ Json.textRest d l = ledOut ls := by
  induction l generalizing v with
  | nil =>
    obtain ⟨t, ls, h1, h2⟩ := hv
    exact ⟨_, .one _ _ _ h1, by simpa [Json.textRest] using h2⟩
  | cons w l ih =>
    obtain ⟨t, ls, h1, h2⟩ := hv
    obtain ⟨ms, g1, g2⟩ := ih w (h w (by simp)) (fun x hx => h x (by simp [hx]))
    obtain ⟨ps, ⟨e, u⟩, hp⟩ : ∃ ps q, (d, t) :: ls = ps ++ [q] :=
      ⟨_, _, (List.dropLast_concat_getLast (List.cons_ne_nil _ _)).symm⟩
    rw [hp] at h1 h2
    refine ⟨_, .more _ _ _ _ _ _ _ h1 g1, ?_⟩
    rw [h2, Json.textRest, ledOut_append, ledOut_append, ledOut_cons, ledOut_cons, ← g2, ledOut_nil]
    simp

theorem memberLines_text (d : Nat) (l : List (String × Json)) (k : String) (v : Json)
    (hv : ∃ t ls, Lines d v ((d, t) :: ls) ∧ Json.newLine d ++ Json.text d v = ledOut ((d, t) :: ls))
    (h : ∀ w ∈ l, ∃ t ls, Lines d w.2 ((d, t) :: ls) ∧ Json.newLine d ++ Json.text d w.2 = ledOut ((d, t) :: ls)) :
    ∃ ls, MemberLines d ((k, v) :: l) ls ∧
      Json.newLine d ++ Json.strText k ++ ": ".toList ++ Json.text d v ++ Json.textMembers d l = ledOut ls := by
  induction l generalizing k v with
  | nil =>
    obtain ⟨t, ls, h1, h2⟩ := hv
    refine ⟨_, .one _ _ _ _ (.mk _ _ _ _ _ _ (Json.strText_written k) (noNewline_strText k) h1), ?_⟩
    rw [ledOut_cons] at h2
    rw [ledOut_cons]
    have h3 : Json.text d v = t ++ ledOut ls := by simpa using h2
    simp [Json.textMembers, h3]
  | cons w l ih =>
    obtain ⟨k', v'⟩ := w
    obtain ⟨t, ls, h1, h2⟩ := hv
    obtain ⟨ms, g1, g2⟩ := ih k' v' (h (k', v') (by simp)) (fun x hx => h x (by simp [hx]))
    have hm : MemberLine d k v _ := .mk _ _ _ _ _ _ (Json.strText_written k) (noNewline_strText k) h1
    have h3 : Json.newLine d ++ Json.strText k ++ ": ".toList ++ Json.text d v =
        ledOut ((d, Json.strText k ++ [':', ' '] ++ t) :: ls) := by
      rw [ledOut_cons] at h2
      rw [ledOut_cons]
      have h3 : Json.text d v = t ++ ledOut ls := by simpa using h2
      simp [h3]
    obtain ⟨ps, ⟨e, u⟩, hp⟩ : ∃ ps q, (d, Json.strText k ++ [':', ' '] ++ t) :: ls = ps ++ [q] :=
      ⟨_, _, (List.dropLast_concat_getLast (List.cons_ne_nil _ _)).symm⟩
    rw [hp] at hm h3
    refine ⟨_, .more _ _ _ _ _ _ _ _ hm g1, ?_⟩
    rw [h3, Json.textMembers, ledOut_append, ledOut_append, ledOut_cons, ledOut_cons, ← g2, ledOut_nil]
    simp

theorem lines_simple (d : Nat) {v : Json} (h1 : ∀ l, v ≠ .arr l) (h2 : ∀ l, v ≠ .obj l) (h3 : Plain v)
    (h4 : '\n' ∉ Json.text d v) :
    ∃ t ls, Lines d v ((d, t) :: ls) ∧ Json.newLine d ++ Json.text d v = ledOut ((d, t) :: ls) :=
  ⟨_, [], .simple _ _ _ h1 h2 (Json.text_written h3 d) h4, by rw [ledOut_cons, ledOut_nil, List.append_nil]⟩

theorem lines_text {j : Json} (h : Plain j) (d : Nat) :
    ∃ t ls, Lines d j ((d, t) :: ls) ∧ Json.newLine d ++ Json.text d j = ledOut ((d, t) :: ls) := by
  induction h generalizing d with
  | null => exact lines_simple d nofun nofun .null (by simp only [Json.text]; decide)
  | bool b => exact lines_simple d nofun nofun (.bool b) (by cases b <;> simp only [Json.text] <;> decide)
  | str s => exact lines_simple d nofun nofun (.str s) (by simpa only [Json.text] using noNewline_strText s)
  | arr l _ ih =>
    cases l with
    | nil => exact ⟨_, [], .arr0 d, by simp [ledOut_cons, ledOut_nil, Json.text]⟩
    | cons v l =>
      obtain ⟨ls, h1, h2⟩ := elementLines_text (d + 1) l v (ih v (by simp) _)
        (fun w hw => ih w (by simp [hw]) _)
      refine ⟨_, _, .arr _ _ _ h1, ?_⟩
      rw [List.append_eq, ledOut_cons, ledOut_append, ← h2, ledOut_cons, ledOut_nil]
      simp [Json.text]
  | obj l hn _ ih =>
    cases l with
    | nil => exact ⟨_, [], .obj0 d, by simp [ledOut_cons, ledOut_nil, Json.text]⟩
    | cons e l =>
      obtain ⟨k, v⟩ := e
      obtain ⟨ls, h1, h2⟩ := memberLines_text (d + 1) l k v (ih (k, v) (by simp) _)
        (fun w hw => ih w (by simp [hw]) _)
      refine ⟨_, _, .obj _ _ _ h1, ?_⟩
      rw [List.append_eq, ledOut_cons, ledOut_append, ← h2, ledOut_cons, ledOut_nil]
      simp [Json.text]

/-- What is printed is laid out in lines: a list or object with anything in it has a line for each bracket, its elements between
them are one level deeper, and each line has four blanks in front for each level. -/
theorem C101_layout (j : Json) (h : Plain j) : ∃ ls, Lines 0 j ls ∧ Json.dumps j = laidOut ls := by
  obtain ⟨t, ls, h1, h2⟩ := lines_text h 0
  refine ⟨_, h1, ?_⟩
  rw [ledOut_laidOut] at h2
  exact (List.cons.inj h2).2

/-- Hence the text that the script prints for a page, which ends in a line end. -/
theorem C101_page_layout (page : List String) :
    ∃ ls, Lines 0 (shippedText (pageData page)) ls ∧
      ManPage.printed (ManPage.pageLines (page.map String.toList)) = laidOut ls ++ ['\n'] := by
  obtain ⟨ls, h1, h2⟩ := C101_layout (shippedText (pageData page)) (shippedText_plain _)
  exact ⟨ls, h1, by rw [ManPage.printed, argsDict_eq, ← h2]; rfl⟩

/-- A value with its lines. -/
example : Json.dumps (.obj [("flag", .arr [.str "-a", .null]), ("option", .arr [])]) =
    laidOut [(0, "{".toList), (1, "\"flag\": [".toList), (2, "\"-a\",".toList), (2, "null".toList), (1, "],".toList),
      (1, "\"option\": []".toList), (0, "}".toList)] := by decide +kernel

end PashAnn
