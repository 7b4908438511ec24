import Verif.Lemmas.DataFiles
import Verif.Spec.Edits
import Verif.Props.DataFiles

/-!
C107: changes of a data file. A line is read as before if the file says the same about its words (`C107_lines`), and all lines are exactly if it
says the same about all words (`C107_exact`). So an entry that is added changes no line that does not use it (`C107_added`), and the order of
entries does not matter if no spelling is in two of them (`C107_order`, `C107_order_false`). The generators read the file again:
`C107_typing` says when they notice a change since the line was read.
-/

namespace PashAnn
open Spec DataFiles

/-- Reading the words of a line again after a change. -/
theorem parseLoop_same {d d' : JsonData} : ∀ {args : List String}, (∀ w, w ≠ "" → Uses args w → SameWord d d' w) →
    parseLoop d args = parseLoop d' args
  | [], _ => by rw [parseLoop, parseLoop]
  | w :: rest, h => by
      by_cases hw : w = ""
      · subst hw; rw [parseLoop_empty, parseLoop_empty]
      · have hrest : parseLoop d rest = parseLoop d' rest := by
          refine parseLoop_same fun v hv hu => h v hv ?_
          rcases hu with hm | ⟨a, ha, hx⟩
          · exact .inl (List.mem_cons_of_mem _ hm)
          · exact .inr ⟨a, List.mem_cons_of_mem _ ha, hx⟩
        obtain ⟨s1, s2, s3⟩ := h w hw (.inl (by simp))
        by_cases hf : Declared (flagGroups d) w
        · rw [parseLoop_flag d w rest hw hf, parseLoop_flag d' w rest hw (s1.1 hf), hrest,
            canonical_unique ((s2 hf _).1 (primaryFlag_canonical d w)) (primaryFlag_canonical d' w)]
        · have hf' : ¬ Declared (flagGroups d') w := fun x => hf (s1.2 x)
          obtain ⟨s3, s4⟩ := s3 hf
          by_cases ho : Declared (optionGroups d) w ∧ rest ≠ []
          · obtain ⟨ho, hr⟩ := ho
            cases rest with
            | nil => exact absurd rfl hr
            | cons arg rest =>
                have hrest' : parseLoop d rest = parseLoop d' rest := by
                  refine parseLoop_same fun v hv hu => h v hv ?_
                  rcases hu with hm | ⟨a, ha, hx⟩
                  · exact .inl (by simp [hm])
                  · exact .inr ⟨a, by simp [ha], hx⟩
                rw [parseLoop_option d w arg rest hw hf ho, parseLoop_option d' w arg rest hw hf' (s3.1 ho), hrest',
                  canonical_unique ((s4 ho _).1 (primaryOption_canonical d w)) (primaryOption_canonical d' w)]
          · have ho' : ¬ (Declared (optionGroups d') w ∧ rest ≠ []) := fun x => ho ⟨s3.2 x.1, x.2⟩
            have hcl : ∀ letters, ClusterOf d w letters ↔ ClusterOf d' w letters := by
              intro letters
              unfold ClusterOf
              have : w.toList = '-' :: letters → ∀ c ∈ letters,
                  (Declared (flagGroups d) (String.ofList ['-', c]) ↔ Declared (flagGroups d') (String.ofList ['-', c])) := by
                intro hl c hc
                refine (h _ ?_ (.inr ⟨w, by simp, letters, hl, c, hc, rfl⟩)).1
                intro he
                have := congrArg String.toList he
                rw [String.toList_ofList] at this
                cases this
              constructor
              · rintro ⟨h1, h2, h3⟩; exact ⟨h1, h2, fun c hc => (this h1 c hc).1 (h3 c hc)⟩
              · rintro ⟨h1, h2, h3⟩; exact ⟨h1, h2, fun c hc => (this h1 c hc).2 (h3 c hc)⟩
            by_cases hc : ∃ letters, ClusterOf d w letters
            · obtain ⟨letters, hc⟩ := hc
              rw [parseLoop_cluster d w rest letters hf ho hc, parseLoop_cluster d' w rest letters hf' ho' ((hcl _).1 hc), hrest]
            · rw [parseLoop_operands d w rest (.inr ⟨hf, ho, fun l hl => hc ⟨l, hl⟩⟩),
                parseLoop_operands d' w rest (.inr ⟨hf', ho', fun l hl => hc ⟨l, (hcl l).2 hl⟩⟩)]
  termination_by args => args.length

theorem parseLoop_one_not_flag {d : JsonData} {w : String} (hw : w ≠ "") (h : ¬ Declared (flagGroups d) w) (p : String) :
    (parseLoop d [w]).1 ≠ [.flag p] := by
  have ho : ¬ (Declared (optionGroups d) w ∧ ([] : List String) ≠ []) := fun x => x.2 rfl
  by_cases hc : ∃ letters, ClusterOf d w letters
  · obtain ⟨letters, hc⟩ := hc
    rw [parseLoop_cluster d w [] letters h ho hc]
    intro he
    obtain ⟨h1, _, h3⟩ := hc
    match letters, h1, h3, he with
    | [c], h1, h3, _ =>
        apply h
        have : w = String.ofList ['-', c] := by apply String.ext; rw [h1, String.toList_ofList]
        rw [this]
        exact h3 c (by simp)
  · rw [parseLoop_operands d w [] (.inr ⟨h, ho, fun l hl => hc ⟨l, hl⟩⟩)]
    simp

theorem parseLoop_two_not_option {d : JsonData} {w arg : String} (hf : ¬ Declared (flagGroups d) w)
    (h : ¬ Declared (optionGroups d) w) (p : String) (fs : List FlagOption) : (parseLoop d [w, arg]).1 ≠ .option p arg :: fs := by
  have ho : ¬ (Declared (optionGroups d) w ∧ [arg] ≠ []) := fun x => h x.1
  by_cases hc : ∃ letters, ClusterOf d w letters
  · obtain ⟨letters, hc⟩ := hc
    rw [parseLoop_cluster d w [arg] letters hf ho hc]
    cases letters with
    | nil => exact absurd rfl hc.2.1
    | cons c cs => simp
  · rw [parseLoop_operands d w [arg] (.inr ⟨hf, ho, fun l hl => hc ⟨l, hl⟩⟩)]
    simp

section Lines
variable (dir dir' : Dir) (name : String) (hn : PlainName name) (j j' : Json) (hj : dir.lookup name = some (some j))
  (hj' : dir'.lookup name = some (some j')) (d d' : JsonData) (h : FileLists j d) (h' : FileLists j' d')
include hn hj hj' h h'

/-- A line is read as before if the file says the same about the words that matter to it. -/
theorem C107_lines (args : List String) (hs : ∀ w, w ≠ "" → Uses args w → SameWord d d' w) :
    parseIn dir (Shlex.join (name :: args)) = parseIn dir' (Shlex.join (name :: args)) := by
  rw [parseIn_lists hn hj h, parseIn_lists hn hj' h', parseLoop_same hs]

/-- All lines are read as before exactly if the file says the same about all words. -/
theorem C107_exact :
    (∀ args, parseIn dir (Shlex.join (name :: args)) = parseIn dir' (Shlex.join (name :: args))) ↔ ∀ w, w ≠ "" → SameWord d d' w := by
  constructor
  · intro hall w hw
    have hp : ∀ args, parseLoop d args = parseLoop d' args := by
      intro args
      have := hall args
      rw [parseIn_lists hn hj h, parseIn_lists hn hj' h'] at this
      simp only [Except.ok.injEq, AnyInvocation.mk.injEq, true_and] at this
      exact Prod.ext (anyNames_inj this.1) this.2
    have hfl : Declared (flagGroups d) w ↔ Declared (flagGroups d') w := by
      constructor
      · intro hf
        by_cases hf' : Declared (flagGroups d') w
        · exact hf'
        · have := parseLoop_one_not_flag hw hf' (primaryFlag d w)
          rw [← hp, parseLoop_flag d w [] hw hf, parseLoop] at this
          exact absurd rfl this
      · intro hf
        by_cases hf' : Declared (flagGroups d) w
        · exact hf'
        · have := parseLoop_one_not_flag hw hf' (primaryFlag d' w)
          rw [hp, parseLoop_flag d' w [] hw hf, parseLoop] at this
          exact absurd rfl this
    refine ⟨hfl, fun hf p => ?_, fun hf => ?_⟩
    · have := congrArg Prod.fst (hp [w])
      rw [parseLoop_flag d w [] hw hf, parseLoop_flag d' w [] hw (hfl.1 hf)] at this
      have he : primaryFlag d w = primaryFlag d' w := FlagOption.flag.inj (List.cons.inj this).1
      constructor
      · intro hc
        rw [canonical_unique hc (primaryFlag_canonical d w), he]
        exact primaryFlag_canonical d' w
      · intro hc
        rw [canonical_unique hc (primaryFlag_canonical d' w), ← he]
        exact primaryFlag_canonical d w
    · have hf' : ¬ Declared (flagGroups d') w := fun x => hf (hfl.2 x)
      have hop : Declared (optionGroups d) w ↔ Declared (optionGroups d') w := by
        constructor
        · intro ho
          by_cases ho' : Declared (optionGroups d') w
          · exact ho'
          · have := parseLoop_two_not_option (arg := "") hf' ho' (primaryOption d w) (parseLoop d []).1
            rw [← hp, parseLoop_option d w "" [] hw hf ho] at this
            exact absurd rfl this
        · intro ho
          by_cases ho' : Declared (optionGroups d) w
          · exact ho'
          · have := parseLoop_two_not_option (arg := "") hf ho' (primaryOption d' w) (parseLoop d' []).1
            rw [hp, parseLoop_option d' w "" [] hw hf' ho] at this
            exact absurd rfl this
      refine ⟨hop, fun ho p => ?_⟩
      have := congrArg Prod.fst (hp [w, ""])
      rw [parseLoop_option d w "" [] hw hf ho, parseLoop_option d' w "" [] hw hf' (hop.1 ho)] at this
      have he : primaryOption d w = primaryOption d' w := (FlagOption.option.inj (List.cons.inj this).1).1
      constructor
      · intro hc
        rw [canonical_unique hc (primaryOption_canonical d w), he]
        exact primaryOption_canonical d' w
      · intro hc
        rw [canonical_unique hc (primaryOption_canonical d' w), ← he]
        exact primaryOption_canonical d w
  · intro hs args
    exact C107_lines dir dir' name hn j j' hj hj' d d' h h' args fun w hw _ => hs w hw

end Lines

theorem declared_insert {A B : List (List String)} {x : List String} {w : String} (hx : w ∉ x) :
    Declared (A ++ B) w ↔ Declared (A ++ x :: B) w := by
  unfold Declared
  constructor
  · rintro ⟨g, hg, hw⟩
    exact ⟨g, by rcases List.mem_append.1 hg with h | h <;> simp [h], hw⟩
  · rintro ⟨g, hg, hw⟩
    simp only [List.mem_append, List.mem_cons] at hg
    rcases hg with h | rfl | h
    · exact ⟨g, by simp [h], hw⟩
    · exact absurd hw hx
    · exact ⟨g, by simp [h], hw⟩

theorem canonical_insert {A B : List (List String)} {x : List String} {w : String} (hx : w ∉ x) (p : String) :
    Canonical (A ++ B) w p ↔ Canonical (A ++ x :: B) w p := by
  rw [canonical_iff, canonical_iff]
  have : dictGetD (allAssignments (A ++ B)) w w = dictGetD (allAssignments (A ++ x :: B)) w w := by
    unfold dictGetD dictGet?
    have h1 : allAssignments (A ++ x :: B) = (allAssignments A ++ synonymAssignments x) ++ allAssignments B := by simp [allAssignments]
    have h2 : allAssignments (A ++ B) = allAssignments A ++ allAssignments B := by simp [allAssignments]
    have h3 : w ∉ x.tail := fun hm => hx (List.mem_of_mem_tail hm)
    rw [h1, h2, lookup_reverse_append, lookup_reverse_append, lookup_reverse_append, synonymAssignments_lookup, if_neg h3]
    cases (allAssignments B).reverse.lookup w <;> simp
  rw [this]

theorem sameWord_added {d d' : JsonData} {names : List String} (h : Added d d' names) {w : String} (hw : w ∉ names) : SameWord d d' w := by
  cases h with
  | flag before after options e =>
      have hd : Declared (flagGroups ⟨before ++ after, options⟩) w ↔ Declared (flagGroups ⟨before ++ e :: after, options⟩) w := by
        simp only [flagGroups, List.map_append, List.map_cons]
        exact declared_insert hw
      refine ⟨hd, fun _ p => ?_, fun _ => ⟨Iff.rfl, fun _ p => Iff.rfl⟩⟩
      simp only [flagGroups, List.map_append, List.map_cons]
      exact canonical_insert hw p
  | option flags before after e =>
      refine ⟨Iff.rfl, fun _ p => Iff.rfl, fun _ => ⟨?_, fun _ p => ?_⟩⟩
      · simp only [optionGroups, List.map_append, List.map_cons]
        exact declared_insert hw
      · simp only [optionGroups, List.map_append, List.map_cons]
        exact canonical_insert hw p

/-- An entry that is added, or removed, changes no line that does not use one of its spellings. -/
theorem C107_added (dir dir' : Dir) (name : String) (hn : PlainName name) (j j' : Json) (hj : dir.lookup name = some (some j))
    (hj' : dir'.lookup name = some (some j')) (d d' : JsonData) (h : FileLists j d) (h' : FileLists j' d') (names : List String)
    (ha : Added d d' names) (args : List String) (hu : ∀ w ∈ names, ¬ Uses args w) :
    parseIn dir (Shlex.join (name :: args)) = parseIn dir' (Shlex.join (name :: args)) :=
  C107_lines dir dir' name hn j j' hj hj' d d' h h' args fun w _ huw => sameWord_added ha fun hw => hu w hw huw

/-- The file for `zip` with one more flag. -/
def sampleMore : JsonData := ⟨[.group ["-x", "--extract"], .group ["-v", "--verbose"]], [⟨["-o", "--output"], .withAccess "FILE" "OTHER_OUTPUT"⟩]⟩

example : Added sampleData sampleMore ["-x", "--extract"] ∧ (∀ w ∈ ["-x", "--extract"], ¬ Uses ["-v", "-o", "x", "a"] w) :=
  ⟨.flag [] [.group ["-v", "--verbose"]] _ _, by
    intro w hw hu
    rcases hu with hm | ⟨a, ha, letters, hl, c, hc, rfl⟩
    · revert w; decide +kernel
    · simp only [List.mem_cons, List.not_mem_nil, or_false] at ha
      have hne : ∀ c ∈ ['v', 'o'], String.ofList ['-', c] ∉ ["-x", "--extract"] := by decide +kernel
      rcases ha with rfl | rfl | rfl | rfl
      · have : letters = ['v'] := by
          have : "-v".toList = ['-', 'v'] := by decide +kernel
          rw [this] at hl; exact (List.cons.inj hl).2.symm
        subst this
        exact hne c (by simpa using Or.inl (List.mem_singleton.1 hc)) hw
      · have : letters = ['o'] := by
          have : "-o".toList = ['-', 'o'] := by decide +kernel
          rw [this] at hl; exact (List.cons.inj hl).2.symm
        subst this
        exact hne c (by simpa using Or.inr (List.mem_singleton.1 hc)) hw
      · have : "x".toList = ['x'] := by decide +kernel
        rw [this] at hl; cases hl
      · have : "a".toList = ['a'] := by decide +kernel
        rw [this] at hl; cases hl⟩

/-! The order of entries. -/

theorem declared_perm {gs gs' : List (List String)} (hp : gs.Perm gs') (w : String) : Declared gs w ↔ Declared gs' w :=
  ⟨fun ⟨g, hg, hw⟩ => ⟨g, hp.mem_iff.1 hg, hw⟩, fun ⟨g, hg, hw⟩ => ⟨g, hp.mem_iff.2 hg, hw⟩⟩

theorem apart_perm {gs gs' : List (List String)} (hp : gs.Perm gs') (ha : Apart gs) : Apart gs' :=
  (hp.pairwise_iff fun hab w hb ha => hab w ha hb).1 ha

/-- Without clashes the canonical spelling is the first one of the only entry with the word. -/
theorem canonical_apart {gs : List (List String)} (ha : Apart gs) (w p : String) :
    Canonical gs w p ↔ (∃ g ∈ gs, w ∈ g.tail ∧ g.head? = some p) ∨ ((∀ g ∈ gs, w ∉ g.tail) ∧ p = w) := by
  constructor
  · rintro (⟨before, p', syns, after, rfl, hw, rfl, _⟩ | h)
    · exact .inl ⟨p :: syns, by simp, hw, rfl⟩
    · exact .inr h
  · rintro (⟨g, hg, hw, hh⟩ | h)
    · obtain ⟨before, after, rfl⟩ := List.append_of_mem hg
      cases g with
      | nil => cases hh
      | cons q syns =>
          cases hh
          refine .inl ⟨before, _, syns, after, rfl, hw, rfl, fun g hg hwg => ?_⟩
          have := (List.pairwise_append.1 ha).2.1
          rw [List.pairwise_cons] at this
          exact this.1 g hg w (List.mem_cons_of_mem _ hw) (List.mem_of_mem_tail hwg)
    · exact .inr h

theorem canonical_perm {gs gs' : List (List String)} (hp : gs.Perm gs') (ha : Apart gs) (w p : String) :
    Canonical gs w p ↔ Canonical gs' w p := by
  rw [canonical_apart ha, canonical_apart (apart_perm hp ha)]
  simp only [hp.mem_iff]

/-- The order of entries does not matter to any line if no spelling is in two of them. -/
theorem C107_order (dir dir' : Dir) (name : String) (hn : PlainName name) (j j' : Json) (hj : dir.lookup name = some (some j))
    (hj' : dir'.lookup name = some (some j')) (d d' : JsonData) (h : FileLists j d) (h' : FileLists j' d') (hr : Reordered d d')
    (hf : Apart (flagGroups d)) (ho : Apart (optionGroups d)) (args : List String) :
    parseIn dir (Shlex.join (name :: args)) = parseIn dir' (Shlex.join (name :: args)) :=
  C107_lines dir dir' name hn j j' hj hj' d d' h h' args fun w _ _ =>
    ⟨declared_perm (hr.1.map _) w, fun _ p => canonical_perm (hr.1.map _) hf w p,
      fun _ => ⟨declared_perm (hr.2.map _) w, fun _ p => canonical_perm (hr.2.map _) ho w p⟩⟩

example : Reordered sampleMore ⟨[.group ["-v", "--verbose"], .group ["-x", "--extract"]], [⟨["-o", "--output"], .withAccess "FILE" "OTHER_OUTPUT"⟩]⟩ ∧
    Apart (flagGroups sampleMore) ∧ Apart (optionGroups sampleMore) :=
  ⟨⟨.swap _ _ _, .refl _⟩, by
    refine List.pairwise_cons.2 ⟨?_, List.pairwise_cons.2 ⟨by simp, .nil⟩⟩
    intro g hg
    rw [List.mem_singleton.1 hg]
    simp only [flagSpellings]
    decide +kernel, List.pairwise_cons.2 ⟨by simp, .nil⟩⟩

/-- If a spelling is in two entries it does. -/
theorem C107_order_false : ¬ ∀ (dir dir' : Dir) (name : String), PlainName name → ∀ j j', dir.lookup name = some (some j) →
    dir'.lookup name = some (some j') → ∀ d d', FileLists j d → FileLists j' d' → Reordered d d' → ∀ args,
    parseIn dir (Shlex.join (name :: args)) = parseIn dir' (Shlex.join (name :: args)) := by
  intro hall
  let d : JsonData := ⟨[.group ["-a", "--all"], .group ["-b", "--all"]], []⟩
  let d' : JsonData := ⟨[.group ["-b", "--all"], .group ["-a", "--all"]], []⟩
  let file : JsonData → Json := fun d => .obj [("flag", .arr (d.flag.map flagText)), ("option", .arr (d.option.map optionText))]
  have hn : PlainName "zip" := ⟨by decide +kernel, by decide +kernel, by decide +kernel⟩
  have := (C107_exact [("zip", some (file d))] [("zip", some (file d'))] "zip" hn (file d) (file d') rfl rfl d d' ⟨_, rfl, rfl, rfl⟩ ⟨_, rfl, rfl, rfl⟩).1
    (hall _ _ "zip" hn _ _ rfl rfl d d' ⟨_, rfl, rfl, rfl⟩ ⟨_, rfl, rfl, rfl⟩ ⟨.swap _ _ _, .refl _⟩) "--all" (by decide)
  have h1 := (this.2.1 ⟨["-a", "--all"], by simp [d, flagGroups, flagSpellings], by simp⟩ "-b").1
    (.inl ⟨[["-a", "--all"]], "-b", ["--all"], [], rfl, by simp, rfl, by simp⟩)
  have h2 : Canonical (flagGroups d') "--all" "-a" := .inl ⟨[["-b", "--all"]], "-a", ["--all"], [], rfl, by simp, rfl, by simp⟩
  exact absurd (canonical_unique h1 h2) (by decide)

/-! Generators read the file again. -/

theorem mapM_congr_mem {α β : Type} {f g : α → Py β} {l : List α} (h : ∀ x ∈ l, f x = g x) : l.mapM f = l.mapM g := by
  induction l with
  | nil => rfl
  | cons a l ih => rw [List.mapM_cons, List.mapM_cons, h a (by simp), ih fun x hx => h x (by simp [hx])]

theorem initialInfoIn_lists {dir : Dir} {name : String} (hn : PlainName name) {j : Json} (hj : dir.lookup name = some (some j))
    {d : JsonData} (h : FileLists j d) (hfit : ArgumentsFit d) : ∃ dict, d.option.mapM classOf = .ok dict ∧ ∀ fs ops,
    initialInfoIn dir ⟨name, fs, ops⟩ = (do
      let typers ← fs.mapM (typerOfFlagOption dict)
      .ok (InputOutputInfo.init typers ops.length)) := by
  have hne : ∀ e ∈ d.option, e.names ≠ [] := fun e he => (hfit e he).1
  have hg : getJson dir name = .ok j := by rw [getJson_plain dir hn, hj]; rfl
  obtain ⟨dict, hd⟩ := (dictClass_isOk d.option hne).2 fun e he => (hfit e he).2
  refine ⟨dict, hd, fun fs ops => ?_⟩
  simp only [initialInfoIn, hg, bind, Except.bind, dictClass_lists h hne, dictClass_eq, hd, Except.map]
  have : typerOf (dict.map strKey) = typerOfFlagOption dict := funext fun x => typerOf_strKey dict x
  rw [this]

theorem typerOf_means {d : JsonData} {dict : List (String × Typer)} (hd : d.option.mapM classOf = .ok dict) (n a : String) (t : Typer) :
    typerOfFlagOption dict (.option n a) = .ok t ↔ OptionMeans d n t := by
  rw [show OptionMeans d n t ↔ _ from (dictClass_lookup d.option dict hd n t).symm]
  simp only [typerOfFlagOption, dictGet?]
  cases dict.reverse.lookup n <;> simp

theorem typerOf_cases (dict : List (String × Typer)) (n a : String) :
    (∃ t, typerOfFlagOption dict (.option n a) = .ok t) ∨ typerOfFlagOption dict (.option n a) = .error .keyError := by
  simp only [typerOfFlagOption]
  cases dictGet? dict n <;> simp

/-- An invocation that was read before a change gets the same generator after it, or the same exception, for all invocations exactly if the
file says the same about the arguments of its options. -/
theorem C107_typing (dir dir' : Dir) (name : String) (hn : PlainName name) (j j' : Json) (hj : dir.lookup name = some (some j))
    (hj' : dir'.lookup name = some (some j')) (d d' : JsonData) (h : FileLists j d) (h' : FileLists j' d') (hfit : ArgumentsFit d)
    (hfit' : ArgumentsFit d') (names : List String) :
    (∀ fs ops, (∀ n a, FlagOption.option n a ∈ fs → n ∈ names) →
      initialInfoIn dir ⟨name, fs, ops⟩ = initialInfoIn dir' ⟨name, fs, ops⟩) ↔
    ∀ n ∈ names, ∀ t, OptionMeans d n t ↔ OptionMeans d' n t := by
  obtain ⟨dict, hd, hi⟩ := initialInfoIn_lists hn hj h hfit
  obtain ⟨dict', hd', hi'⟩ := initialInfoIn_lists hn hj' h' hfit'
  simp only [hi, hi']
  constructor
  · intro hall n hnn t
    have := hall [.option n ""] [] (by simp [hnn])
    rw [← typerOf_means hd n "" t, ← typerOf_means hd' n "" t]
    simp only [List.mapM_cons, List.mapM_nil, bind, Except.bind, pure, Except.pure] at this
    rcases typerOf_cases dict n "" with ⟨a, ha⟩ | ha <;> rcases typerOf_cases dict' n "" with ⟨b, hb⟩ | hb <;>
      simp [ha, hb, InputOutputInfo.init] at this ⊢
    rw [this]
  · intro hall fs ops hfs
    rw [mapM_congr_mem fun x hx => ?_]
    cases x with
    | flag n => rfl
    | option n a =>
        have := hall n (hfs n a hx)
        rcases typerOf_cases dict n a with ⟨t, ht⟩ | he
        · rw [ht, (typerOf_means hd' n a t).2 ((this t).1 ((typerOf_means hd n a t).1 ht))]
        · rcases typerOf_cases dict' n a with ⟨t, ht⟩ | he'
          · rw [(typerOf_means hd n a t).2 ((this t).2 ((typerOf_means hd' n a t).1 ht))] at he
            cases he
          · rw [he, he']

/-- An option of a line that was read before it was removed raises a `KeyError`; without such options the generator is made. -/
theorem C107_removed (dir : Dir) (name : String) (hn : PlainName name) (j : Json) (hj : dir.lookup name = some (some j)) (d : JsonData)
    (h : FileLists j d) (hfit : ArgumentsFit d) (fs : List FlagOption) (ops : List String) :
    ((∃ n a, FlagOption.option n a ∈ fs ∧ ∀ e ∈ d.option, e.names.head? ≠ some n) →
      initialInfoIn dir ⟨name, fs, ops⟩ = .error .keyError) ∧
    ((∀ n a, FlagOption.option n a ∈ fs → ∃ e ∈ d.option, e.names.head? = some n) → ∃ i, initialInfoIn dir ⟨name, fs, ops⟩ = .ok i) := by
  obtain ⟨dict, hd, hi⟩ := initialInfoIn_lists hn hj h hfit
  rw [hi]
  have hex : ∀ n a, (∃ t, typerOfFlagOption dict (.option n a) = .ok t) ↔ ∃ e ∈ d.option, e.names.head? = some n := by
    intro n a
    simp only [typerOf_means hd]
    constructor
    · rintro ⟨t, before, e, after, he, hh, _⟩
      exact ⟨e, by simp [he], hh⟩
    · rintro ⟨e, he, hh⟩
      have hlast : ∀ l : List OptionEntry, (∃ e ∈ l, e.names.head? = some n) → ∃ before e after, l = before ++ e :: after ∧
          e.names.head? = some n ∧ ∀ e' ∈ after, e'.names.head? ≠ some n := by
        intro l
        induction l with
        | nil => rintro ⟨e, he, _⟩; cases he
        | cons x l ih =>
            rintro ⟨e, he, hh⟩
            by_cases hl : ∃ e ∈ l, e.names.head? = some n
            · obtain ⟨b, e', a', rfl, h1, h2⟩ := ih hl
              exact ⟨x :: b, e', a', rfl, h1, h2⟩
            · rcases List.mem_cons.1 he with rfl | hm
              · exact ⟨[], e, l, rfl, hh, fun e' he' hx => hl ⟨e', he', hx⟩⟩
              · exact absurd ⟨e, hm, hh⟩ hl
      obtain ⟨b, e', a', hl, h1, h2⟩ := hlast d.option ⟨e, he, hh⟩
      obtain ⟨t, ht⟩ := (hfit e' (by simp [hl])).2
      exact ⟨t, b, e', a', hl, h1, ht, h2⟩
  constructor
  · rintro ⟨n, a, hm, hno⟩
    have hbad : typerOfFlagOption dict (.option n a) = .error .keyError := by
      rcases typerOf_cases dict n a with ht | he
      · obtain ⟨e, he, hh⟩ := (hex n a).1 ht
        exact absurd hh (hno e he)
      · exact he
    have : fs.mapM (typerOfFlagOption dict) = .error .keyError := by
      clear hi
      induction fs with
      | nil => cases hm
      | cons x fs ih =>
          rw [List.mapM_cons]
          have hx : (∃ t, typerOfFlagOption dict x = .ok t) ∨ typerOfFlagOption dict x = .error .keyError := by
            cases x with
            | flag m => exact .inl ⟨_, rfl⟩
            | option m b => exact typerOf_cases dict m b
          rcases hx with ⟨t, ht⟩ | hx
          · rw [ht]
            rcases List.mem_cons.1 hm with rfl | hm
            · rw [hbad] at ht; cases ht
            · rw [ih hm]; rfl
          · rw [hx]; rfl
    rw [this]; rfl
  · intro hall
    have : ∃ r, fs.mapM (typerOfFlagOption dict) = .ok r := by
      rw [mapM_isOk_iff]
      intro x hx
      cases x with
      | flag n => exact ⟨_, rfl⟩
      | option n a => exact (hex n a).2 (hall n a hx)
    obtain ⟨r, hr⟩ := this
    exact ⟨InputOutputInfo.init r ops.length, by rw [hr]; rfl⟩

/-- The line was read with `-o`, which has then been replaced in the file. -/
example : initialInfoIn [("zip", some (.obj [("flag", .arr []), ("option", .arr [.arr [.str "-d", .arr [.str "DIR", .str "OTHER_OUTPUT"]]])]))]
      ⟨"zip", [.option "-o" "x"], ["a"]⟩ = .error .keyError ∧
    ArgumentsFit ⟨[], [⟨["-d"], .withAccess "DIR" "OTHER_OUTPUT"⟩]⟩ :=
  ⟨by decide +kernel, by
    intro e he
    rw [List.mem_singleton.1 he]
    exact ⟨by simp, .fileStd .otherOutput, .file (by decide) (by decide)⟩⟩

end PashAnn
