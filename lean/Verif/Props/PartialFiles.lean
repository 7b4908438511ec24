import Verif.Lemmas.PartialFiles
import Verif.Spec.PartialFiles
import Verif.Props.Files

/-!
Property C122: data files that are only partly written. Specification: `Spec/PartialFiles.lean` (what an interruption leaves),
`Spec/JsonText.lean` (the grammar) and `Spec/Encodings.lean`.
-/

namespace PashAnn
open Spec Spec.Files Files Spec.PartialFiles
open Spec.JsonText (Writes Blanks)
open Spec.Encodings (Holds Encoding mark)

/-- The beginnings of a text of an object that write a value are those that lack only blanks at the end, and they write the same
object. -/
theorem C122_text (p s : List Char) (l : List (String × Json)) (h : Writes (p ++ s) (.obj l)) (j : Json) :
    Json.loads p = some j ↔ j = .obj l ∧ Blanks s := by
  rw [C101_reads]
  constructor
  · exact Json.beginning h
  · rintro ⟨rfl, hs⟩
    obtain ⟨a, cs, b, ha, hw, hb, ht⟩ := h
    rcases List.append_eq_append_iff.1 ht with ⟨x, hx, hs'⟩ | ⟨x, hx, hb'⟩
    · cases hx' : x.reverse with
      | nil =>
          have : x = [] := by simpa using hx'
          subst this
          exact ⟨a, cs, [], ha, hw, by simp [Blanks], by simpa using hx.symm⟩
      | cons c y =>
          exfalso
          have hxe : x = y.reverse ++ [c] := by
            have := congrArg List.reverse hx'
            simpa using this
          have hlast : ∃ u, cs = u ++ ['}'] := by
            cases hw with
            | obj0 a ha => exact ⟨_, rfl⟩
            | obj l cs h => exact ⟨_, rfl⟩
          obtain ⟨u, rfl⟩ := hlast
          rw [hxe, ← List.append_assoc, ← List.append_assoc] at hx
          have hc := (List.append_inj' hx rfl).2
          simp only [List.cons.injEq, and_true] at hc
          have := hs c (by rw [hs', hxe]; simp)
          rw [← hc] at this
          revert this
          decide
    · exact ⟨a, cs, x, ha, hw, fun c hc => hb c (by rw [hb']; simp [hc]), hx⟩

/-- A text, a beginning that is rejected and one that is not. -/
example : (Json.loads ("{\"a\":[]}".toList ++ " \n".toList)).isSome = true ∧ (Json.loads "{\"a\":[]".toList).isNone = true ∧
    (Json.loads "{\"a\":[]}".toList).map Json.dumps = (Json.loads ("{\"a\":[]}".toList ++ " \n".toList)).map Json.dumps := by
  decide +kernel

/-- For other values than objects this would be wrong: the beginning of a number is another number. -/
example : Writes "12".toList (.num "12") ∧ Writes "1".toList (.num "1") := by
  constructor <;> rw [← C101_reads] <;> rfl

/-- If the script for manual pages is interrupted while it prints, then what it has printed is rejected as a data file, unless at most the
line end is missing; and then it is read as what the script prints. -/
theorem C122_generated (page : List String) (p s : List Char)
    (h : ManPage.printed (ManPage.pageLines (page.map String.toList)) = p ++ s) :
    (s ∈ [[], ['\n']] → Json.loads p = Json.loads (p ++ s) ∧ (Json.loads p).isSome = true) ∧
    (s ∉ [[], ['\n']] → Json.loads p = none) := by
  have hw := printed_writes (ManPage.pageLines (page.map String.toList))
  rw [h] at hw
  obtain ⟨l, hl⟩ : ∃ l, shippedText (pageData page) = .obj l := ⟨_, rfl⟩
  have hw' : Writes (p ++ s) (.obj l) := hl ▸ hw
  have ht := C122_text p s l hw'
  constructor
  · intro hs
    have hb : Blanks s := by
      simp only [List.mem_cons, List.not_mem_nil, or_false] at hs
      rcases hs with rfl | rfl <;> simp [Blanks]
    rw [(ht _).2 ⟨rfl, hb⟩, (C101_reads _ _).2 hw']
    exact ⟨rfl, rfl⟩
  · intro hs
    cases hp : Json.loads p with
    | none => rfl
    | some j =>
        exfalso
        have hb := ((ht j).1 hp).2
        have hend : ∃ u, ManPage.printed (ManPage.pageLines (page.map String.toList)) = u ++ ['}', '\n'] := by
          rw [ManPage.printed, argsDict_eq, Json.dumps, shippedText, Json.text]
          exact ⟨_, List.append_assoc _ ['}'] ['\n']⟩
        obtain ⟨u, hu⟩ := hend
        rw [hu] at h
        have hbrace : '}' ∉ s := fun hm => absurd (hb _ hm) (by decide)
        rcases List.append_eq_append_iff.1 h with ⟨x, _, hx⟩ | ⟨x, _, hx⟩
        · match x, hx with
          | [], hx => exact hbrace (by rw [← List.nil_append s, ← hx]; simp)
          | [_], hx =>
              simp only [List.cons_append, List.nil_append, List.cons.injEq] at hx
              exact hs (by rw [← hx.2]; simp)
          | _ :: _ :: x, hx =>
              simp only [List.cons_append, List.cons.injEq] at hx
              have := List.append_eq_nil_iff.1 hx.2.2.symm
              exact hs (by rw [this.2]; simp)
        · exact hbrace (by rw [hx]; simp)

/-- For the empty page, too, something can be cut off. -/
example : ∃ page : List String, ∃ p s, ManPage.printed (ManPage.pageLines (page.map String.toList)) = p ++ s ∧ s ∉ [[], ['\n']] ∧ p ≠ [] :=
  ⟨[], "{".toList, _, rfl, by decide +kernel, by decide⟩

/-- The beginnings of the bytes of an object, in any encoding, hold no other value: not even by being taken for another encoding. -/
theorem C122_bytes (q s : List UInt8) (l : List (String × Json)) (h : Holds (q ++ s) (.obj l)) :
    Bytes.loads q = .ok (.obj l) ∨ ∃ e ∈ noValue, Bytes.loads q = .error e := by
  cases hq : Bytes.loads q with
  | ok j => exact .inl (by rw [Bytes.bytes_beginning h ((C105_encodings q j).1 hq)])
  | error e => exact .inr ⟨e, Bytes.loads_error hq, rfl⟩

/-- An object in UTF-16; the first byte alone would be one of UTF-8. -/
example : Holds [123, 0, 34, 0, 0xE4, 0, 34, 0, 58, 0, 91, 0, 93, 0, 125, 0] (.obj [("ä", .arr [])]) ∧
    Bytes.loads [123] = .error (.valueError "JSONDecodeError") ∧ Bytes.loads [123, 0, 34] = .error (.valueError "JSONDecodeError") :=
  ⟨(C105_encodings _ _).1 rfl, rfl, rfl⟩

/-- What an interruption leaves of the result of opening a file. -/
private inductive CutResult : Except FileErr (List UInt8) → Except FileErr (List UInt8) → Prop
  | ok {q s} : CutResult (.ok (q ++ s)) (.ok q)
  | error {e} : CutResult (.error e) (.error e)

private theorem leads_cut {m m' : Machine} (h : Interrupted m m') {k n n' : Nat} {pos path pos' path' : List String}
    (hl : Leads m.root k n pos path n' pos' path') : Leads m'.root k n pos path n' pos' path' := by
  induction hl with
  | here => exact .here
  | stay hp _ ih => exact .stay hp ih
  | up _ ih => exact .up ih
  | down hn ha _ ih =>
      obtain ⟨node', h1, h2⟩ := h.there _ _ ha
      cases h2
      exact .down hn h1 ih
  | relative hn ha ht hp _ ih =>
      obtain ⟨node', h1, h2⟩ := h.there _ _ ha
      cases h2
      exact .relative hn h1 ht hp ih
  | absolute hn ha ht hp _ ih =>
      obtain ⟨node', h1, h2⟩ := h.there _ _ ha
      cases h2
      exact .absolute hn h1 ht hp ih

private theorem ends_cut {m m' : Machine} (h : Interrupted m m') {k n : Nat} {pos path : List String} {r}
    (he : Ends m.root k n pos path r) : ∃ r', Ends m'.root k n pos path r' ∧ CutResult r r' := by
  cases he with
  | directory => exact ⟨_, .directory, .error⟩
  | long h1 h2 => exact ⟨_, .long h1 h2, .error⟩
  | missing hn hm =>
      refine ⟨_, .missing hn fun node hnode => ?_, .error⟩
      obtain ⟨node', h1⟩ := h.nothingElse _ _ hnode
      exact hm _ h1
  | file hn ha =>
      obtain ⟨node', h1, h2⟩ := h.there _ _ ha
      cases h2
      exact ⟨_, .file hn h1, .ok⟩
  | through hn ha hp =>
      obtain ⟨node', h1, h2⟩ := h.there _ _ ha
      cases h2
      exact ⟨_, .through hn h1 hp, .error⟩
  | unreadable hn ha =>
      obtain ⟨node', h1, h2⟩ := h.there _ _ ha
      cases h2
      exact ⟨_, .unreadable hn h1, .error⟩
  | throughUnreadable hn ha hp =>
      obtain ⟨node', h1, h2⟩ := h.there _ _ ha
      cases h2
      exact ⟨_, .throughUnreadable hn h1 hp, .error⟩
  | closed hn ha =>
      obtain ⟨node', h1, h2⟩ := h.there _ _ ha
      cases h2
      exact ⟨_, .closed hn h1, .error⟩
  | links hn ha =>
      obtain ⟨node', h1, h2⟩ := h.there _ _ ha
      cases h2
      exact ⟨_, .links hn h1, .error⟩

private theorem opens_cut {m m' : Machine} (h : Interrupted m m') {name : String} {r} (ho : Opens m name r) :
    ∃ r', Opens m' name r' ∧ CutResult r r' := by
  obtain ⟨path, ⟨qs, hq, rfl⟩, ho⟩ := ho
  have hs : ∀ path, Short m' path ↔ Short m path := by intro path; unfold Short; rw [h.pathMax]
  rcases ho with ⟨h1, n, pos, ps, h2, h3⟩ | ⟨h1, rfl⟩
  · obtain ⟨r', h4, h5⟩ := ends_cut h h3
    refine ⟨r', ⟨_, ⟨qs, hq, by rw [h.package]⟩, .inl ⟨(hs _).2 h1, n, pos, ps, ?_, ?_⟩⟩, h5⟩
    · rw [h.nameMax, h.linkMax]; exact leads_cut h h2
    · rw [h.nameMax]; exact h4
  · exact ⟨_, ⟨_, ⟨qs, hq, by rw [h.package]⟩, .inr ⟨fun hc => h1 ((hs _).1 hc), rfl⟩⟩, .error⟩

private theorem noValue_raises {m : Machine} {name : String} {bytes : List UInt8} {e : PyErr} (h0 : Char.ofNat 0 ∉ name.toList)
    (he : Bytes.loads bytes = .error e) (h : Opens m name (.ok bytes) ∨
      (Opens m name (.error .noEntry) ∧ Opens m "_default_data_for_commands" (.ok bytes))) : Files.getJson m name = .error e := by
  refine (C102_raises m name e).2 (.inr ⟨h0, .inl ⟨bytes, fun j hj => ?_, he, h⟩⟩)
  rw [(C105_encodings bytes j).2 hj] at he
  cases he

/-- If the writing of files was interrupted on a machine, each in any place, then a command is described as by the complete files or
there is an error; and so it is with each reading of a command line and each generator of inputs and outputs. -/
theorem C122_machine (m m' : Machine) (h : Interrupted m m') (name : String) (l : List (String × Json))
    (hj : Files.getJson m name = .ok (.obj l)) :
    (Files.getJson m' name = .ok (.obj l) ∨ ∃ e ∈ noValue, Files.getJson m' name = .error e) ∧
    (∀ args, Files.parse m' (Shlex.join (name :: args)) = Files.parse m (Shlex.join (name :: args)) ∨
      ∃ e ∈ noValue, Files.parse m' (Shlex.join (name :: args)) = .error e) ∧
    ∀ c : CommandInvocationInitial, c.cmdName = name → Files.initialInfo m' c = Files.initialInfo m c ∨
      ∃ e ∈ noValue, Files.initialInfo m' c = .error e := by
  have key : Files.getJson m' name = .ok (.obj l) ∨ ∃ e ∈ noValue, Files.getJson m' name = .error e := by
    obtain ⟨h0, bytes, hh, ho⟩ := (C102_consulted m name (.obj l)).1 hj
    have hcut : ∃ q s, bytes = q ++ s ∧ (Opens m' name (.ok q) ∨
        (Opens m' name (.error .noEntry) ∧ Opens m' "_default_data_for_commands" (.ok q))) := by
      rcases ho with ho | ⟨ho1, ho2⟩
      · obtain ⟨r', h1, h2⟩ := opens_cut h ho
        cases h2
        exact ⟨_, _, rfl, .inl h1⟩
      · obtain ⟨r1, h1, h2⟩ := opens_cut h ho1
        obtain ⟨r2, h3, h4⟩ := opens_cut h ho2
        cases h2
        cases h4
        exact ⟨_, _, rfl, .inr ⟨h1, h3⟩⟩
    obtain ⟨q, s, rfl, ho'⟩ := hcut
    rcases C122_bytes q s l hh with hq | ⟨e, he, hq⟩
    · exact .inl ((C102_consulted m' name _).2 ⟨h0, q, (C105_encodings _ _).1 hq, ho'⟩)
    · exact .inr ⟨e, he, noValue_raises h0 hq ho'⟩
  refine ⟨key, fun args => ?_, fun c hc => ?_⟩
  · unfold Files.parse
    rw [Shlex.split_join]
    rcases key with k | ⟨e, he, k⟩
    · left
      show (Files.getJson m' name >>= _) = (Files.getJson m name >>= _)
      rw [k, hj]
    · right
      refine ⟨e, he, ?_⟩
      show (Files.getJson m' name >>= _) = _
      rw [k]
      rfl
  · subst hc
    unfold Files.initialInfo
    rcases key with k | ⟨e, he, k⟩
    · left; rw [k, hj]
    · right
      refine ⟨e, he, ?_⟩
      rw [k]
      rfl

/-! Examples of interruptions. -/

private def CutEntries (es es' : Entries) : Prop :=
  (∀ pos node, At es pos node → ∃ node', At es' pos node' ∧ Cut node node') ∧ ∀ pos node', At es' pos node' → ∃ node, At es pos node

private theorem at_other {k p : String} {x : Node} {es : Entries} {ps : List String} {node : Node} (h : p ≠ k) :
    At ((k, x) :: es) (p :: ps) node ↔ At es (p :: ps) node := by
  have hl : List.lookup p ((k, x) :: es) = es.lookup p := by simp only [List.lookup, beq_eq_false_iff_ne.2 h]
  constructor
  · intro ha
    cases ha with
    | here h1 => exact .here (hl ▸ h1)
    | inside h1 h2 => exact .inside (hl ▸ h1) h2
  · intro ha
    cases ha with
    | here h1 => exact .here (hl.trans h1)
    | inside h1 h2 => exact .inside (hl.trans h1) h2

private theorem at_this {k : String} {x : Node} {es : Entries} {ps : List String} {node : Node} :
    At ((k, x) :: es) (k :: ps) node ↔ (ps = [] ∧ node = x) ∨ ∃ es', x = .dir es' ∧ ps ≠ [] ∧ At es' ps node := by
  have hl : List.lookup k ((k, x) :: es) = some x := by simp [List.lookup]
  constructor
  · intro ha
    cases ha with
    | here h1 => rw [hl] at h1; cases h1; exact .inl ⟨rfl, rfl⟩
    | inside h1 h2 =>
        rw [hl] at h1
        cases h1
        cases ps with
        | nil => cases h2; exact .inl ⟨rfl, rfl⟩
        | cons => exact .inr ⟨_, rfl, by simp, h2⟩
  · rintro (⟨rfl, rfl⟩ | ⟨es', rfl, _, h2⟩)
    · exact .here hl
    · exact .inside hl h2

private theorem cutEntries_cons {k : String} {x x' : Node} {es es' : Entries} (hc : Cut x x')
    (hd : ∀ ds ds', x = .dir ds → x' = .dir ds' → CutEntries ds ds') (h : CutEntries es es') :
    CutEntries ((k, x) :: es) ((k, x') :: es') := by
  constructor
  · intro pos node ha
    cases pos with
    | nil => cases ha; exact ⟨_, .root, .dir⟩
    | cons p ps =>
        by_cases hp : p = k
        · subst hp
          rcases at_this.1 ha with ⟨rfl, rfl⟩ | ⟨ds, rfl, hps, h2⟩
          · exact ⟨x', at_this.2 (.inl ⟨rfl, rfl⟩), hc⟩
          · cases hc
            obtain ⟨node', h3, h4⟩ := (hd _ _ rfl rfl).1 _ _ h2
            exact ⟨node', at_this.2 (.inr ⟨_, rfl, hps, h3⟩), h4⟩
        · obtain ⟨node', h3, h4⟩ := h.1 _ _ ((at_other hp).1 ha)
          exact ⟨node', (at_other hp).2 h3, h4⟩
  · intro pos node' ha
    cases pos with
    | nil => exact ⟨_, .root⟩
    | cons p ps =>
        by_cases hp : p = k
        · subst hp
          rcases at_this.1 ha with ⟨rfl, rfl⟩ | ⟨ds, rfl, hps, h2⟩
          · exact ⟨x, at_this.2 (.inl ⟨rfl, rfl⟩)⟩
          · cases hc
            obtain ⟨node, h3⟩ := (hd _ _ rfl rfl).2 _ _ h2
            exact ⟨node, at_this.2 (.inr ⟨_, rfl, hps, h3⟩)⟩
        · obtain ⟨node, h3⟩ := h.2 _ _ ((at_other hp).1 ha)
          exact ⟨node, (at_other hp).2 h3⟩

private theorem cut_self (x : Node) : Cut x x := by
  cases x with
  | file bytes => have := @Cut.file bytes []; rwa [List.append_nil] at this
  | dir => exact .dir
  | link => exact .link
  | unreadable => exact .unreadable
  | closed => exact .closed

private theorem cutEntries_refl (es : Entries) : CutEntries es es :=
  ⟨fun _ node h => ⟨node, h, cut_self node⟩, fun _ node h => ⟨node, h⟩⟩

private theorem cutEntries_dir {k : String} {ds ds' es : Entries} (h : CutEntries ds ds') :
    CutEntries ((k, .dir ds) :: es) ((k, .dir ds') :: es) :=
  cutEntries_cons .dir (fun _ _ h1 h2 => by cases h1; cases h2; exact h) (cutEntries_refl es)

/-- The data file is cut at the given place, in the data directory of a machine. -/
theorem sampleMachine_cut (es : Entries) (name : String) (q s : List UInt8) :
    Interrupted (sampleMachine ((name, .file (q ++ s)) :: es)) (sampleMachine ((name, .file q) :: es)) := by
  have hb : CutEntries (sampleMachine ((name, .file (q ++ s)) :: es)).root (sampleMachine ((name, .file q) :: es)).root :=
    cutEntries_dir (cutEntries_dir (cutEntries_dir (cutEntries_dir
      (cutEntries_cons .file (fun _ _ h1 => by cases h1) (cutEntries_refl es)))))
  exact ⟨rfl, rfl, rfl, rfl, hb.1, hb.2⟩

/-- The file `x.json` with the object `{"a":[]}`, and a beginning of it. -/
example (es : Entries) :
    Files.getJson (sampleMachine (("x.json", .file [123, 34, 97, 34, 58, 91, 93, 125]) :: es)) "x" = .ok (.obj [("a", .arr [])]) ∧
    Files.getJson (sampleMachine (("x.json", .file [123, 34, 97, 34, 58, 91, 93]) :: es)) "x" =
      .error (.valueError "JSONDecodeError") := by
  have h1 : Opens (sampleMachine (("x.json", .file [123, 34, 97, 34, 58, 91, 93, 125]) :: es)) "x"
      (.ok [123, 34, 97, 34, 58, 91, 93, 125]) := (C102_opened _ _ _).1 rfl
  have h2 : Opens (sampleMachine (("x.json", .file [123, 34, 97, 34, 58, 91, 93]) :: es)) "x"
      (.ok [123, 34, 97, 34, 58, 91, 93]) := (C102_opened _ _ _).1 rfl
  exact ⟨(C102_consulted _ _ _).2 ⟨by decide, _, (C105_encodings _ _).1 rfl, .inl h1⟩, noValue_raises (by decide) rfl (.inl h2)⟩

/-- One would like the same for files that are not there at all yet. But then the default file describes the command, and the line
is read, wrongly and without an error: here `-o` is not known any more and becomes an operand. -/
theorem C122_missing_false : ∃ (es : Entries) (file : String × Node) (s : String) (i i' : DataFiles.AnyInvocation),
    Files.parse (sampleMachine (file :: es)) s = .ok i ∧ Files.parse (sampleMachine es) s = .ok i' ∧
      i.operandList = [] ∧ i'.operandList = ["-o", "f"] := by
  have key : ∀ (r : Py DataFiles.AnyInvocation) (ops : List String),
      (match r with | .ok a => some a.operandList | .error _ => none) = some ops → ∃ i, r = .ok i ∧ i.operandList = ops := by
    intro r ops h
    cases r with
    | ok a => exact ⟨a, rfl, by simpa using h⟩
    | error e => simp at h
  obtain ⟨i, h1, h2⟩ := key (Files.parse (sampleMachine
    [("x.json", .file (Encoding.utf8.encode "{\"flag\":[],\"option\":[[\"-o\",\"str\"]]}".toList)),
      ("_default_data_for_commands.json", .file (Encoding.utf8.encode "{\"flag\":[],\"option\":[]}".toList))]) "x -o f") [] (by decide +kernel)
  obtain ⟨i', h3, h4⟩ := key (Files.parse (sampleMachine
    [("_default_data_for_commands.json", .file (Encoding.utf8.encode "{\"flag\":[],\"option\":[]}".toList))]) "x -o f") ["-o", "f"] (by decide +kernel)
  exact ⟨_, _, _, i, i', h1, h3, h2, h4⟩

end PashAnn
