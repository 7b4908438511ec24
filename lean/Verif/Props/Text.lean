import Verif.Model.Text
import Verif.Spec.Text
import Verif.Props.Parse

/-! Whether the printed text of an invocation tells which invocation it is. -/

namespace PashAnn
open Spec Text

theorem line_inj {a a' r r' : List Char} (ha : '\n' ∉ a) (ha' : '\n' ∉ a')
    (h : a ++ '\n' :: r = a' ++ '\n' :: r') : a = a' ∧ r = r' := by
  induction a generalizing a' with
  | nil =>
      cases a' with
      | nil => simpa using h
      | cons c cs => simp at h; simp [← h.1] at ha'
  | cons c cs ih =>
      cases a' with
      | nil => simp at h; simp [h.1] at ha
      | cons d ds =>
          simp only [List.cons_append, List.cons.injEq] at h
          have := ih (fun m => ha (List.mem_cons_of_mem _ m)) (fun m => ha' (List.mem_cons_of_mem _ m)) h.2
          exact ⟨by rw [h.1, this.1], this.2⟩

theorem name_inj {n m : String} {r s : List Char} (hn : OneLine n) (hm : OneLine m)
    (h : n.toList ++ '\n' :: r = m.toList ++ '\n' :: s) : n = m ∧ r = s :=
  ⟨String.toList_inj.mp (line_inj hn hm h).1, (line_inj hn hm h).2⟩

/-- The text of a value tells the value and where the text ends. -/
def TellsApart {α : Type} (t : α → String) (P : α → Prop) : Prop :=
  ∀ x y r s, P x → P y → (t x).toList ++ r = (t y).toList ++ s → x = y ∧ r = s

theorem flagOption_apart : TellsApart flagOption OneLineFlag := by
  intro x y r s hx hy h
  cases x <;> cases y <;> simp [flagOption, standardRepr, addAttribute] at h
  · have := name_inj hx hy h; simp [this]
  · obtain ⟨h1, h2⟩ := name_inj hx.1 hy.1 h
    simp at h2
    have := name_inj hx.2 hy.2 h2
    simp [h1, this]

theorem accessKindEnum_line (a : AccessKind) : OneLine (accessKindEnum a) := by
  cases a <;> simp [OneLine, accessKindEnum]

theorem accessKindEnum_inj {a b : AccessKind} (h : accessKindEnum a = accessKindEnum b) : a = b := by
  cases a <;> cases b <;> first | rfl | simp [accessKindEnum] at h

theorem stdDescriptor_line (a : StdDescriptor) : OneLine (stdDescriptor a) := by
  cases a <;> simp [OneLine, stdDescriptor]

theorem stdDescriptor_inj {a b : StdDescriptor} (h : stdDescriptor a = stdDescriptor b) : a = b := by
  cases a <;> cases b <;> first | rfl | simp [stdDescriptor] at h

theorem accessKind_apart : TellsApart accessKind (fun _ => True) := by
  intro a b r s _ _ h
  simp [accessKind, standardRepr, addAttribute] at h
  have := name_inj (accessKindEnum_line a) (accessKindEnum_line b) h
  exact ⟨accessKindEnum_inj this.1, this.2⟩

theorem fileWithIO_apart : TellsApart fileWithIO (fun f => OneLineArg (.io f)) := by
  intro x y r s hx hy h
  cases x with
  | file n a =>
      cases y with
      | file m b =>
          simp [fileWithIO, standardRepr, addAttribute] at h
          obtain ⟨h1, h2⟩ := name_inj hx hy h
          simp at h2
          obtain ⟨h3, h4⟩ := accessKind_apart a b _ _ trivial trivial h2
          simp at h4
          simp [h1, h3, h4]
      | std e b => simp [fileWithIO, standardRepr, addAttribute] at h
  | std d a =>
      cases y with
      | file m b => simp [fileWithIO, standardRepr, addAttribute] at h
      | std e b =>
          simp [fileWithIO, standardRepr, addAttribute] at h
          obtain ⟨h1, h2⟩ := name_inj (stdDescriptor_line d) (stdDescriptor_line e) h
          simp at h2
          obtain ⟨h3, h4⟩ := accessKind_apart a b _ _ trivial trivial h2
          simp at h4
          simp [stdDescriptor_inj h1, h3, h4]

theorem argWithIO_apart : TellsApart argWithIO OneLineArg := by
  intro x y r s hx hy h
  cases x with
  | argString n =>
      cases y with
      | argString m =>
          simp [argWithIO, standardRepr, addAttribute] at h
          have := name_inj hx hy h; simp [this]
      | io g => cases g <;> simp [argWithIO, fileWithIO, standardRepr, addAttribute] at h
  | io f =>
      cases y with
      | argString m => cases f <;> simp [argWithIO, fileWithIO, standardRepr, addAttribute] at h
      | io g => have := fileWithIO_apart f g r s hx hy h; simp [this]

theorem flagOptionWithIO_apart : TellsApart flagOptionWithIO OneLineFlagWithIO := by
  intro x y r s hx hy h
  cases x with
  | flag n =>
      cases y with
      | flag m =>
          simp [flagOptionWithIO, standardRepr, addAttribute] at h
          have := name_inj hx hy h; simp [this]
      | option m b => simp [flagOptionWithIO, standardRepr, addAttribute] at h
  | option n a =>
      cases y with
      | flag m => simp [flagOptionWithIO, standardRepr, addAttribute] at h
      | option m b =>
          simp [flagOptionWithIO, standardRepr, addAttribute] at h
          obtain ⟨h1, h2⟩ := name_inj hx.1 hy.1 h
          simp at h2
          obtain ⟨h3, h4⟩ := argWithIO_apart a b _ _ hx.2 hy.2 h2
          simp at h4
          simp [h1, h3, h4]

theorem implicit_apart : TellsApart implicit (fun i => ∀ f, i = some f → OneLineArg (.io f)) := by
  intro x y r s hx hy h
  cases x with
  | none =>
      cases y with
      | none => simp [implicit] at h; simp [h]
      | some g => cases g <;> simp [implicit, fileWithIO, standardRepr, addAttribute] at h
  | some f =>
      cases y with
      | none => cases f <;> simp [implicit, fileWithIO, standardRepr, addAttribute] at h
      | some g => have := fileWithIO_apart f g r s (hx f rfl) (hy g rfl) h; simp [this]

/-- Every text of a kind begins with an angle bracket. -/
def Bracketed {α : Type} (t : α → String) : Prop := ∀ x, ∃ u, (t x).toList = '<' :: u

theorem flagOption_bracketed : Bracketed flagOption := by
  intro x; cases x <;> simp [flagOption, standardRepr, addAttribute]

theorem argWithIO_bracketed : Bracketed argWithIO := by
  intro x
  cases x with
  | argString s => simp [argWithIO, standardRepr, addAttribute]
  | io f => cases f <;> simp [argWithIO, fileWithIO, standardRepr, addAttribute]

theorem flagOptionWithIO_bracketed : Bracketed flagOptionWithIO := by
  intro x; cases x <;> simp [flagOptionWithIO, standardRepr, addAttribute]

theorem commas_cons (x : String) (xs : List String) :
    commas (x :: xs) = if xs = [] then x else x ++ ", " ++ commas xs := by
  cases xs <;> simp [commas]

theorem list_apart {α : Type} {t : α → String} {P : α → Prop} (ht : TellsApart t P) (hb : Bracketed t) (l : List α) :
    ∀ (l' : List α) (r s : List Char), (∀ x ∈ l, P x) → (∀ x ∈ l', P x) →
      (listRepr (l.map t)).toList ++ r = (listRepr (l'.map t)).toList ++ s → l = l' ∧ r = s := by
  have key : ∀ (l l' : List α) (r s : List Char), (∀ x ∈ l, P x) → (∀ x ∈ l', P x) →
      (commas (l.map t)).toList ++ ']' :: r = (commas (l'.map t)).toList ++ ']' :: s → l = l' ∧ r = s := by
    intro l
    induction l with
    | nil =>
        intro l' r s _ _ h
        cases l' with
        | nil => simpa [commas] using h
        | cons y ys =>
            obtain ⟨u, hu⟩ := hb y
            rw [List.map_cons, commas_cons] at h
            split at h <;> simp [commas, hu] at h
    | cons x xs ih =>
        intro l' r s hl hl' h
        cases l' with
        | nil =>
            obtain ⟨u, hu⟩ := hb x
            rw [List.map_cons, commas_cons] at h
            split at h <;> simp [commas, hu] at h
        | cons y ys =>
            have hx := hl x (by simp)
            have hy := hl' y (by simp)
            simp only [List.map_cons, commas_cons] at h
            cases xs with
            | nil =>
                cases ys with
                | nil =>
                    simp at h
                    have := ht x y _ _ hx hy h
                    simp at this
                    simp [this]
                | cons z zs =>
                    simp at h
                    have := ht x y _ _ hx hy h
                    simp at this
            | cons w ws =>
                cases ys with
                | nil =>
                    simp at h
                    have := ht x y _ _ hx hy h
                    simp at this
                | cons z zs =>
                    simp only [List.map_cons, reduceCtorEq, if_false, String.toList_append, List.append_assoc] at h
                    obtain ⟨h1, h2⟩ := ht x y _ _ hx hy h
                    simp only [← List.map_cons] at h2
                    have := ih (z :: zs) r s (fun a m => hl a (List.mem_cons_of_mem _ m))
                      (fun a m => hl' a (List.mem_cons_of_mem _ m)) (by simpa using h2)
                    exact ⟨by rw [h1, this.1], this.2⟩
  intro l' r s hl hl' h
  simp [listRepr] at h
  exact key l l' r s hl hl' h

theorem noSep_cons {c : Char} {cs : List Char} (h : ¬ [',', ' '] <:+: c :: cs) : ¬ [',', ' '] <:+: cs :=
  fun m => h (List.infix_cons m)

theorem separator_inj {a a' r r' : List Char} (ha : ¬ [',', ' '] <:+: a) (ha' : ¬ [',', ' '] <:+: a')
    (h : a ++ ',' :: ' ' :: r = a' ++ ',' :: ' ' :: r') : a = a' ∧ r = r' := by
  induction a generalizing a' with
  | nil =>
      cases a' with
      | nil => simpa using h
      | cons c cs =>
          exfalso
          simp only [List.nil_append, List.cons_append, List.cons.injEq] at h
          cases cs with
          | nil => simp at h
          | cons d ds =>
              simp only [List.cons_append, List.cons.injEq] at h
              exact ha' ⟨[], ds, by simp [← h.1, ← h.2.1]⟩
  | cons c cs ih =>
      cases a' with
      | nil =>
          exfalso
          simp only [List.nil_append, List.cons_append, List.cons.injEq] at h
          cases cs with
          | nil => simp at h
          | cons d ds =>
              simp only [List.cons_append, List.cons.injEq] at h
              exact ha ⟨[], ds, by simp [h.1, h.2.1]⟩
      | cons d ds =>
          simp only [List.cons_append, List.cons.injEq] at h
          have := ih (noSep_cons ha) (noSep_cons ha') h.2
          exact ⟨by rw [h.1, this.1], this.2⟩

theorem separator_none {a r b : List Char} (hb : ¬ [',', ' '] <:+: b) : a ++ ',' :: ' ' :: r ≠ b :=
  fun h => hb ⟨a, r, by simp [← h]⟩

theorem commas_inj (l : List String) : ∀ (l' : List String), (∀ x ∈ l, NoSeparator x) → (∀ x ∈ l', NoSeparator x) →
    l ≠ [""] → l' ≠ [""] → commas l = commas l' → l = l' := by
  have key : ∀ (l l' : List String), (∀ x ∈ l, NoSeparator x) → (∀ x ∈ l', NoSeparator x) →
      l ≠ [] → l' ≠ [] → commas l = commas l' → l = l' := by
    intro l
    induction l with
    | nil => intro l' _ _ h; exact absurd rfl h
    | cons x xs ih =>
        intro l' hl hl' _ h' h
        cases l' with
        | nil => exact absurd rfl h'
        | cons y ys =>
            have hx := hl x (by simp)
            have hy := hl' y (by simp)
            have h := congrArg String.toList h
            simp only [commas_cons] at h
            cases xs with
            | nil =>
                cases ys with
                | nil => simpa [String.toList_inj] using h
                | cons z zs => simp at h; exact absurd h.symm (separator_none hx)
            | cons w ws =>
                cases ys with
                | nil => simp at h; exact absurd h (separator_none hy)
                | cons z zs =>
                    simp only [reduceCtorEq, if_false] at h
                    simp at h
                    obtain ⟨h1, h2⟩ := separator_inj hx hy h
                    have := ih (z :: zs) (fun a m => hl a (List.mem_cons_of_mem _ m))
                      (fun a m => hl' a (List.mem_cons_of_mem _ m)) (by simp) (by simp) (String.toList_inj.mp h2)
                    rw [String.toList_inj.mp h1, this]
  have empty : ∀ (y : String) (ys : List String), commas (y :: ys) = "" → y :: ys = [""] := by
    intro y ys h
    rw [commas_cons] at h
    split at h
    · simp_all
    · have := congrArg String.toList h; simp at this
  intro l' hl hl' h h' e
  cases l with
  | nil =>
      cases l' with
      | nil => rfl
      | cons y ys => exact absurd (empty y ys e.symm) h'
  | cons x xs =>
      cases l' with
      | nil => exact absurd (empty x xs e) h
      | cons y ys => exact key _ _ hl hl' (by simp) (by simp) e

/-- C83 (refuted). Different invocations may print the same text: two operands print like one operand that contains
the separator, and one empty operand prints like no operand. -/
theorem C83_texts_differ_false :
    (∀ (name : String) (flags : List FlagOption) (a b : String),
      initial ⟨name, flags, [a ++ ", " ++ b]⟩ = initial ⟨name, flags, [a, b]⟩) ∧
    (∀ (name : String) (flags : List FlagOption), initial ⟨name, flags, [""]⟩ = initial ⟨name, flags, []⟩) :=
  ⟨fun _ _ _ _ => rfl, fun _ _ => rfl⟩

/-- C83 (refuted, for command lines). These two command lines have different operands and the same text. -/
theorem C83_command_lines_false : ∃ s s' c c', parse s = .ok c ∧ parse s' = .ok c' ∧ c ≠ c' ∧ initial c = initial c' :=
  ⟨"cat 'a, b'", "cat a b", ⟨"cat", [], ["a, b"]⟩, ⟨"cat", [], ["a", "b"]⟩, by decide +kernel, by decide +kernel,
    by decide, rfl⟩

set_option maxRecDepth 8000 in
/-- C83 (refuted, for typed invocations). A name with line breaks in it can look like two operands. -/
theorem C83_typed_texts_differ_false (name : String) (flags : List FlagOptionWithIO) (i o : Option FileWithIO)
    (a b : String) :
    withIO ⟨name, flags, [.argString (a ++ "\n, <class 'pash_annotations.datatypes.BasicDatatypes.ArgStringType'>: \n\t name: " ++ b)], i, o⟩ =
      withIO ⟨name, flags, [.argString a, .argString b], i, o⟩ := by
  apply String.toList_inj.mp
  simp [withIO, standardRepr, addAttribute, listRepr, commas, argWithIO]

/-- C83 (part: flags, options and the command's name on one line, no operand with a comma and a space, not just one
empty operand). Different parsed invocations print different texts. -/
theorem C83_parsed_texts_differ_partial (c d : CommandInvocationInitial) (hc : OneLine c.cmdName) (hd : OneLine d.cmdName)
    (hcf : ∀ x ∈ c.flagOptionList, OneLineFlag x) (hdf : ∀ x ∈ d.flagOptionList, OneLineFlag x)
    (hco : ∀ x ∈ c.operandList, NoSeparator x) (hdo : ∀ x ∈ d.operandList, NoSeparator x)
    (hce : c.operandList ≠ [""]) (hde : d.operandList ≠ [""]) (h : initial c = initial d) : c = d := by
  obtain ⟨cn, cf, co⟩ := c
  obtain ⟨dn, df, dop⟩ := d
  have h := congrArg String.toList h
  simp [initial, standardRepr, addAttribute] at h
  obtain ⟨h1, h2⟩ := name_inj hc hd h
  simp at h2
  obtain ⟨h3, h4⟩ := list_apart flagOption_apart flagOption_bracketed cf df _ _ hcf hdf h2
  simp [listRepr] at h4
  have h5 := commas_inj co dop hco hdo hce hde (String.toList_inj.mp h4)
  simp at h1
  rw [h1, h3, h5]

/-- The conditions are met: two command lines that differ in one operand print different texts. -/
example : parse "sort -k 2 -r a b,c" = .ok ⟨"sort", [.option "-k" "2", .flag "-r"], ["a", "b,c"]⟩ ∧
    initial ⟨"sort", [.option "-k" "2", .flag "-r"], ["a", "b,c"]⟩ ≠
      initial ⟨"sort", [.option "-k" "2", .flag "-r"], ["a", "b", "c"]⟩ :=
  ⟨by decide +kernel, fun h => absurd (C83_parsed_texts_differ_partial _ _ (by simp [OneLine]) (by simp [OneLine])
    (by simp [OneLineFlag, OneLine]) (by simp [OneLineFlag, OneLine])
    (by simp [NoSeparator]; decide) (by simp [NoSeparator]; decide) (by decide) (by decide) h) (by decide)⟩

theorem commas_intercalate (l : List String) : commas l = ", ".intercalate l := by
  induction l with
  | nil => rfl
  | cons a l ih =>
      cases l with
      | nil => simp [commas]
      | cons b l => rw [String.intercalate_cons_cons, ← ih]; rfl

/-- C83, exactly, for names, flags and options on one line: two parsed invocations print the same text if and only if
they have the same command, flags and options, and the same operands once these are joined with commas. -/
theorem C83_parsed_exact (c d : CommandInvocationInitial) (hc : OneLine c.cmdName) (hd : OneLine d.cmdName)
    (hcf : ∀ x ∈ c.flagOptionList, OneLineFlag x) (hdf : ∀ x ∈ d.flagOptionList, OneLineFlag x) :
    initial c = initial d ↔ c.cmdName = d.cmdName ∧ c.flagOptionList = d.flagOptionList ∧
      ", ".intercalate c.operandList = ", ".intercalate d.operandList := by
  obtain ⟨cn, cf, co⟩ := c
  obtain ⟨dn, df, dop⟩ := d
  rw [← commas_intercalate, ← commas_intercalate]
  constructor
  · intro h
    have h := congrArg String.toList h
    simp [initial, standardRepr, addAttribute] at h
    obtain ⟨h1, h2⟩ := name_inj hc hd h
    simp at h2
    obtain ⟨h3, h4⟩ := list_apart flagOption_apart flagOption_bracketed cf df _ _ hcf hdf h2
    simp [listRepr] at h4
    simp at h1
    exact ⟨h1, h3, String.toList_inj.mp h4⟩
  · rintro ⟨rfl, rfl, h⟩
    simp only [initial, listRepr]
    rw [h]

example : initial ⟨"echo", [], ["a", "b, c"]⟩ = initial ⟨"echo", [], ["a, b", "c"]⟩ :=
  (C83_parsed_exact _ _ (by simp [OneLine]) (by simp [OneLine]) (by simp) (by simp)).2 ⟨rfl, rfl, by decide⟩

set_option maxRecDepth 8000 in
/-- C83 (part: all names on one line). Different typed invocations print different texts: the text tells the command,
every flag, option, operand and stream, and how each is accessed. -/
theorem C83_typed_texts_differ_partial (c d : CommandInvocationWithIO) (hc : OneLineInvocation c)
    (hd : OneLineInvocation d) (h : withIO c = withIO d) : c = d := by
  obtain ⟨cn, cf, co, ci, cu⟩ := c
  obtain ⟨dn, df, dop, di, du⟩ := d
  have h := congrArg String.toList h
  simp [withIO, standardRepr, addAttribute] at h
  obtain ⟨h1, h⟩ := name_inj hc.command hd.command h
  simp at h
  obtain ⟨h2, h⟩ := list_apart flagOptionWithIO_apart flagOptionWithIO_bracketed cf df _ _ hc.flagsAndOptions
    hd.flagsAndOptions h
  simp at h
  obtain ⟨h3, h⟩ := list_apart argWithIO_apart argWithIO_bracketed co dop _ _ hc.operands hd.operands h
  simp at h
  obtain ⟨h4, h⟩ := implicit_apart ci di _ _ hc.input hd.input h
  simp at h
  obtain ⟨h5, _⟩ := implicit_apart cu du ['\n'] ['\n'] hc.output hd.output (by simp [h])
  simp at h1
  rw [h1, h2, h3, h4, h5]

/-- The conditions are met: only the access differs. -/
example : withIO ⟨"cat", [], [.io (.file "a" .streamInput)], none, some (.std .stdout .streamOutput)⟩ ≠
    withIO ⟨"cat", [], [.io (.file "a" .configInput)], none, some (.std .stdout .streamOutput)⟩ :=
  fun h => absurd (C83_typed_texts_differ_partial _ _
    ⟨by simp [OneLine], by simp, by simp [OneLineArg, OneLine], by simp, by simp [OneLineArg]⟩
    ⟨by simp [OneLine], by simp, by simp [OneLineArg, OneLine], by simp, by simp [OneLineArg]⟩ h) (by decide)

end PashAnn
