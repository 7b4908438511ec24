import Verif.Spec.Manual
import Verif.Props.Parse

/-! The shipped databases compared with the manuals, entry by entry. -/

namespace PashAnn
open Spec

instance (g : List (List String)) (w : String) : Decidable (Declared g w) := by unfold Declared; infer_instance

/-- What the table says about one spelling. -/
def manualRow (name : String) (d : JsonData) (e : ManualEntry) (w : String) (a : Argument) : Bool :=
  decide (w ≠ "") &&
  (if InList unknown name w then
    decide (¬ Declared (flagGroups d) w) && decide (¬ Declared (optionGroups d) w) &&
      (match w.toList with | c :: cs => !areAllIndividuallyFlags (setOfAllFlags d) c cs | [] => false)
  else if InList leaving name w then decide (a = .nextWord) && decide (Declared (flagGroups d) w)
  else if InList swallowing name w then
    decide (a ≠ .nextWord) && decide (¬ Declared (flagGroups d) w) && decide (Declared (optionGroups d) w)
  else if a = .nextWord then
    decide (¬ Declared (flagGroups d) w) && decide (Declared (optionGroups d) w) &&
      decide (InList misnamed name w ∨ primaryOption d w ∈ e.map Prod.fst)
  else decide (Declared (flagGroups d) w) && decide (InList misnamed name w ∨ primaryFlag d w ∈ e.map Prod.fst))

/-- What the table says about two spellings of one entry. -/
def synonymRow (name : String) (d : JsonData) (w w' : String) : Bool :=
  decide (Exceptional name w ∨ Exceptional name w' ∨ InList apart name w ∨ InList apart name w' ∨
    (Declared (flagGroups d) w ∧ Declared (flagGroups d) w' ∧ primaryFlag d w = primaryFlag d w') ∨
    (¬ Declared (flagGroups d) w ∧ ¬ Declared (flagGroups d) w' ∧ Declared (optionGroups d) w ∧
      Declared (optionGroups d) w' ∧ primaryOption d w = primaryOption d w'))

/-- The table of all manuals. -/
def manualTable : Bool :=
  manuals.all fun p => decide (Readable p.1) && match Data.table.lookup p.1 with
    | none => false
    | some d => p.2.all fun e => e.all fun wa => manualRow p.1 d e wa.1 wa.2 &&
        e.all fun wa' => synonymRow p.1 d wa.1 wa'.1

theorem manualTable_true : manualTable = true := by decide +kernel

theorem manual_database {name : String} {page : List ManualEntry} (hm : (name, page) ∈ manuals) :
    Readable name ∧ ∃ d, DatabaseFor name d ∧ ∀ e ∈ page, ∀ wa ∈ e, manualRow name d e wa.1 wa.2 = true ∧
      ∀ wa' ∈ e, synonymRow name d wa.1 wa'.1 = true := by
  have h := manualTable_true
  rw [manualTable, List.all_eq_true] at h
  have h := h _ hm
  simp only [Bool.and_eq_true] at h
  refine ⟨of_decide_eq_true h.1, ?_⟩
  have h := h.2
  cases hl : Data.table.lookup name with
  | none => rw [hl] at h; simp at h
  | some d =>
      rw [hl] at h
      refine ⟨d, databaseFor_table (lookup_mem hl), fun e he wa hwa => ?_⟩
      simp only [List.all_eq_true, Bool.and_eq_true] at h
      exact h e he wa hwa

theorem manual_no_slash {name : String} {page : List ManualEntry} (hm : (name, page) ∈ manuals) : '/' ∉ name.toList := by
  have h : manuals.all (fun p => decide ('/' ∉ p.1.toList)) = true := by decide +kernel
  exact of_decide_eq_true (List.all_eq_true.1 h _ hm)

theorem manual_row {name : String} {page : List ManualEntry} {d : JsonData} (hm : (name, page) ∈ manuals)
    (hd : DatabaseFor name d) : ∀ e ∈ page, ∀ wa ∈ e, manualRow name d e wa.1 wa.2 = true ∧
      ∀ wa' ∈ e, synonymRow name d wa.1 wa'.1 = true := by
  obtain ⟨hp, d', hd', h⟩ := manual_database hm
  have : d' = d := by
    have h1 := (databaseFor_iff _ _ hp).2 hd
    rw [(databaseFor_iff _ _ hp).2 hd'] at h1
    exact Except.ok.inj h1
  exact this ▸ h

/-- A word on its own dash starts the operands, except for `uniq`. -/
theorem startsOperands_dash {name : String} {d : JsonData} (hd : DatabaseFor name d) (hu : ¬ Names name "uniq")
    (rest : List String) : StartsOperands d "-" rest := by
  have key : ∀ p ∈ Data.table, p.1 = "uniq" ∨ "-" ∉ setOfAllFlags p.2 ++ setOfAllOptions p.2 := by decide +kernel
  have hk : "-" ∉ setOfAllFlags d ++ setOfAllOptions d := by
    rcases hd with ⟨b, hb, hm⟩ | ⟨_, rfl⟩
    · exact (key _ hm).resolve_left fun h => hu ((show b = "uniq" from h) ▸ hb)
    · simp [Data.d_default_data_for_commands, setOfAllFlags, setOfAllOptions]
  refine .inr ⟨fun h => ?_, fun h => ?_, fun l h => ?_⟩
  · exact hk (List.mem_append.2 (.inl ((mem_setOfAllFlags d _).2 h)))
  · exact hk (List.mem_append.2 (.inr ((mem_setOfAllOptions d _).2 h.1)))
  · have h1 := h.1
    have h2 : ("-" : String).toList = ['-'] := by decide +kernel
    rw [h2] at h1
    exact h.2.1 (List.cons.inj h1).2.symm

theorem startsOperands_manual {name : String} {d : JsonData} (hd : DatabaseFor name d) {w : String}
    (rest : List String) (hw : OperandWord w) (hu : ¬ Names name "uniq" ∨ w ∉ ["-", "f", "s", "w"]) :
    StartsOperands d w rest := by
  rcases hw with rfl | hw
  · exact startsOperands_dash hd (hu.resolve_right (by simp)) rest
  · exact startsOperands_of_head hd hw (hu.imp id fun h h' => h (List.mem_cons_of_mem _ h'))

/-- A flag or option with the name written down for it. -/
def canonOf (d : JsonData) : FlagOption → FlagOption
  | .flag w => .flag (primaryFlag d w)
  | .option w a => .option (primaryOption d w) a

theorem readByManual_listed {page ws fs ops} (h : ReadByManual page ws fs ops) : ∀ f ∈ fs,
    (∃ w a, f = .flag w ∧ a ≠ .nextWord ∧ Lists page w a) ∨ ∃ w arg, f = .option w arg ∧ Lists page w .nextWord := by
  induction h with
  | operands => intro f hf; simp at hf
  | flag hl ha h ih =>
      intro f hf
      rcases List.mem_cons.1 hf with rfl | hf
      · exact .inl ⟨_, _, rfl, ha, hl⟩
      · exact ih f hf
  | option hl h ih =>
      intro f hf
      rcases List.mem_cons.1 hf with rfl | hf
      · exact .inr ⟨_, _, rfl, hl⟩
      · exact ih f hf

/-- How a plain command line without exceptions is read. -/
theorem plain_parse {name : String} {page : List ManualEntry} (hm : (name, page) ∈ manuals)
    {ws : List String} {fs : List FlagOption} {ops : List String} (h : ReadByManual page ws fs ops)
    (hx : ∀ f ∈ fs, ¬ Exceptional name f.getName)
    (hu : name = "uniq" → ∀ w ∈ ops.head?, w ∉ ["-", "f", "s", "w"]) {d : JsonData} (hd : DatabaseFor name d) :
    parse (Shlex.join (name :: ws)) = .ok ⟨name, fs.map (canonOf d), ops⟩ := by
  have hp := (manual_database hm).1
  have hrow := manual_row hm hd
  have key : Derives d ws (fs.map (canonOf d)) ops := by
    clear hp
    induction h with
    | operands h =>
        rename_i ws
        cases ws with
        | nil => exact .done
        | cons w rest =>
            refine .operands (startsOperands_manual hd rest (h w List.mem_cons_self) ?_)
            by_cases hn : name = "uniq"
            · exact .inr (hu hn w (by simp))
            · exact .inl fun h => hn (names_plain (manual_no_slash hm) h).symm
    | flag hl ha h ih =>
        rename_i w a ws fs ops
        have h1 := ih (fun f hf => hx f (List.mem_cons_of_mem _ hf)) hu
        obtain ⟨e, he, hw⟩ := hl
        have hr := (hrow e he _ hw).1
        have hne : ¬ Exceptional name w := hx _ List.mem_cons_self
        simp only [Exceptional, not_or] at hne
        simp only [manualRow, hne.1, hne.2.1, hne.2.2.1, hne.2.2.2, if_false, if_neg ha, Bool.and_eq_true,
          decide_eq_true_eq, false_or] at hr
        exact .flag hr.1 hr.2.1 (primaryFlag_canonical d w) h1
    | option hl h ih =>
        rename_i w arg ws fs ops
        have h1 := ih (fun f hf => hx f (List.mem_cons_of_mem _ hf)) hu
        obtain ⟨e, he, hw⟩ := hl
        have hr := (hrow e he _ hw).1
        have hne : ¬ Exceptional name w := hx _ List.mem_cons_self
        simp only [Exceptional, not_or] at hne
        simp only [manualRow, hne.1, hne.2.1, hne.2.2.1, hne.2.2.2, if_false, if_true, Bool.and_eq_true,
          decide_eq_true_eq, false_or] at hr
        exact .option hr.1 hr.2.1.1 hr.2.1.2 (primaryOption_canonical d w) h1
  rw [parse_join hp hd, derives_functional key]

end PashAnn
